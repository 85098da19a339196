import Verif.Verify
import Verif.Props.Online2D
import Verif.Props.Abs2D
import Mathlib.Tactic.IntervalCases

/-!
# C66: what the quality report of the drivers means
-/

namespace CpSZ.Verify

open Finset

/-- Running maximum of a fold. -/
theorem fold_max (f : Nat → ℝ) (x0 : ℝ) (n : Nat) :
    let m := (List.range n).foldl (fun m i => if m < f i then f i else m) x0
    x0 ≤ m ∧ (∀ i < n, f i ≤ m) ∧ (m = x0 ∨ ∃ i < n, m = f i) := by
  induction n with
  | zero => simp
  | succ n ih =>
    simp only [List.range_succ, List.foldl_append, List.foldl_cons, List.foldl_nil]
    obtain ⟨h1, h2, h3⟩ := ih
    generalize (List.range n).foldl (fun m i => if m < f i then f i else m) x0 = m at *
    by_cases h : m < f n
    · rw [if_pos h]
      refine ⟨by linarith, fun i hi => ?_, Or.inr ⟨n, by omega, rfl⟩⟩
      rcases Nat.lt_succ_iff_lt_or_eq.1 hi with hi | rfl
      · linarith [h2 i hi]
      · exact le_refl _
    · rw [if_neg h]
      refine ⟨h1, fun i hi => ?_, ?_⟩
      · rcases Nat.lt_succ_iff_lt_or_eq.1 hi with hi | rfl
        · exact h2 i hi
        · linarith
      · rcases h3 with h3 | ⟨i, hi, h3⟩
        · exact Or.inl h3
        · exact Or.inr ⟨i, by omega, h3⟩

theorem fold_sum (f : Nat → ℝ) (x0 : ℝ) (n : Nat) :
    (List.range n).foldl (fun s i => s + f i) x0 = x0 + ∑ i ∈ range n, f i := by
  induction n with
  | zero => simp
  | succ n ih =>
    simp only [List.range_succ, List.foldl_append, List.foldl_cons, List.foldl_nil, ih,
      sum_range_succ]
    ring

/-- A fold over records is a record of folds, as long as the components do not interact. -/
theorem fold_proj {A B : Type} (g : A → B) (st : A → Nat → A) (st' : B → Nat → B)
    (h : ∀ a i, g (st a i) = st' (g a) i) (a : A) (l : List Nat) :
    g (l.foldl st a) = l.foldl st' (g a) := by
  induction l generalizing a with
  | nil => rfl
  | cons x l ih => rw [List.foldl_cons, List.foldl_cons, ih, h]

/-- Mean of an array. -/
noncomputable def mean (x : Nat → ℝ) (n : Nat) : ℝ := (∑ i ∈ range n, x i) / n

theorem total_real (x : Nat → ℝ) (n : Nat) :
    realV.div (total realV x n) (realV.ofNat n) = mean x n := by
  have h : total realV x n = ∑ i ∈ range n, x i := by
    have := fold_sum x 0 n
    rw [zero_add] at this
    rw [← this]
    show (List.range n).foldl (fun s i => s + x i) (((0 : Nat) : ℝ)) = _
    rw [Nat.cast_zero]
  show total realV x n / (n : ℝ) = _
  rw [h]
  rfl

/-- **C66** In exact arithmetic and for a non-empty array `verify` prints: the smallest and
the largest original value and their distance; the largest absolute error and its quotient by the
range; the largest error relative to the value among the values of magnitude above one (0 if there is
none); the peak signal to noise ratio and the normalised root mean square error; the correlation of the
two arrays, which lies between -1 and 1. -/
theorem C66_report (o d : Nat → ℝ) (n : Nat) (hn : 0 < n) :
    let r := verify realV o d n
    (∀ i < n, r.min ≤ o i) ∧ (∃ i < n, r.min = o i) ∧
    (∀ i < n, o i ≤ r.max) ∧ (∃ i < n, r.max = o i) ∧ r.range = r.max - r.min ∧
    (∀ i < n, |d i - o i| ≤ r.maxAbs) ∧ (∃ i < n, r.maxAbs = |d i - o i|) ∧
    r.maxRel = r.maxAbs / r.range ∧
    (∀ i < n, 1 < |o i| → |d i - o i| ≤ r.maxPw * |o i|) ∧
    (r.maxPw = 0 ∨ ∃ i < n, 1 < |o i| ∧ r.maxPw * |o i| = |d i - o i|) ∧
    r.mse = (∑ i ∈ range n, (d i - o i) ^ 2) / n ∧
    (0 < r.range → 0 < r.mse → r.psnr = 20 * Real.logb 10 (r.range / Real.sqrt r.mse)) ∧
    r.nrmse = Real.sqrt r.mse / r.range ∧
    r.acEff = (∑ i ∈ range n, (o i - mean o n) * (d i - mean d n)) /
      (Real.sqrt (∑ i ∈ range n, (o i - mean o n) ^ 2) *
        Real.sqrt (∑ i ∈ range n, (d i - mean d n) ^ 2)) ∧
    |r.acEff| ≤ 1 := by
  have hn' : (0 : ℝ) < n := by exact_mod_cast hn
  set a := loops realV o d n with ha
  have hl : a = (List.range n).foldl (step realV o d (mean o n) (mean d n))
      ⟨o 0, o 0, |d 0 - o 0|, 0, 0, 0, 0, 0⟩ := by
    rw [ha]
    unfold loops
    rw [total_real, total_real]
    show (List.range n).foldl _ (⟨o 0, o 0, |d 0 - o 0|, ((0 : Nat) : ℝ), ((0 : Nat) : ℝ),
      ((0 : Nat) : ℝ), ((0 : Nat) : ℝ), ((0 : Nat) : ℝ)⟩ : Acc ℝ ℝ) = _
    rw [Nat.cast_zero]
  -- the components
  have hmax : a.max = (List.range n).foldl (fun m i => if m < o i then o i else m) (o 0) := by
    rw [hl]
    refine fold_proj Acc.max _ _ (fun a i => ?_) _ _
    show (if decide (a.max < o i) = true then o i else a.max) = _
    simp only [decide_eq_true_eq]
  have hmin : -a.min = (List.range n).foldl (fun m i => if m < -o i then -o i else m) (-o 0) := by
    rw [hl]
    refine fold_proj (fun a => -Acc.min a) _ _ (fun a i => ?_) _ _
    show -(if decide (o i < a.min) = true then o i else a.min) = _
    simp only [decide_eq_true_eq, neg_lt_neg_iff]
    split <;> rfl
  have hdiff : a.diffMax = (List.range n).foldl
      (fun m i => if m < |d i - o i| then |d i - o i| else m) |d 0 - o 0| := by
    rw [hl]
    refine fold_proj Acc.diffMax _ _ (fun a i => ?_) _ _
    show (if decide (a.diffMax < |d i - o i|) = true then |d i - o i| else a.diffMax) = _
    simp only [decide_eq_true_eq]
  have hpw : a.maxPw = (List.range n).foldl
      (fun m i => if m < (if 1 < |o i| then |d i - o i| / |o i| else 0) then
        (if 1 < |o i| then |d i - o i| / |o i| else 0) else m) 0 := by
    -- the running value never becomes negative, so values not above one change nothing
    have key : ∀ l : List Nat, ∀ a0 : Acc ℝ ℝ, 0 ≤ a0.maxPw →
        (l.foldl (step realV o d (mean o n) (mean d n)) a0).maxPw = l.foldl
      (fun m i => if m < (if 1 < |o i| then |d i - o i| / |o i| else 0) then
        (if 1 < |o i| then |d i - o i| / |o i| else 0) else m) a0.maxPw := by
      intro l
      induction l with
      | nil => intro a0 _; rfl
      | cons i l ih =>
        intro a0 h0
        rw [List.foldl_cons, List.foldl_cons]
        have hs : (step realV o d (mean o n) (mean d n) a0 i).maxPw =
            if a0.maxPw < (if 1 < |o i| then |d i - o i| / |o i| else 0) then
              (if 1 < |o i| then |d i - o i| / |o i| else 0) else a0.maxPw := by
          show (if (decide (o i ≠ 0) && decide (1 < |o i|)) = true then
            (if decide (a0.maxPw < |d i - o i| / |o i|) = true then |d i - o i| / |o i|
              else a0.maxPw) else a0.maxPw) = _
          by_cases h1 : 1 < |o i|
          · have h2 : o i ≠ 0 := by
              intro h
              rw [h, abs_zero] at h1
              linarith
            simp [h1, h2]
          · have : ¬ a0.maxPw < 0 := by linarith
            simp [h1, this]
        have hnn : 0 ≤ (step realV o d (mean o n) (mean d n) a0 i).maxPw := by
          rw [hs]
          generalize (if 1 < |o i| then |d i - o i| / |o i| else 0) = y
          split
          · linarith
          · exact h0
        rw [ih _ hnn, hs]
    rw [hl]
    exact key _ _ (le_refl 0)
  have hsum : a.sum = ∑ i ∈ range n, (d i - o i) ^ 2 := by
    have h := fold_sum (fun i => (d i - o i) ^ 2) 0 n
    rw [zero_add] at h
    rw [← h, hl]
    refine fold_proj Acc.sum _ _ (fun a i => ?_) _ _
    show a.sum + |d i - o i| * |d i - o i| = _
    rw [abs_mul_abs_self, sq]
  have hprod : a.prodSum = ∑ i ∈ range n, (o i - mean o n) * (d i - mean d n) := by
    have h := fold_sum (fun i => (o i - mean o n) * (d i - mean d n)) 0 n
    rw [zero_add] at h
    rw [← h, hl]
    exact fold_proj Acc.prodSum _ _ (fun a i => rfl) _ _
  have hs3 : a.sum3 = ∑ i ∈ range n, (o i - mean o n) ^ 2 := by
    have h := fold_sum (fun i => (o i - mean o n) ^ 2) 0 n
    rw [zero_add] at h
    rw [← h, hl]
    refine fold_proj Acc.sum3 _ _ (fun a i => ?_) _ _
    show a.sum3 + (o i - mean o n) * (o i - mean o n) = _
    rw [sq]
  have hs4 : a.sum4 = ∑ i ∈ range n, (d i - mean d n) ^ 2 := by
    have h := fold_sum (fun i => (d i - mean d n) ^ 2) 0 n
    rw [zero_add] at h
    rw [← h, hl]
    refine fold_proj Acc.sum4 _ _ (fun a i => ?_) _ _
    show a.sum4 + (d i - mean d n) * (d i - mean d n) = _
    rw [sq]
  have q3 : 0 ≤ ∑ i ∈ range n, (o i - mean o n) ^ 2 := sum_nonneg fun i _ => sq_nonneg _
  have q4 : 0 ≤ ∑ i ∈ range n, (d i - mean d n) ^ 2 := sum_nonneg fun i _ => sq_nonneg _
  have hac : (verify realV o d n).acEff = (∑ i ∈ range n, (o i - mean o n) * (d i - mean d n)) /
      (Real.sqrt (∑ i ∈ range n, (o i - mean o n) ^ 2) *
        Real.sqrt (∑ i ∈ range n, (d i - mean d n) ^ 2)) := by
    show a.prodSum / (n : ℝ) / Real.sqrt (a.sum3 / n) / Real.sqrt (a.sum4 / n) = _
    rw [hprod, hs3, hs4, Real.sqrt_div q3, Real.sqrt_div q4, div_div, div_div]
    have hsn : Real.sqrt (n : ℝ) * Real.sqrt n = n := Real.mul_self_sqrt hn'.le
    have hs0 : Real.sqrt (n : ℝ) ≠ 0 := (Real.sqrt_pos.2 hn').ne'
    congr 1
    rw [div_mul_div_comm, hsn]
    field_simp
  obtain ⟨-, m2, m3⟩ := fold_max o (o 0) n
  obtain ⟨-, l2, l3⟩ := fold_max (fun i => -o i) (-o 0) n
  obtain ⟨-, e2, e3⟩ := fold_max (fun i => |d i - o i|) (|d 0 - o 0|) n
  obtain ⟨-, p2, p3⟩ := fold_max (fun i => if 1 < |o i| then |d i - o i| / |o i| else 0) 0 n
  rw [← hmax] at m2 m3
  rw [← hmin] at l2 l3
  rw [← hdiff] at e2 e3
  rw [← hpw] at p2 p3
  refine ⟨fun i hi => ?_, ?_, m2, ?_, rfl, e2, ?_, rfl, fun i hi h1 => ?_, ?_, ?_, ?_, rfl, hac, ?_⟩
  · have := l2 i hi
    show a.min ≤ o i
    linarith
  · rcases l3 with h | ⟨i, hi, h⟩
    · exact ⟨0, hn, neg_injective h⟩
    · exact ⟨i, hi, neg_injective h⟩
  · rcases m3 with h | ⟨i, hi, h⟩
    · exact ⟨0, hn, h⟩
    · exact ⟨i, hi, h⟩
  · rcases e3 with h | ⟨i, hi, h⟩
    · exact ⟨0, hn, h⟩
    · exact ⟨i, hi, h⟩
  · have := p2 i hi
    simp only [h1, if_true] at this
    have h0 : (0 : ℝ) < |o i| := by linarith
    exact (div_le_iff₀ h0).1 this
  · rcases p3 with h | ⟨i, hi, h⟩
    · exact Or.inl h
    · by_cases h1 : 1 < |o i|
      · right
        refine ⟨i, hi, h1, ?_⟩
        rw [if_pos h1] at h
        show a.maxPw * |o i| = _
        rw [h, div_mul_cancel₀]
        linarith
      · left
        rw [if_neg h1] at h
        exact h
  · show a.sum / (n : ℝ) = _
    rw [hsum]
  · intro hr hm
    show ((20 : ℕ) : ℝ) * Real.logb 10 (verify realV o d n).range -
      ((10 : ℕ) : ℝ) * Real.logb 10 (verify realV o d n).mse = _
    rw [Real.logb_div hr.ne' (Real.sqrt_pos.2 hm).ne', Real.sqrt_eq_rpow, Real.logb_rpow_eq_mul_logb_of_pos hm]
    push_cast
    ring
  · rw [hac, abs_div, abs_of_nonneg (mul_nonneg (Real.sqrt_nonneg _) (Real.sqrt_nonneg _)),
      ← Real.sqrt_mul q3]
    refine div_le_one_of_le₀ ?_ (Real.sqrt_nonneg _)
    rw [← Real.sqrt_sq_eq_abs]
    exact Real.sqrt_le_sqrt (sum_mul_sq_le_sq_mul_sq _ _ _)

/-- Non-trivial instance: two values, one changed. -/
example : let r := verify realV (fun i => if i = 0 then 2 else 5) (fun i => if i = 0 then 3 else 5) 2
    r.range = 3 ∧ r.maxAbs = 1 := by
  intro r
  obtain ⟨a1, ⟨i, hi, ei⟩, b1, ⟨j, hj, ej⟩, c1, d1, ⟨k, hk, ek⟩, -⟩ :=
    C66_report (fun i => if i = 0 then 2 else 5) (fun i => if i = 0 then 3 else 5) 2 (by norm_num)
  have e0 : (2 : ℝ) ≤ r.max := by simpa using b1 0 (by norm_num)
  have e1 : (5 : ℝ) ≤ r.max := by simpa using b1 1 (by norm_num)
  have f0 : r.min ≤ 2 := by simpa using a1 0 (by norm_num)
  have f1 : r.min ≤ 5 := by simpa using a1 1 (by norm_num)
  have g0 : (1 : ℝ) ≤ r.maxAbs := by
    have h := d1 0 (by norm_num)
    norm_num at h
    exact h
  have hmax : r.max = 5 := by
    have h : r.max = _ := ej
    interval_cases j <;> norm_num at h <;> linarith
  have hmin : r.min = 2 := by
    have h : r.min = _ := ei
    interval_cases i <;> norm_num at h <;> linarith
  have habs : r.maxAbs = 1 := by
    have h : r.maxAbs = _ := ek
    interval_cases k <;> norm_num at h <;> linarith
  refine ⟨?_, habs⟩
  have : r.range = r.max - r.min := c1
  rw [this, hmax, hmin]
  norm_num

/-- **C66** If no value moves by more than `e`, then the reported error is at most `e`, the peak signal
to noise ratio at least `20 log10 (range / e)` and the normalised root mean square error at most
`e / range`. -/
theorem C66_bound (o d : Nat → ℝ) (n : Nat) (hn : 0 < n) (e : ℝ)
    (h : ∀ i < n, |d i - o i| ≤ e) :
    let r := verify realV o d n
    r.maxAbs ≤ e ∧ r.mse ≤ e ^ 2 ∧
    (0 < r.range → 0 < r.mse → 20 * Real.logb 10 (r.range / e) ≤ r.psnr) ∧
    (0 < r.range → r.nrmse ≤ e / r.range) := by
  intro r
  obtain ⟨-, -, -, -, -, -, ⟨i, hi, e1⟩, -, -, -, e2, e3, e4, -⟩ := C66_report o d n hn
  have hn' : (0 : ℝ) < n := by exact_mod_cast hn
  have he0 : 0 ≤ e := le_trans (abs_nonneg _) (h 0 hn)
  have hmse : r.mse ≤ e ^ 2 := by
    show (verify realV o d n).mse ≤ e ^ 2
    rw [e2, div_le_iff₀ hn']
    calc ∑ i ∈ range n, (d i - o i) ^ 2 ≤ ∑ _i ∈ range n, e ^ 2 := by
          refine sum_le_sum fun i hi => ?_
          rw [← sq_abs]
          exact pow_le_pow_left₀ (abs_nonneg _) (h i (mem_range.1 hi)) 2
      _ = e ^ 2 * n := by
          rw [sum_const, card_range, nsmul_eq_mul, mul_comm]
  have hsq : Real.sqrt r.mse ≤ e := by
    rw [← Real.sqrt_sq he0]
    exact Real.sqrt_le_sqrt hmse
  refine ⟨?_, hmse, fun hr hm => ?_, fun hr => ?_⟩
  · show (verify realV o d n).maxAbs ≤ e
    rw [e1]
    exact h i hi
  · show _ ≤ (verify realV o d n).psnr
    rw [e3 hr hm]
    have hs : 0 < Real.sqrt r.mse := Real.sqrt_pos.2 hm
    have he : 0 < e := lt_of_lt_of_le hs hsq
    refine mul_le_mul_of_nonneg_left ?_ (by norm_num)
    refine Real.logb_le_logb_of_le (by norm_num) (div_pos hr he) ?_
    exact div_le_div_of_nonneg_left hr.le hs hsq
  · show (verify realV o d n).nrmse ≤ _
    rw [e4]
    exact div_le_div_of_nonneg_right hsq hr.le

/-- **C66** End to end for the 2D absolute mode: the driver reports an error of at most the bound and
at least the corresponding peak signal to noise ratio, for both components. -/
theorem C66_absolute_mode (r1 r2 : Nat) (maxEb : ℝ) (h0 : 0 ≤ maxEb) (hn : 0 < r1 * r2)
    (m m' m0 d : Online2D.Field ℝ) (s : Online2D.Streams ℝ)
    (h : Online2D.compressAbs r1 r2 maxEb m = some (m', s))
    (hd : Online2D.decompressRel r1 r2 m0 s = some d) :
    (verify realV m.u d.u (r1 * r2)).maxAbs ≤ maxEb ∧
    (verify realV m.v d.v (r1 * r2)).maxAbs ≤ maxEb ∧
    (0 < (verify realV m.u d.u (r1 * r2)).range → 0 < (verify realV m.u d.u (r1 * r2)).mse →
      20 * Real.logb 10 ((verify realV m.u d.u (r1 * r2)).range / maxEb) ≤
        (verify realV m.u d.u (r1 * r2)).psnr) ∧
    (0 < (verify realV m.v d.v (r1 * r2)).range → 0 < (verify realV m.v d.v (r1 * r2)).mse →
      20 * Real.logb 10 ((verify realV m.v d.v (r1 * r2)).range / maxEb) ≤
        (verify realV m.v d.v (r1 * r2)).psnr) := by
  have hu : ∀ i < r1 * r2, |d.u i - m.u i| ≤ maxEb := fun i hi => by
    rcases (Online2D.C20_absolute_error r1 r2 maxEb m m' m0 d s h hd i hi).1 with e | e
    · rw [e, sub_self, abs_zero]
      exact h0
    · exact e.le
  have hv : ∀ i < r1 * r2, |d.v i - m.v i| ≤ maxEb := fun i hi => by
    rcases (Online2D.C20_absolute_error r1 r2 maxEb m m' m0 d s h hd i hi).2 with e | e
    · rw [e, sub_self, abs_zero]
      exact h0
    · exact e.le
  obtain ⟨u1, -, u3, -⟩ := C66_bound m.u d.u (r1 * r2) hn maxEb hu
  obtain ⟨v1, -, v3, -⟩ := C66_bound m.v d.v (r1 * r2) hn maxEb hv
  exact ⟨u1, v1, u3, v3⟩

/-- **C66** End to end for the 2D relative mode: the reported largest relative error is at most the
bound. -/
theorem C66_relative_mode (r1 r2 : Nat) (maxEb : ℝ) (h0 : 0 ≤ maxEb) (hn : 0 < r1 * r2)
    (m m' m0 d : Online2D.Field ℝ) (s : Online2D.Streams ℝ)
    (h : Online2D.compressRel r1 r2 maxEb m = some (m', s))
    (hd : Online2D.decompressRel r1 r2 m0 s = some d) :
    (verify realV m.u d.u (r1 * r2)).maxPw ≤ maxEb ∧
    (verify realV m.v d.v (r1 * r2)).maxPw ≤ maxEb := by
  have key : ∀ x y : Nat → ℝ, (∀ i < r1 * r2, y i = x i ∨ |y i - x i| < |x i| * maxEb) →
      (verify realV x y (r1 * r2)).maxPw ≤ maxEb := by
    intro x y hxy
    obtain ⟨-, -, -, -, -, -, -, -, -, e, -⟩ := C66_report x y (r1 * r2) hn
    rcases e with e | ⟨i, hi, h1, e⟩
    · rw [e]
      exact h0
    · have hp : 0 < |x i| := by linarith
      refine le_of_mul_le_mul_right ?_ hp
      rw [e, mul_comm maxEb]
      rcases hxy i hi with e | e
      · rw [e, sub_self, abs_zero]
        positivity
      · exact e.le
  exact ⟨key m.u d.u fun i hi => (Online2D.C14_relative_error r1 r2 maxEb m m' m0 d s h hd i hi).1,
    key m.v d.v fun i hi => (Online2D.C14_relative_error r1 r2 maxEb m m' m0 d s h hd i hi).2⟩

/-- The reported relative error says nothing about values of magnitude up to one: a value `1/2` that
comes back as 0 has relative error 1, the report says 0. -/
theorem C66_small_values_ignored :
    ∃ o d : Nat → ℝ, (verify realV o d 1).maxPw = 0 ∧ |d 0 - o 0| = 1 * |o 0| ∧ o 0 ≠ 0 := by
  refine ⟨fun _ => 1 / 2, fun _ => 0, ?_, by norm_num, by norm_num⟩
  obtain ⟨-, -, -, -, -, -, -, -, -, e, -⟩ := C66_report (fun _ => 1 / 2) (fun _ => 0) 1 (by norm_num)
  rcases e with e | ⟨i, hi, h1, e⟩
  · exact e
  · exfalso
    norm_num [abs_of_pos] at h1

/-- **C66** in any arithmetic: an element other than the first whose error compares greater than
nothing, as a NaN does, does not change the reported errors: the same is reported when this element is
exact (`d' k` any value whose error is greater than no other error). -/
theorem C66_nan_ignored {T D : Type} (O : VOps T D) (o d d' : Nat → T) (n k : Nat) (hk : 0 < k)
    (hd : ∀ i, i ≠ k → d' i = d i)
    (hnan : ∀ x, O.ltT x (O.dist (d k) (o k)) = false)
    (hex : ∀ i, O.ltT (O.dist (d i) (o i)) (O.dist (d' k) (o k)) = false) :
    (verify O o d n).maxAbs = (verify O o d' n).maxAbs := by
  show (loops O o d n).diffMax = (loops O o d' n).diffMax
  have hp : ∀ e m1 m2 l a, (List.foldl (step O o e m1 m2) a l).diffMax = l.foldl
      (fun x i => if O.ltT x (O.dist (e i) (o i)) then O.dist (e i) (o i) else x) a.diffMax :=
    fun e m1 m2 l a => fold_proj Acc.diffMax _ _ (fun a i => rfl) a l
  unfold loops
  rw [hp, hp]
  simp only
  rw [hd 0 (by omega)]
  have key : ∀ l : List Nat, ∀ x, (∃ i, x = O.dist (d i) (o i)) →
      l.foldl (fun x i => if O.ltT x (O.dist (d i) (o i)) then O.dist (d i) (o i) else x) x =
      l.foldl (fun x i => if O.ltT x (O.dist (d' i) (o i)) then O.dist (d' i) (o i) else x) x := by
    intro l
    induction l with
    | nil => intro x _; rfl
    | cons i l ih =>
      intro x hx
      rw [List.foldl_cons, List.foldl_cons]
      by_cases hi : i = k
      · subst hi
        obtain ⟨j, rfl⟩ := hx
        rw [hnan, hex]
        exact ih _ ⟨j, rfl⟩
      · rw [hd i hi]
        refine ih _ ?_
        split
        · exact ⟨i, rfl⟩
        · exact hx
  exact key _ _ ⟨0, rfl⟩

/-- Instance with an explicit not-a-number (`none`), which compares false with everything. -/
example : let lt : Option Int → Option Int → Bool := fun x y => match x, y with
      | some x, some y => decide (x < y)
      | _, _ => false
    let dist : Option Int → Option Int → Option Int := fun x y => match x, y with
      | some x, some y => some |x - y|
      | _, _ => none
    let d : Nat → Option Int := fun i => if i = 2 then none else some 7
    let d' : Nat → Option Int := fun i => if i = 2 then some 5 else some 7
    let o : Nat → Option Int := fun _ => some 5
    (∀ i, i ≠ 2 → d' i = d i) ∧ (∀ x, lt x (dist (d 2) (o 2)) = false) ∧
    ∀ i, lt (dist (d i) (o i)) (dist (d' 2) (o 2)) = false := by
  intro lt dist d d' o
  refine ⟨fun i hi => by simp [d, d', hi], fun x => by cases x <;> rfl, fun i => ?_⟩
  by_cases hi : i = 2
  · subst hi
    rfl
  · simp [d, d', o, dist, lt, hi]

end CpSZ.Verify
