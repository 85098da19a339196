import Verif.Props.Choice
import Verif.Props.Estimate
import Verif.Props.FloatBlock
/-
C63: the block codecs with all the choices they make by themselves.
-/

namespace CpSZ.Block

open Estimate Rounded

variable {T F D : Type}

/-! ### The parameters that `sz_compress_3d` chooses -/

theorem first_stop (P : Nat → Prop) (h : ∃ n, ¬ P n) : ∃ n, (∀ i < n, P i) ∧ ¬ P n := by
  classical
  exact ⟨Nat.find h, fun i hi => not_not.1 (Nat.find_min h hi), Nat.find_spec h⟩

/-- The histogram of the prediction errors counts the sampled positions by their index. -/
theorem modify_take (l : List Nat) (i k : Nat) (hi : i < l.length) :
    ((l.modify i (· + 1)).take k).sum = (l.take k).sum + if i < k then 1 else 0 := by
  induction l generalizing i k with
  | nil => simp at hi
  | cons a l ih =>
    cases k with
    | zero => simp
    | succ k =>
      cases i with
      | zero => simp; omega
      | succ i =>
        simp only [List.modify_succ_cons, List.take_succ_cons, List.sum_cons,
          ih i k (by simpa using hi)]
        split <;> split <;> omega

/-- The Lorenzo prediction from the input at a sampled position
(include/sz_optimize_quant_intervals.hpp L88). -/
def samplePred (A : OptOps T F D) (data : Nat → T) (r2 r3 p : Nat) : T :=
  A.lorT3 (data (p - 1)) (data (p - r3)) (data (p - r2 * r3)) (data (p - r3 - 1))
    (data (p - r2 * r3 - 1)) (data (p - r2 * r3 - r3)) (data (p - r2 * r3 - r3 - 1))

theorem sampleLoop_hist (A : OptOps T F D) (data : Nat → T) (len r2 r3 : Nat) (prec : D)
    (rough : F) (k : Nat) :
    ∀ n h, h.iv.length = 32768 → (∀ i < n, running len (sampAt r2 r3 (k + i)).pos) →
      ¬ running len (sampAt r2 r3 (k + n)).pos → ∀ fuel v,
        sampleLoop A data len r2 r3 prec rough fuel (sampAt r2 r3 k) h = some v →
        v.iv.length = 32768 ∧ v.n = h.n + n ∧ ∀ m, (v.iv.take m).sum = (h.iv.take m).sum +
          ((List.range n).filter fun i =>
            let p := (sampAt r2 r3 (k + i)).pos.toNat
            min (A.errIdx (samplePred A data r2 r3 p) (data p) prec) 32767 < m).length := by
  intro n
  induction n generalizing k with
  | zero =>
    intro h hl _ hn fuel v hv
    cases fuel with
    | zero => cases hv
    | succ fuel =>
      rw [sampleLoop, if_neg (by simpa using hn)] at hv
      injection hv with hv
      subst hv
      exact ⟨hl, rfl, by simp⟩
  | succ n ih =>
    intro h hl hr hn fuel v hv
    cases fuel with
    | zero => cases hv
    | succ fuel =>
      rw [sampleLoop, if_pos (by simpa using hr 0 (by omega))] at hv
      obtain ⟨a, b, c⟩ := ih (k + 1)
        (sampleAt A data r2 r3 prec rough h (sampAt r2 r3 k).pos.toNat)
        (by simpa [sampleAt] using hl)
        (fun i hi => by
          have := hr (i + 1) (by omega)
          rwa [show k + 1 + i = k + (i + 1) by omega])
        (by rwa [show k + 1 + n = k + (n + 1) by omega]) fuel v hv
      refine ⟨a, ?_, fun m => ?_⟩
      · rw [b]; simp only [sampleAt]; omega
      · rw [c m, List.range_succ_eq_map, List.filter_cons, List.filter_map, Nat.add_zero]
        have e : (sampleAt A data r2 r3 prec rough h (sampAt r2 r3 k).pos.toNat).iv =
            h.iv.modify (min (A.errIdx (samplePred A data r2 r3 (sampAt r2 r3 k).pos.toNat)
              (data (sampAt r2 r3 k).pos.toNat) prec) 32767) (· + 1) := by
          simp only [sampleAt, samplePred, hl]
          congr 1
          split <;> omega
        rw [e, modify_take _ _ _ (by rw [hl]; omega)]
        have e2 : ((fun i => decide (min (A.errIdx (samplePred A data r2 r3
              (sampAt r2 r3 (k + i)).pos.toNat) (data (sampAt r2 r3 (k + i)).pos.toNat) prec)
              32767 < m)) ∘ Nat.succ) = fun i => decide (min (A.errIdx (samplePred A data r2 r3
              (sampAt r2 r3 (k + 1 + i)).pos.toNat) (data (sampAt r2 r3 (k + 1 + i)).pos.toNat)
              prec) 32767 < m) := by
          funext i
          simp only [Function.comp, Nat.succ_eq_add_one, show k + (i + 1) = k + 1 + i by omega]
        simp only [e2]
        generalize min (A.errIdx (samplePred A data r2 r3 (sampAt r2 r3 k).pos.toNat)
              (data (sampAt r2 r3 k).pos.toNat) prec) 32767 = w
        by_cases hw : w < m
        · simp [hw]; omega
        · simp [hw]

/-- With a distance of at least three the pass over the rough mean comes to an end. -/
theorem rough_stops (len r2 r3 sd : Nat) (hs : 3 ≤ sd) :
    ∃ n, ¬ running len (roughAt r2 r3 sd n).pos := by
  have hgrow : ∀ n : Nat, (n : Int) ≤ (roughAt r2 r3 sd n).pos := by
    intro n
    induction n with
    | zero => simp [roughAt]
    | succ n ih =>
      have := (rough_pos r2 r3 sd n).2
      push_cast
      omega
  refine ⟨len, fun hr => ?_⟩
  have := hgrow len
  have := hr.2
  omega

/-- For a grid of at least nine values `optimize_quant_invl_3d` comes to an end, and what it
returns does not depend on the bound on the number of iterations (`hs` is all that is needed of
the square root of a number that is at least nine).  The capacity is a power of
two between 32 and 131072.  It is large enough: if the number of samples exceeds the target at
all, more samples than the target have an error index below a quarter of the capacity. -/
theorem C63_optimize (A : OptOps T F D) (data : Nat → T) (r1 r2 r3 : Nat) (prec : D)
    (h9 : 9 ≤ r1 * r2 * r3) (hs : 3 ≤ A.sqrt (r1 * r2 * r3)) :
    ∃ fuel0 mean cap N, (∀ fuel, fuel0 ≤ fuel →
        optimize A data r1 r2 r3 prec fuel = some (mean, cap)) ∧
      (∃ j, 5 ≤ j ∧ j ≤ 17 ∧ cap = 2 ^ j) ∧
      (∀ i < N, running (r1 * r2 * r3) (sampAt r2 r3 i).pos) ∧
      ¬ running (r1 * r2 * r3) (sampAt r2 r3 N).pos ∧
      (A.target N < N → A.target N < ((List.range N).filter fun i =>
        let p := (sampAt r2 r3 i).pos.toNat
        min (A.errIdx (samplePred A data r2 r3 p) (data p) prec) 32767 < cap / 4).length) := by
  have h3 : 0 < r3 := by
    rcases Nat.eq_zero_or_pos r3 with h | h
    · subst h; simp at h9
    · exact h
  obtain ⟨n1, ha1, hb1⟩ := first_stop _ (rough_stops (r1 * r2 * r3) r2 r3 _ hs)
  obtain ⟨N, ha2, hb2⟩ := first_stop _ (C45_sampling_terminates r1 r2 r3 h3)
  obtain ⟨⟨ms, mc⟩, hv1⟩ := roughLoop_some A data (r1 * r2 * r3) r2 r3
    (A.sqrt (r1 * r2 * r3)) 0 n1 A.zeroD 0 (by simpa using ha1) (by simpa using hb1)
  obtain ⟨h, hv2⟩ := sampleLoop_some A data (r1 * r2 * r3) r2 r3 prec (A.meanOf ms mc) 0 N
    ⟨List.replicate 32768 0, List.replicate 8192 0, 0, 0⟩ (by simpa using ha2)
    (by simpa using hb2)
  obtain ⟨hl, hn, hh⟩ := sampleLoop_hist A data (r1 * r2 * r3) r2 r3 prec (A.meanOf ms mc) 0 N
    ⟨List.replicate 32768 0, List.replicate 8192 0, 0, 0⟩ List.length_replicate
    (by simpa using ha2)
    (by simpa using hb2) (N + 1) h (hv2 _ (by omega))
  obtain ⟨⟨k, hk5, hk⟩, hcap, hcov, -⟩ := C38_capacity h.iv (A.target h.n)
    (by rintro h0; rw [h0] at hl; simp at hl) (by rw [hl]; norm_num)
  have hk17 : k ≤ 17 := by
    have := hcap 17 (by norm_num) (by rw [hl]; norm_num)
    rw [hk] at this
    exact (Nat.pow_le_pow_iff_right (by norm_num)).1 this
  have hr : ∀ fuel, n1 + N + 1 ≤ fuel →
      roughMean A data r1 r2 r3 fuel = some (A.meanOf ms mc) := by
    intro fuel hf
    unfold roughMean
    rw [show (⟨0, 0, 0⟩ : Rough) = roughAt r2 r3 (A.sqrt (r1 * r2 * r3)) 0 from rfl,
      hv1 fuel (by omega)]
    rfl
  have hmain : ∃ mean, ∀ fuel, n1 + N + 1 ≤ fuel → optimize A data r1 r2 r3 prec fuel =
      some (mean, (estimate h.iv (A.target h.n)).toNat) := by
    refine ⟨pickMean A data (r1 * r2 * r3) prec (A.meanOf ms mc) h, fun fuel hf => ?_⟩
    unfold optimize
    rw [hr fuel hf]
    dsimp only
    rw [show sampInit r2 r3 = sampAt r2 r3 0 from rfl, hv2 fuel (by omega)]
  obtain ⟨mean, hm⟩ := hmain
  refine ⟨n1 + N + 1, mean, _, N, hm, ⟨k, hk5, hk17, hk⟩, ha2, hb2, fun ht => ?_⟩
  have hn' : h.n = N := by simpa using hn
  rw [hn'] at hcov hk ⊢
  have hz : ∀ m, ((List.replicate 32768 0).take m).sum = 0 := by
    intro m
    rw [List.take_replicate, List.sum_replicate]
    exact Nat.mul_zero _
  have hsum : h.iv.sum = N := by
    have := hh 32768
    rw [List.take_of_length_le (by omega)] at this
    rw [this]
    have : ((List.range N).filter fun i =>
        let p := (sampAt r2 r3 (0 + i)).pos.toNat
        min (A.errIdx (samplePred A data r2 r3 p) (data p) prec) 32767 < 32768) =
        List.range N := by
      rw [List.filter_eq_self]
      intro i _
      simp only [decide_eq_true_eq]
      omega
    rw [this, hz, List.length_range, Nat.zero_add]
  have := hcov (by rw [hsum]; exact ht)
  rw [hh, hz, Nat.zero_add] at this
  simpa only [Nat.zero_add] using this

/-! ### The complete codecs -/

/-- Whatever `sz_compress_3d` chooses: for a grid of at least nine values it returns, and
`sz_decompress_3d` reads its bytes back with every value exact, within the precision as the
compressor computes it, or equal to the mean that was stored, at a distance less than the
precision.  The hypotheses are those of C37 for every capacity that can be chosen. -/
theorem C63_roundtrip_3d (A : OptOps T F D) (f : Fmt T F D) (hskip : f.skip = f.cT.size)
    (E1 E2 : Env) (data : Nat → T) (prec : D) (r1 r2 r3 bs : Nat) (indep : Bool)
    (h9 : 9 ≤ r1 * r2 * r3) (hs : 3 ≤ A.sqrt (r1 * r2 * r3))
    (hb : 0 < bs) (hb31 : bs < 2 ^ 31) (hn : r1 * r2 * r3 < 2 ^ 58)
    (hcode : ∀ radius : Nat, 16 ≤ radius → radius ≤ 65536 → ∀ diff q,
      linQuant A.O.toDOps diff prec (2 * radius) radius = some q → 0 < q ∧ q < 2 * radius)
    (hmean : ∀ radius : Nat, 16 ≤ radius → radius ≤ 65536 → ∀ diff q,
      linQuant A.O.toDOps diff prec (2 * radius - 2) radius = some q → 1 < q ∧ q < 2 * radius)
    (hcoef : ∀ p ∈ regPrecs A.toBOps 4 prec bs, ∀ diff q,
      linQuant A.C.toDOps diff p 65536 32768 = some q → 0 < q ∧ q < 65536)
    (hd : ∀ fuel mean cap, optimize A data r1 r2 r3 prec fuel = some (mean, cap) →
      let o := out3 A.toBOps data prec r1 r2 r3 bs indep (cap / 2) mean
        (choose3 A.toFitOps data r2 r3 mean prec)
      (o.coefs.length ≠ 0 → DepthOK E1 131072 o.rty) ∧ DepthOK E2 (4 * (cap / 2)) o.ty) :
    ∃ fuel0 bytes, (∀ fuel, fuel0 ≤ fuel →
        szCompress3 A f E1 E2 data prec r1 r2 r3 bs indep fuel = some bytes) ∧
      ∀ rest out0, ∃ out, decompress3 A.toBOps f r1 r2 r3 out0 (bytes ++ rest) = some out ∧
        ∀ p < r1 * r2 * r3, out p = data p ∨ A.O.le (A.O.dist (out p) (data p)) prec = true ∨
          A.O.lt (A.O.dist (data p) (out p)) prec = true := by
  obtain ⟨fuel0, mean, cap, N, hf, ⟨j, hj5, hj17, rfl⟩, -⟩ :=
    C63_optimize A data r1 r2 r3 prec h9 hs
  have h1 : 0 < r1 := by
    rcases Nat.eq_zero_or_pos r1 with h | h
    · subst h; simp at h9
    · exact h
  have h2 : 0 < r2 := by
    rcases Nat.eq_zero_or_pos r2 with h | h
    · subst h; simp at h9
    · exact h
  have h3 : 0 < r3 := by
    rcases Nat.eq_zero_or_pos r3 with h | h
    · subst h; simp at h9
    · exact h
  have hr1 : 16 ≤ 2 ^ j / 2 := by
    have : 2 ^ 5 ≤ 2 ^ j := Nat.pow_le_pow_right (by norm_num) hj5
    omega
  have hr2 : 2 ^ j / 2 ≤ 65536 := by
    have : 2 ^ j ≤ 2 ^ 17 := Nat.pow_le_pow_right (by norm_num) hj17
    omega
  obtain ⟨hd1, hd2⟩ := hd fuel0 mean _ (hf fuel0 le_rfl)
  obtain ⟨bytes, e, r⟩ := C37_roundtrip_partial A.toBOps f hskip E1 E2 data prec r1 r2 r3 bs indep
    (2 ^ j / 2) mean (choose3 A.toFitOps data r2 r3 mean prec) h1 h2 h3 hb hb31 hn (by omega)
    (by omega) (fun _ _ _ _ _ h => choose3_length _ _ _ _ _ _ _ _ _ _ _ h)
    (hcode _ hr1 hr2) (fun _ => hmean _ hr1 hr2) hcoef hd1 hd2
  refine ⟨fuel0, bytes, fun fuel hfu => ?_, fun rest out0 => ?_⟩
  · unfold szCompress3
    rw [hf fuel hfu]
    exact e
  · obtain ⟨out, ho, ha⟩ := r rest out0
    refine ⟨out, ho, fun p hp => ?_⟩
    rcases ha p hp with h | h | ⟨-, h, h'⟩
    · exact Or.inl h
    · exact Or.inr (Or.inl h)
    · rw [h]; exact Or.inr (Or.inr h')

/-- Fewer than nine values are not enough: on a grid of 1 by 1 by 2 values the compressor never
returns, whatever the data and the precision are. -/
theorem C63_two_values_hang (A : OptOps T F D) (f : Fmt T F D) (E1 E2 : Env) (data : Nat → T)
    (prec : D) (bs : Nat) (indep : Bool) (hs : A.sqrt (1 * 1 * 2) = Nat.sqrt (1 * 1 * 2))
    (fuel : Nat) : szCompress3 A f E1 E2 data prec 1 1 2 bs indep fuel = none := by
  have key : ∀ fuel k m n, roughLoop A data (1 * 1 * 2) 1 2 (Nat.sqrt (1 * 1 * 2)) fuel
      (roughAt 1 2 (Nat.sqrt (1 * 1 * 2)) k) m n = none := by
    intro fuel
    induction fuel with
    | zero => intros; rfl
    | succ fuel ih =>
      intro k m n
      rw [roughLoop, if_pos (C45_rough_mean_loops k)]
      exact ih (k + 1) _ _
  unfold szCompress3 optimize roughMean
  rw [hs, show (⟨0, 0, 0⟩ : Rough) = roughAt 1 2 (Nat.sqrt (1 * 1 * 2)) 0 from rfl, key]
  rfl

/-- The complete 2D codec, for all grids. -/
theorem C63_roundtrip_2d (A : FitOps T F D) (f : Fmt T F D) (hskip : f.skip = f.cT.size)
    (E1 E2 : Env) (data : Nat → T) (prec : D) (r1 r2 bs : Nat) (indep : Bool)
    (h1 : 0 < r1) (h2 : 0 < r2) (hb : 0 < bs) (hb31 : bs < 2 ^ 31) (hn : r1 * r2 < 2 ^ 58)
    (hcode : ∀ diff q,
      linQuant A.O.toDOps diff prec 32768 16384 = some q → 0 < q ∧ q < 32768)
    (hcoef : ∀ p ∈ regPrecs A.toBOps 3 prec bs, ∀ diff q,
      linQuant A.C.toDOps diff p 65536 32768 = some q → 0 < q ∧ q < 65536)
    (hd1 : (out2 A.toBOps data prec r1 r2 bs
        (choose2 A data r2 (false, A.zeroT) prec)).coefs.length ≠ 0 →
      DepthOK E1 131072 (out2 A.toBOps data prec r1 r2 bs
        (choose2 A data r2 (false, A.zeroT) prec)).rty)
    (hd2 : DepthOK E2 65536 (out2 A.toBOps data prec r1 r2 bs
        (choose2 A data r2 (false, A.zeroT) prec)).ty) :
    ∃ bytes, szCompress2 A f E1 E2 data prec r1 r2 bs indep = some bytes ∧
      ∀ rest out0, ∃ out, decompress2 A.toBOps f r1 r2 out0 (bytes ++ rest) = some out ∧
        ∀ p < r1 * r2, out p = data p ∨ A.O.le (A.O.dist (out p) (data p)) prec = true :=
  C44_roundtrip_2d A.toBOps f hskip E1 E2 data prec r1 r2 bs indep
    (choose2 A data r2 (false, A.zeroT) prec) h1 h2 hb hb31 hn
    (fun _ _ _ _ _ h => choose2_length _ _ _ _ _ _ _ _ _ _ h) hcode hcoef hd1 hd2

/-! ### Rounded and exact arithmetic -/

theorem opt_sqrt {rT rF rD lg : ℝ → ℝ} (hD : IsRounding rD) (n : Nat) (h9 : 9 ≤ n) :
    3 ≤ (roundedOpt rT rF rD lg).sqrt n := by
  show 3 ≤ ⌊rD (Real.sqrt (rD n))⌋.toNat
  have a : (9 : ℝ) ≤ rD n := by
    have h := hD.mono (show ((9 : ℤ) : ℝ) ≤ n by exact_mod_cast h9)
    rw [hD.int 9 (by norm_num)] at h
    exact_mod_cast h
  have b : (3 : ℝ) ≤ Real.sqrt (rD n) := by
    rw [Real.le_sqrt (by norm_num) (by linarith)]
    norm_num
    exact a
  have c : (3 : ℝ) ≤ rD (Real.sqrt (rD n)) := by
    have h := hD.mono (show ((3 : ℤ) : ℝ) ≤ Real.sqrt (rD n) by exact_mod_cast b)
    rw [hD.int 3 (by norm_num)] at h
    exact_mod_cast h
  have d : (3 : ℤ) ≤ ⌊rD (Real.sqrt (rD n))⌋ := Int.le_floor.2 (by exact_mod_cast c)
  omega

/-- `sz_compress_3d` in rounded arithmetic, with everything it chooses by itself: every value of
the decompressed field is within `κ` times the precision of the input, where `κ` is the factor
of C58 (`1` in exact arithmetic). -/
theorem C63_bound_3d {rT rF rD lg : ℝ → ℝ} {uF uD κ : ℝ} (hB : Back rT κ) (hκ : 1 ≤ κ)
    (hTn : ∀ x, rT (-x) = - rT x)
    (hF : IsFloat rF uF) (huF : uF < 1) (hD : IsFloat rD uD) (huD : uD < 1)
    (data : Nat → ℝ) (prec : ℝ) (hp : 0 < prec) (r1 r2 r3 bs : Nat) (h9 : 9 ≤ r1 * r2 * r3)
    (hb : 0 < bs) (indep : Bool) (out0 : Nat → ℝ) :
    ∃ fuel0 mean cap, (∀ fuel, fuel0 ≤ fuel →
        optimize (roundedOpt rT rF rD lg) data r1 r2 r3 prec fuel = some (mean, cap)) ∧
      ∃ o, o = out3 (roundedB rT rF rD lg) data prec r1 r2 r3 bs indep (cap / 2) mean
          (choose3 (roundedFit rT rF rD lg) data r2 r3 mean prec) ∧
      ∃ d, runDec (cfg3 (roundedB rT rF rD lg) r2 r3 bs indep mean (cap / 2) (fun _ => prec) prec
          (fun _ _ _ _ => none)) (plan3d indep r1 r2 r3 bs)
          ⟨fun _ => 0, none, o.ind, o.coefs, o.ty, o.un, out0⟩ = some d ∧
        ∀ p < r1 * r2 * r3, |d.out p - data p| ≤ κ * prec := by
  obtain ⟨fuel0, mean, cap, N, hf, ⟨j, hj5, hj17, rfl⟩, -⟩ :=
    C63_optimize (roundedOpt rT rF rD lg) data r1 r2 r3 prec h9
      (opt_sqrt hD.toIsRounding _ h9)
  have h0 : r1 * r2 * r3 ≠ 0 := by omega
  obtain ⟨⟨h1, h2⟩, h3⟩ : (0 < r1 ∧ 0 < r2) ∧ 0 < r3 := by
    simp only [ne_eq, Nat.mul_eq_zero, not_or] at h0
    omega
  have hr1 : 16 ≤ 2 ^ j / 2 := by
    have : 2 ^ 5 ≤ 2 ^ j := Nat.pow_le_pow_right (by norm_num) hj5
    omega
  have hr2 : 2 ^ j / 2 ≤ 65536 := by
    have : 2 ^ j ≤ 2 ^ 17 := Nat.pow_le_pow_right (by norm_num) hj17
    omega
  obtain ⟨d, hd, hd', -⟩ := block3 (lg := lg) hB hκ hTn hF huF hD huD data prec hp r1 r2 r3 bs
    h1 h2 h3 hb indep (2 ^ j / 2) (by omega) (by omega) mean
    (choose3 (roundedFit rT rF rD lg) data r2 r3 mean prec)
    (fun _ _ _ _ _ h => choose3_length _ _ _ _ _ _ _ _ _ _ _ h) out0
  exact ⟨fuel0, mean, _, hf, _, rfl, d, hd, hd'⟩

/-- The same for `float` data: the error is at most the precision plus one part in `2^24`. -/
theorem C63_float_3d {rnd rnd' : ℝ → ℤ} (hr : IsNearest rnd) (hr' : IsIntRounding rnd')
    {lg : ℝ → ℝ} (data : Nat → ℝ) (prec : ℝ) (hp : 0 < prec) (r1 r2 r3 bs : Nat)
    (h9 : 9 ≤ r1 * r2 * r3) (hb : 0 < bs) (indep : Bool) (out0 : Nat → ℝ) :
    ∃ fuel0 mean cap, (∀ fuel, fuel0 ≤ fuel →
        optimize (roundedOpt (fl rnd 24) (fl rnd 24) (fl rnd' 53) lg) data r1 r2 r3 prec fuel =
          some (mean, cap)) ∧
      ∃ o, o = out3 (roundedB (fl rnd 24) (fl rnd 24) (fl rnd' 53) lg) data prec r1 r2 r3 bs indep
          (cap / 2) mean
          (choose3 (roundedFit (fl rnd 24) (fl rnd 24) (fl rnd' 53) lg) data r2 r3 mean prec) ∧
      ∃ d, runDec (cfg3 (roundedB (fl rnd 24) (fl rnd 24) (fl rnd' 53) lg) r2 r3 bs indep mean
          (cap / 2) (fun _ => prec) prec (fun _ _ _ _ => none)) (plan3d indep r1 r2 r3 bs)
          ⟨fun _ => 0, none, o.ind, o.coefs, o.ty, o.un, out0⟩ = some d ∧
        ∀ p < r1 * r2 * r3, |d.out p - data p| ≤ (1 + 1 / 2 ^ 24) * prec :=
  C63_bound_3d (back_float hr) (by norm_num)
    (fl_isFloat hr.toIsIntRounding (p := 24) (by norm_num)).odd
    (fl_isFloat hr.toIsIntRounding (p := 24) (by norm_num)) (by norm_num)
    (fl_isFloat hr' (p := 53) (by norm_num)) (by norm_num) data prec hp r1 r2 r3 bs h9 hb indep
    out0

/-- Exact arithmetic: no error beyond the precision. -/
theorem C63_exact_3d (data : Nat → ℝ) (prec : ℝ) (hp : 0 < prec) (r1 r2 r3 bs : Nat)
    (h9 : 9 ≤ r1 * r2 * r3) (hb : 0 < bs) (indep : Bool) (out0 : Nat → ℝ) :
    ∃ fuel0 mean cap, (∀ fuel, fuel0 ≤ fuel →
        optimize realOpt data r1 r2 r3 prec fuel = some (mean, cap)) ∧
      ∃ o, o = out3 realB data prec r1 r2 r3 bs indep (cap / 2) mean
          (choose3 realFit data r2 r3 mean prec) ∧
      ∃ d, runDec (cfg3 realB r2 r3 bs indep mean (cap / 2) (fun _ => prec) prec
          (fun _ _ _ _ => none)) (plan3d indep r1 r2 r3 bs)
          ⟨fun _ => 0, none, o.ind, o.coefs, o.ty, o.un, out0⟩ = some d ∧
        ∀ p < r1 * r2 * r3, |d.out p - data p| ≤ prec := by
  have hid : IsFloat id 0 := ⟨IsRounding.id, fun _ => rfl, fun x => by simp⟩
  have := C63_bound_3d (rT := id) (rF := id) (rD := id) (lg := Real.logb 2) (κ := 1)
    (fun x => by simp) le_rfl (fun _ => rfl) hid one_pos hid one_pos data prec hp r1 r2 r3 bs h9
    hb indep out0
  simp only [one_mul] at this
  exact this

theorem nearSum_real (data : Nat → ℝ) (len : Nat) (g prec : ℝ) :
    nearSum realOpt data len g prec =
      (∑ i ∈ (Finset.range len).filter fun i => |data i - g| ≤ prec, data i,
        ((Finset.range len).filter fun i => |data i - g| ≤ prec).card) := by
  classical
  induction len with
  | zero => rfl
  | succ n ih =>
    unfold nearSum at ih ⊢
    rw [List.range_succ, List.foldl_append, ih]
    simp only [List.foldl_cons, List.foldl_nil, Finset.range_add_one, Finset.filter_insert]
    by_cases h : |data n - g| ≤ prec
    · rw [if_pos (by simpa [realOpt, roundedOpt] using h), if_pos h,
        Finset.sum_insert (by simp), Finset.card_insert_of_notMem (by simp)]
      simp [realOpt, roundedOpt, add_comm]
    · rw [if_neg (by simpa [realOpt, roundedOpt] using h), if_neg h]

/-! ### When the mean is used -/

/-- The values visited by the pass over the rough mean are added up. -/
theorem roughLoop_sum (data : Nat → ℝ) (len r2 r3 sd : Nat) (k : Nat) :
    ∀ n m c, (∀ i < n, running len (roughAt r2 r3 sd (k + i)).pos) →
      ¬ running len (roughAt r2 r3 sd (k + n)).pos →
      ∀ fuel, n < fuel → roughLoop realOpt data len r2 r3 sd fuel (roughAt r2 r3 sd k) m c =
        some (m + ∑ i ∈ Finset.range n, data (roughAt r2 r3 sd (k + i)).pos.toNat, c + n) := by
  intro n
  induction n generalizing k with
  | zero =>
    intro m c _ h fuel hf
    obtain ⟨g, rfl⟩ : ∃ g, fuel = g + 1 := ⟨fuel - 1, by omega⟩
    rw [roughLoop, if_neg (by simpa using h)]
    simp
  | succ n ih =>
    intro m c hr h fuel hf
    obtain ⟨g, rfl⟩ : ∃ g, fuel = g + 1 := ⟨fuel - 1, by omega⟩
    rw [roughLoop, if_pos (by simpa using hr 0 (by omega))]
    have := ih (k + 1) (realOpt.addDT m (data (roughAt r2 r3 sd k).pos.toNat)) (c + 1)
      (fun i hi => by
        have := hr (i + 1) (by omega)
        rwa [show k + 1 + i = k + (i + 1) by omega])
      (by rwa [show k + 1 + n = k + (n + 1) by omega]) g (by omega)
    rw [show roughStep r2 r3 sd (roughAt r2 r3 sd k) = roughAt r2 r3 sd (k + 1) from rfl, this,
      Finset.sum_range_succ']
    simp only [realOpt, roundedOpt, id, Nat.add_zero, Option.some.injEq, Prod.mk.injEq]
    refine ⟨?_, by omega⟩
    have e : ∀ i, k + 1 + i = k + (i + 1) := by intro i; omega
    simp only [e]
    ring

/-- The bin of the histogram of values a difference falls into. -/
def binOf (j : Int) : Nat := if j ≤ 0 then 0 else if j ≥ 8192 then 8191 else j.toNat

theorem getD_modify (l : List Nat) (i j : Nat) (hi : i < l.length) :
    (l.modify i (· + 1)).getD j 0 = l.getD j 0 + if i = j then 1 else 0 := by
  induction l generalizing i j with
  | nil => simp at hi
  | cons a l ih =>
    cases i with
    | zero => cases j <;> simp
    | succ i =>
      cases j with
      | zero => simp
      | succ j =>
        have := ih i j (by simpa using hi)
        simpa using this

theorem sampleLoop_freq (A : OptOps T F D) (data : Nat → T) (len r2 r3 : Nat) (prec : D)
    (rough : F) (k : Nat) :
    ∀ n h, h.fr.length = 8192 → (∀ i < n, running len (sampAt r2 r3 (k + i)).pos) →
      ¬ running len (sampAt r2 r3 (k + n)).pos → ∀ fuel v,
        sampleLoop A data len r2 r3 prec rough fuel (sampAt r2 r3 k) h = some v →
        v.fr.length = 8192 ∧
        v.fc = h.fc + ((Finset.range n).filter fun i => A.errLt
          (samplePred A data r2 r3 (sampAt r2 r3 (k + i)).pos.toNat)
          (data (sampAt r2 r3 (k + i)).pos.toNat) prec = true).card ∧
        ∀ m, v.fr.getD m 0 = h.fr.getD m 0 + ((Finset.range n).filter fun i =>
          binOf (A.meanIdx (data (sampAt r2 r3 (k + i)).pos.toNat) rough prec) = m).card := by
  intro n
  have shift : ∀ (n : Nat) (P : Nat → Prop) [DecidablePred P],
      ((Finset.range (n + 1)).filter P).card =
        (if P 0 then 1 else 0) + ((Finset.range n).filter fun i => P (i + 1)).card := by
    intro n P _
    simp only [Finset.card_filter, Finset.sum_range_succ']
    omega
  induction n generalizing k with
  | zero =>
    intro h hl _ hn fuel v hv
    cases fuel with
    | zero => cases hv
    | succ fuel =>
      rw [sampleLoop, if_neg (by simpa using hn)] at hv
      injection hv with hv
      subst hv
      exact ⟨hl, by simp, by simp⟩
  | succ n ih =>
    intro h hl hr hn fuel v hv
    cases fuel with
    | zero => cases hv
    | succ fuel =>
      rw [sampleLoop, if_pos (by simpa using hr 0 (by omega))] at hv
      obtain ⟨a, b, c⟩ := ih (k + 1)
        (sampleAt A data r2 r3 prec rough h (sampAt r2 r3 k).pos.toNat)
        (by simpa [sampleAt] using hl)
        (fun i hi => by
          have := hr (i + 1) (by omega)
          rwa [show k + 1 + i = k + (i + 1) by omega])
        (by rwa [show k + 1 + n = k + (n + 1) by omega]) fuel v hv
      have e : ∀ i, k + 1 + i = k + (i + 1) := by intro i; omega
      refine ⟨a, ?_, fun m => ?_⟩
      · rw [b, shift]
        simp only [e, Nat.add_zero]
        have : (sampleAt A data r2 r3 prec rough h (sampAt r2 r3 k).pos.toNat).fc =
            if A.errLt (samplePred A data r2 r3 (sampAt r2 r3 k).pos.toNat)
              (data (sampAt r2 r3 k).pos.toNat) prec then h.fc + 1 else h.fc := rfl
        rw [this]
        split <;> omega
      · rw [c m, shift]
        simp only [e, Nat.add_zero]
        have : (sampleAt A data r2 r3 prec rough h (sampAt r2 r3 k).pos.toNat).fr =
            h.fr.modify (binOf (A.meanIdx (data (sampAt r2 r3 k).pos.toNat) rough prec))
              (· + 1) := by
          simp only [sampleAt, binOf, hl]
          rfl
        rw [this, getD_modify _ _ _ (by rw [hl]; unfold binOf; split <;> [skip; split] <;> omega)]
        omega

/-- The pair of neighbouring entries with the largest sum. -/
theorem bestPair_spec (fr : List Nat) :
    (∀ j, 1 ≤ j → j ≤ fr.length - 3 → fr.getD j 0 + fr.getD (j + 1) 0 ≤ (bestPair fr).1) ∧
    (bestPair fr = (0, 0) ∨ (1 ≤ (bestPair fr).2 ∧ (bestPair fr).2 ≤ fr.length - 3 ∧
      (bestPair fr).1 = fr.getD (bestPair fr).2 0 + fr.getD ((bestPair fr).2 + 1) 0)) := by
  unfold bestPair
  generalize fr.length - 3 = n
  induction n with
  | zero => exact ⟨fun j h1 h2 => by omega, Or.inl rfl⟩
  | succ n ih =>
    rw [List.range_succ, List.foldl_append]
    simp only [List.foldl_cons, List.foldl_nil]
    generalize (List.range n).foldl _ (0, 0) = b at ih ⊢
    obtain ⟨h1, h2⟩ := ih
    split
    · rename_i hgt
      refine ⟨fun j hj1 hj2 => ?_, Or.inr ⟨by dsimp only; omega, by dsimp only; omega, rfl⟩⟩
      dsimp only
      rcases Nat.lt_or_ge n j with h | h
      · obtain rfl : j = n + 1 := by omega
        exact le_rfl
      · have := h1 j hj1 h
        omega
    · rename_i hgt
      refine ⟨fun j hj1 hj2 => ?_, ?_⟩
      · rcases Nat.lt_or_ge n j with h | h
        · obtain rfl : j = n + 1 := by omega
          exact not_lt.1 hgt
        · exact h1 j hj1 h
      · rcases h2 with h2 | ⟨h2, h3, h4⟩
        · exact Or.inl h2
        · exact Or.inr ⟨h2, by omega, h4⟩

/-- Two neighbouring bins hold the values within the precision of their common border; of the
values exactly at the distance of the precision they may hold any. -/
theorem binOf_near (v m p : ℝ) (hp : 0 < p) (k : Int) (h1 : -4094 ≤ k) (h2 : k ≤ 4094) :
    (|v - (m + k * p)| < p → binOf (realOpt.meanIdx v m p) = (k + 4095).toNat ∨
      binOf (realOpt.meanIdx v m p) = (k + 4096).toNat) ∧
    (binOf (realOpt.meanIdx v m p) = (k + 4095).toNat ∨
      binOf (realOpt.meanIdx v m p) = (k + 4096).toNat → |v - (m + k * p)| ≤ p) := by
  obtain ⟨w, hw⟩ : ∃ w, w = (v - m) / p := ⟨_, rfl⟩
  have hv : v - (m + k * p) = (w - k) * p := by rw [hw]; field_simp; ring
  have e1 : |v - (m + k * p)| < p ↔ (k : ℝ) - 1 < w ∧ w < k + 1 := by
    rw [hv, abs_mul, abs_of_pos hp, mul_lt_iff_lt_one_left hp, abs_lt]
    constructor <;> rintro ⟨_, _⟩ <;> constructor <;> linarith
  have e2 : |v - (m + k * p)| ≤ p ↔ (k : ℝ) - 1 ≤ w ∧ w ≤ k + 1 := by
    rw [hv, abs_mul, abs_of_pos hp, mul_le_iff_le_one_left hp, abs_le]
    constructor <;> rintro ⟨_, _⟩ <;> constructor <;> linarith
  rw [e1, e2]
  have hi : realOpt.meanIdx v m p = if 0 < w then ⌊w⌋ + 4096 else ⌈w⌉ - 1 + 4096 := by
    simp only [realOpt, roundedOpt, id, ← hw]
    have hs : 0 < v - m ↔ 0 < w := by
      rw [hw]; constructor
      · intro h; positivity
      · intro h; by_contra hn
        have := div_nonpos_of_nonpos_of_nonneg (not_lt.1 hn) hp.le
        linarith
    simp only [hs]
    split
    · rename_i h
      rw [truncR_nonneg h.le]
    · rename_i h
      have : truncR w = ⌈w⌉ := by
        have := truncR_nonneg (x := -w) (by linarith)
        rw [truncR_neg, Int.floor_neg] at this
        omega
      rw [this]
  generalize realOpt.meanIdx v m p = idx at hi
  have hb : ∀ j : Int, 1 ≤ j → j ≤ 8190 → (binOf idx = j.toNat ↔ idx = j) := by
    intro j hj1 hj2
    unfold binOf
    split
    · omega
    · split <;> omega
  rw [hb _ (by omega) (by omega), hb _ (by omega) (by omega), hi]
  split
  · constructor
    · rintro ⟨ha, hb⟩
      have : k - 1 ≤ ⌊w⌋ := Int.le_floor.2 (by push_cast; exact ha.le)
      have : ⌊w⌋ < k + 1 := Int.floor_lt.2 (by push_cast; exact hb)
      omega
    · intro h
      have hf1 := Int.floor_le w
      have hf2 := Int.lt_floor_add_one w
      rcases h with h | h
      · have : ⌊w⌋ = k - 1 := by omega
        rw [this] at hf1 hf2
        push_cast at hf1 hf2
        constructor <;> linarith
      · have : ⌊w⌋ = k := by omega
        rw [this] at hf1 hf2
        constructor <;> linarith
  · constructor
    · rintro ⟨ha, hb⟩
      have : ⌈w⌉ ≤ k + 1 := Int.ceil_le.2 (by push_cast; exact hb.le)
      have : k - 1 < ⌈w⌉ := Int.lt_ceil.2 (by push_cast; exact ha)
      omega
    · intro h
      have hf1 := Int.le_ceil w
      have hf2 := Int.ceil_lt_add_one w
      rcases h with h | h
      · have : ⌈w⌉ = k := by omega
        rw [this] at hf1 hf2
        constructor <;> linarith
      · have : ⌈w⌉ = k + 1 := by omega
        rw [this] at hf1 hf2
        push_cast at hf1 hf2
        constructor <;> linarith

/-- Exact arithmetic: `rough` is the average of the values visited by the first pass.  For each
of the numbers `rough + k * prec`, `c k` counts the sampled values around it: all those closer
than the precision, none further away.  The mean is used iff the largest count is more than
half of the samples, or more than the number of samples whose Lorenzo prediction is closer than
the precision; it is then the average of all values of the field within the precision of
`rough + k * prec` for a `k` with the largest count. -/
theorem C63_mean (data : Nat → ℝ) (r1 r2 r3 : Nat) (prec : ℝ) (hp : 0 < prec)
    (h9 : 9 ≤ r1 * r2 * r3) :
    ∃ fuel0 mean cap N M, ∃ rough : ℝ, ∃ c : Int → Nat, (∀ fuel, fuel0 ≤ fuel →
        optimize realOpt data r1 r2 r3 prec fuel = some (mean, cap)) ∧
      (∀ i < N, running (r1 * r2 * r3) (sampAt r2 r3 i).pos) ∧
      ¬ running (r1 * r2 * r3) (sampAt r2 r3 N).pos ∧
      (∀ i < M, running (r1 * r2 * r3) (roughAt r2 r3 (Nat.sqrt (r1 * r2 * r3)) i).pos) ∧
      ¬ running (r1 * r2 * r3) (roughAt r2 r3 (Nat.sqrt (r1 * r2 * r3)) M).pos ∧
      rough = (∑ i ∈ Finset.range M,
        data (roughAt r2 r3 (Nat.sqrt (r1 * r2 * r3)) i).pos.toNat) / M ∧
      (∀ k : Int, -4094 ≤ k → k ≤ 4094 →
        ((Finset.range N).filter fun i =>
          |data (sampAt r2 r3 i).pos.toNat - (rough + k * prec)| < prec).card ≤ c k ∧
        c k ≤ ((Finset.range N).filter fun i =>
          |data (sampAt r2 r3 i).pos.toNat - (rough + k * prec)| ≤ prec).card) ∧
      ∃ k : Int, -4094 ≤ k ∧ k ≤ 4094 ∧ (∀ k', -4094 ≤ k' → k' ≤ 4094 → c k' ≤ c k) ∧
        (mean.1 = true ↔ N < 2 * c k ∨ ((Finset.range N).filter fun i =>
          |samplePred realOpt data r2 r3 (sampAt r2 r3 i).pos.toNat -
            data (sampAt r2 r3 i).pos.toNat| < prec).card < c k) ∧
        (mean.1 = true → mean.2 =
          (∑ i ∈ (Finset.range (r1 * r2 * r3)).filter fun i =>
            |data i - (rough + k * prec)| ≤ prec, data i) /
          ((Finset.range (r1 * r2 * r3)).filter fun i =>
            |data i - (rough + k * prec)| ≤ prec).card) := by
  classical
  have hsq : realOpt.sqrt (r1 * r2 * r3) = Nat.sqrt (r1 * r2 * r3) := by
    simp only [realOpt, roundedOpt, id]
    rw [← Real.nat_floor_real_sqrt_eq_nat_sqrt]; rfl
  have h3 : 0 < r3 := by
    rcases Nat.eq_zero_or_pos r3 with h | h
    · subst h; simp at h9
    · exact h
  have hs3 : 3 ≤ Nat.sqrt (r1 * r2 * r3) := Nat.le_sqrt.2 (by omega)
  obtain ⟨M, ha1, hb1⟩ := first_stop _ (rough_stops (r1 * r2 * r3) r2 r3 _ hs3)
  obtain ⟨N, ha2, hb2⟩ := first_stop _ (C45_sampling_terminates r1 r2 r3 h3)
  have hM : 0 < M := by
    rcases Nat.eq_zero_or_pos M with h | h
    · subst h
      refine absurd ?_ hb1
      simp only [roughAt, running]
      omega
    · exact h
  obtain ⟨rough, hrough⟩ : ∃ rough : ℝ, rough = (∑ i ∈ Finset.range M,
      data (roughAt r2 r3 (Nat.sqrt (r1 * r2 * r3)) i).pos.toNat) / M := ⟨_, rfl⟩
  have hr : ∀ fuel, M < fuel → roughMean realOpt data r1 r2 r3 fuel = some rough := by
    intro fuel hf
    unfold roughMean
    have := roughLoop_sum data (r1 * r2 * r3) r2 r3 (Nat.sqrt (r1 * r2 * r3)) 0 M
      realOpt.zeroD 0 (by simpa using ha1) (by simpa using hb1) fuel hf
    rw [hsq, show (⟨0, 0, 0⟩ : Rough) = roughAt r2 r3 (Nat.sqrt (r1 * r2 * r3)) 0 from rfl, this]
    simp only [Nat.zero_add, Option.map_some, Option.some.injEq]
    have hz : realOpt.zeroD = 0 := rfl
    rw [hz, zero_add]
    show (if 0 < M then _ else _) = rough
    rw [if_pos hM, hrough]
    rfl
  obtain ⟨h, hv2⟩ := sampleLoop_some realOpt data (r1 * r2 * r3) r2 r3 prec rough 0 N
    ⟨List.replicate 32768 0, List.replicate 8192 0, 0, 0⟩ (by simpa using ha2)
    (by simpa using hb2)
  obtain ⟨hl, hn, -⟩ := sampleLoop_hist realOpt data (r1 * r2 * r3) r2 r3 prec rough 0 N
    ⟨List.replicate 32768 0, List.replicate 8192 0, 0, 0⟩ List.length_replicate
    (by simpa using ha2) (by simpa using hb2) (N + 1) h (hv2 _ (by omega))
  obtain ⟨hfl, hfc, hfr⟩ := sampleLoop_freq realOpt data (r1 * r2 * r3) r2 r3 prec rough 0 N
    ⟨List.replicate 32768 0, List.replicate 8192 0, 0, 0⟩ List.length_replicate
    (by simpa using ha2) (by simpa using hb2) (N + 1) h (hv2 _ (by omega))
  have hn' : h.n = N := by simpa using hn
  have hz : ∀ m, (List.replicate 8192 0).getD m 0 = 0 := by
    intro m
    rw [List.getD_eq_getElem?_getD, List.getElem?_replicate]
    split <;> rfl
  simp only [Nat.zero_add] at hfc hfr
  simp only [hz, Nat.zero_add] at hfr
  have hpair : ∀ k : Int, -4094 ≤ k → k ≤ 4094 →
      h.fr.getD (k + 4095).toNat 0 + h.fr.getD ((k + 4095).toNat + 1) 0 =
        ((Finset.range N).filter fun i =>
          binOf (realOpt.meanIdx (data (sampAt r2 r3 i).pos.toNat) rough prec) =
            (k + 4095).toNat ∨
          binOf (realOpt.meanIdx (data (sampAt r2 r3 i).pos.toNat) rough prec) =
            (k + 4096).toNat).card := by
    intro k hk1 hk2
    rw [hfr, hfr, Finset.filter_or, Finset.card_union_of_disjoint]
    · rw [show (k + 4095).toNat + 1 = (k + 4096).toNat by omega]
    · rw [Finset.disjoint_filter]
      intro i _ e1 e2
      omega
  obtain ⟨hb1', hb2'⟩ := bestPair_spec h.fr
  rw [hfl] at hb1' hb2'
  refine ⟨M + N + 1, pickMean realOpt data (r1 * r2 * r3) prec rough h,
    (estimate h.iv (realOpt.target h.n)).toNat, N, M, rough,
    fun k => h.fr.getD (k + 4095).toNat 0 + h.fr.getD ((k + 4095).toNat + 1) 0,
    fun fuel hf => ?_, ha2, hb2, ha1, hb1, hrough, fun k hk1 hk2 => ?_, ?_⟩
  · unfold optimize
    rw [hr fuel (by omega)]
    dsimp only
    rw [show sampInit r2 r3 = sampAt r2 r3 0 from rfl, hv2 fuel (by omega)]
  · beta_reduce
    rw [hpair k hk1 hk2]
    constructor <;> refine Finset.card_le_card fun i hi => ?_
    · rw [Finset.mem_filter] at hi ⊢
      exact ⟨hi.1, (binOf_near _ _ _ hp k hk1 hk2).1 hi.2⟩
    · rw [Finset.mem_filter] at hi ⊢
      exact ⟨hi.1, (binOf_near _ _ _ hp k hk1 hk2).2 hi.2⟩
  · have hlt : ∀ v w : ℝ, realOpt.errLt v w prec = true ↔ |v - w| < prec := by
      intro v w
      simp only [realOpt, roundedOpt, id, decide_eq_true_eq]
    simp only [hlt] at hfc
    have huse : ∀ ms : Nat, (N = 0 → ms = 0) → (realOpt.useMean ms h.fc h.n = true ↔
        N < 2 * ms ∨ ((Finset.range N).filter fun i =>
          |samplePred realOpt data r2 r3 (sampAt r2 r3 i).pos.toNat -
            data (sampAt r2 r3 i).pos.toNat| < prec).card < ms) := by
      intro ms hms
      rw [← hfc, hn']
      simp only [realOpt, roundedOpt, id, decide_eq_true_eq]
      rcases Nat.eq_zero_or_pos N with h0 | h0
      · rw [hms h0, h0]
        norm_num
      · have hN : (0 : ℝ) < N := by exact_mod_cast h0
        rw [lt_div_iff₀ hN, div_lt_div_iff_of_pos_right hN, Nat.cast_lt]
        refine or_congr ⟨fun h => ?_, fun h => ?_⟩ Iff.rfl
        · have : (N : ℝ) < ((2 * ms : Nat) : ℝ) := by push_cast; linarith
          exact_mod_cast this
        · have : (N : ℝ) < ((2 * ms : Nat) : ℝ) := by exact_mod_cast h
          push_cast at this
          linarith
    have hmean : ∀ (k : Int) (b : Nat × Nat), bestPair h.fr = b → (N = 0 → b.1 = 0) →
        (b.1 ≠ 0 → k = (b.2 : Int) + 1 - 4096) →
        (((pickMean realOpt data (r1 * r2 * r3) prec rough h).1 = true ↔
          N < 2 * b.1 ∨ ((Finset.range N).filter fun i =>
          |samplePred realOpt data r2 r3 (sampAt r2 r3 i).pos.toNat -
            data (sampAt r2 r3 i).pos.toNat| < prec).card < b.1) ∧
        ((pickMean realOpt data (r1 * r2 * r3) prec rough h).1 = true →
          (pickMean realOpt data (r1 * r2 * r3) prec rough h).2 =
          (∑ i ∈ (Finset.range (r1 * r2 * r3)).filter fun i =>
            |data i - (rough + k * prec)| ≤ prec, data i) /
          ((Finset.range (r1 * r2 * r3)).filter fun i =>
            |data i - (rough + k * prec)| ≤ prec).card)) := by
      intro k b hb hms hk
      have hu := huse b.1 hms
      unfold pickMean
      rw [hb]
      dsimp only
      split
      · rename_i hu'
        refine ⟨⟨fun _ => hu.1 hu', fun _ => rfl⟩, fun _ => ?_⟩
        have hb0 : b.1 ≠ 0 := by
          have := hu.1 hu'
          omega
        have hg : realOpt.guess rough prec ((b.2 : Int) + 1 - (h.fr.length / 2 : Nat)) =
            rough + k * prec := by
          rw [hfl, hk hb0]
          simp only [realOpt, roundedOpt, id]
          push_cast
          norm_num
          ring
        rw [hg, nearSum_real]
        simp only [realOpt, roundedOpt, id]
        split
        · rfl
        · rename_i h0
          have : ∀ n : ℕ, ¬ 0 < n → n = 0 := by omega
          rw [this _ h0]
          simp
      · rename_i hu'
        exact ⟨⟨fun h => (Bool.false_ne_true h).elim, fun h => absurd (hu.2 h) hu'⟩,
          fun h => (Bool.false_ne_true h).elim⟩
    have hmax : ∀ k' : Int, -4094 ≤ k' → k' ≤ 4094 →
        h.fr.getD (k' + 4095).toNat 0 + h.fr.getD ((k' + 4095).toNat + 1) 0 ≤
          (bestPair h.fr).1 := fun k' h1 h2 => hb1' _ (by omega) (by omega)
    rcases hb2' with h0 | ⟨q1, q2, q3⟩
    · have hc0 : h.fr.getD ((0 : Int) + 4095).toNat 0 + h.fr.getD (((0 : Int) + 4095).toNat + 1) 0 =
          0 := by
        have := hmax 0 (by norm_num) (by norm_num)
        rw [h0] at this
        exact Nat.le_zero.1 this
      refine ⟨0, by norm_num, by norm_num, fun k' h1 h2 => ?_, ?_⟩
      · have := hmax k' h1 h2
        rw [h0] at this
        exact le_trans this (Nat.zero_le _)
      · beta_reduce
        rw [hc0]
        exact hmean 0 (0, 0) h0 (fun _ => rfl) (fun h => absurd rfl h)
    · have hk : (((bestPair h.fr).2 : Int) + 1 - 4096 + 4095).toNat = (bestPair h.fr).2 := by omega
      refine ⟨((bestPair h.fr).2 : Int) + 1 - 4096, by omega, by omega, fun k' h1 h2 => ?_, ?_⟩
      · beta_reduce
        rw [hk, ← q3]
        exact hmax k' h1 h2
      · beta_reduce
        rw [hk, ← q3]
        refine hmean _ _ rfl (fun hN => ?_) (fun _ => rfl)
        rw [q3, hfr, hfr, hN]
        rfl

example := C63_mean (fun p => (p : ℝ) ^ 2) 3 4 5 (1 / 10) (by norm_num) (by norm_num)

/-- Exact arithmetic: unless the capacity is the largest possible, more than 99.9 per cent of the
sampled values (rounded down) are within `(capacity / 2 - 1)` times the precision of their
Lorenzo prediction from the input. -/
theorem C63_capacity (data : Nat → ℝ) (r1 r2 r3 : Nat) (prec : ℝ) (hp : 0 < prec)
    (h9 : 9 ≤ r1 * r2 * r3) :
    ∃ fuel0 mean cap N, (∀ fuel, fuel0 ≤ fuel →
        optimize realOpt data r1 r2 r3 prec fuel = some (mean, cap)) ∧
      (∃ j, 5 ≤ j ∧ j ≤ 17 ∧ cap = 2 ^ j) ∧
      (∀ i < N, running (r1 * r2 * r3) (sampAt r2 r3 i).pos) ∧
      ¬ running (r1 * r2 * r3) (sampAt r2 r3 N).pos ∧
      (0 < N → cap < 2 ^ 17 → ⌊(N : ℝ) * (999 / 1000)⌋₊ < ((Finset.range N).filter fun i =>
        |samplePred realOpt data r2 r3 (sampAt r2 r3 i).pos.toNat -
          data (sampAt r2 r3 i).pos.toNat| < ((cap : ℝ) / 2 - 1) * prec).card) := by
  classical
  obtain ⟨fuel0, mean, cap, N, hf, ⟨j, hj5, hj17, hc⟩, ha, hb, ht⟩ :=
    C63_optimize realOpt data r1 r2 r3 prec h9 (opt_sqrt IsRounding.id _ h9)
  refine ⟨fuel0, mean, cap, N, hf, ⟨j, hj5, hj17, hc⟩, ha, hb, fun hN hcap => ?_⟩
  have htar : realOpt.target N = ⌊(N : ℝ) * (999 / 1000)⌋₊ := by
    simp only [realOpt, roundedOpt, id]
    rfl
  have hlt : ⌊(N : ℝ) * (999 / 1000)⌋₊ < N := by
    rw [Nat.floor_lt (by positivity)]
    have : (0 : ℝ) < N := by exact_mod_cast hN
    linarith
  rw [htar] at ht
  refine lt_of_lt_of_le (ht hlt) ?_
  have hj16 : j < 17 := (Nat.pow_lt_pow_iff_right (a := 2) (by norm_num)).1 (by rw [← hc]; exact hcap)
  have hcap4 : 4 * (cap / 4) = cap := by
    obtain ⟨k, rfl⟩ : ∃ k, j = k + 2 := ⟨j - 2, by omega⟩
    rw [hc, pow_add]; omega
  have hcap5 : cap / 4 ≤ 32767 := by
    have : cap ≤ 2 ^ 16 := by rw [hc]; exact Nat.pow_le_pow_right (by norm_num) (by omega)
    omega
  rw [← List.toFinset_card_of_nodup (List.nodup_range.filter _)]
  refine Finset.card_le_card fun i hi => ?_
  simp only [List.mem_toFinset, List.mem_filter, List.mem_range, decide_eq_true_eq] at hi
  simp only [Finset.mem_filter, Finset.mem_range]
  refine ⟨hi.1, ?_⟩
  have h2 := hi.2
  generalize samplePred realOpt data r2 r3 (sampAt r2 r3 i).pos.toNat = v at h2 ⊢
  generalize data (sampAt r2 r3 i).pos.toNat = w at h2 ⊢
  have h3 : ⌊(|v - w| / prec + 1) / 2⌋₊ < cap / 4 := by
    have : realOpt.errIdx v w prec = ⌊(|v - w| / prec + 1) / 2⌋₊ := by
      simp only [realOpt, roundedOpt, id]
      rfl
    rw [this] at h2
    omega
  rw [Nat.floor_lt (by positivity)] at h3
  have h4 : ((cap / 4 : ℕ) : ℝ) = cap / 4 := by
    have : ((4 * (cap / 4) : ℕ) : ℝ) = cap := by rw [hcap4]
    push_cast at this
    linarith
  rw [h4] at h3
  have h5 : |v - w| / prec < cap / 2 - 1 := by linarith
  rwa [div_lt_iff₀ hp] at h5

/-! ### Instances -/

/-- Saturating integers with an arbitrary fit (used with blocks too small for regression) and
simple sampling arithmetic. -/
def satOpt : OptOps W W W where
  toBOps := satB
  addF a b := a + b
  subF a b := a - b
  mulF a b := a * b
  divF a _ := a
  intF n := sat n
  inv _ := 1#64
  ofT a := a
  addDF a b := a + b
  mulDN a n := a * BitVec.ofNat 64 n
  addFD a b := a + b
  mulTN a n := a * BitVec.ofNat 64 n
  addFT a b := a + b
  predT2 := satB.reg2
  predT3 := satB.reg3
  lorT2 := satB.lor2
  lorT3 := satB.lor3
  noiseAdd a b n := a - b + n
  noise2 p := p
  noise3 p := p
  addDT a b := a + b
  meanOf s n := sat (s.toInt / n)
  errLt p v e := decide (|p.toInt - v.toInt| < e.toInt)
  errIdx p v e := (|p.toInt - v.toInt| / e.toInt).toNat
  meanIdx v m e := (v.toInt - m.toInt) / e.toInt + 4096
  target n := n * 999 / 1000
  guess m e i := sat (m.toInt + e.toInt * i)
  useMean ms fc n := decide (n < 2 * ms ∨ fc < ms)
  near v g e := decide (|v.toInt - g.toInt| ≤ e.toInt)
  finish s n := sat (s.toInt / n)
  sqrt := Nat.sqrt

theorem cfg3_good (B : BOps T F D) (prec : D) (r2 r3 bs n : Nat) (indep : Bool) (radius : Nat)
    (mean : Bool × T) (sel : Nat → Nat → Nat → Nat → Option (List F)) (hrad0 : 0 < radius)
    (hsel : ∀ o sx sy sz c, sel o sx sy sz = some c → c.length = 4)
    (hcode : ∀ diff q,
      linQuant B.O.toDOps diff prec (2 * radius) radius = some q → 0 < q ∧ q < 2 * radius)
    (hmean : mean.1 = true → ∀ diff q,
      linQuant B.O.toDOps diff prec (2 * radius - 2) radius = some q → 1 < q ∧ q < 2 * radius)
    (hcoef : ∀ p ∈ regPrecs B 4 prec bs, ∀ diff q,
      linQuant B.C.toDOps diff p 65536 32768 = some q → 0 < q ∧ q < 65536) :
    Good (cfg3 B r2 r3 bs indep mean radius (fun _ => prec) prec sel) (· < n) := by
  refine ⟨?_, ?_, ?_, ?_, ?_, ?_⟩
  · intro p hp hz diff q hq
    cases hm : mean.1 with
    | true =>
      simp only [cfg3, hm, if_true] at hq
      have := hmean hm diff q hq
      exact ⟨by omega, this.2, fun _ => this.1⟩
    | false =>
      simp only [cfg3, hm, Bool.false_eq_true, if_false] at hq
      have := hcode diff q hq
      exact ⟨this.1, this.2, fun h => by simp [cfg3, hm] at h⟩
  · intro p hp hz diff q hq
    exact hcode diff q hq
  · show (1 : Int) < 2 * (radius : Int)
    omega
  · intro _ p hp diff q hq
    exact hcoef p hp diff q hq
  · show (0 : Int) < 2 * 32768
    omega
  · intro o sx sy sz c h
    rw [hsel o sx sy sz c h]
    exact (regPrecs_length B 4 (by omega) prec bs).symm

theorem optimize_cap (A : OptOps T F D) (data : Nat → T) (r1 r2 r3 : Nat) (prec : D)
    (fuel : Nat) (mean : Bool × T) (cap : Nat)
    (h : optimize A data r1 r2 r3 prec fuel = some (mean, cap)) :
    ∃ j, 5 ≤ j ∧ j ≤ 17 ∧ cap = 2 ^ j := by
  unfold optimize at h
  split at h
  · cases h
  · split at h
    · cases h
    · rename_i v hv
      simp only [Option.some.injEq, Prod.mk.injEq] at h
      have hl : v.iv.length = 32768 := by
        rw [(sampleLoop_length A data _ r2 r3 prec _ fuel _ _ _ hv).1, List.length_replicate]
      obtain ⟨⟨k, hk5, hk⟩, hcap, -⟩ := C38_capacity v.iv (A.target v.n)
        (by rintro h0; rw [h0] at hl; simp at hl) (by rw [hl]; norm_num)
      have := hcap 17 (by norm_num) (by rw [hl]; norm_num)
      rw [hk] at this
      exact ⟨k, hk5, (Nat.pow_le_pow_iff_right (by norm_num)).1 this, by rw [← h.2, hk]⟩

-- A 2 x 3 x 3 grid in blocks of 2, any data, any environment.
example (E1 E2 : Env) (data : Nat → W) (indep : Bool) : ∃ fuel0 bytes, ∀ fuel, fuel0 ≤ fuel →
    szCompress3 satOpt (satFmt 8) E1 E2 data 4#64 2 3 3 2 indep fuel = some bytes := by
  have hc : ∀ radius : Nat, 16 ≤ radius → radius ≤ 65536 → ∀ diff q,
      linQuant satOpt.O.toDOps diff 4#64 (2 * radius) radius = some q →
        0 < q ∧ q < 2 * radius := by
    intro radius _ h diff q hq
    have := satQ_codes 4#64 (by decide) radius (by norm_num; omega) radius le_rfl diff q hq
    omega
  have hm : ∀ radius : Nat, 16 ≤ radius → radius ≤ 65536 → ∀ diff q,
      linQuant satOpt.O.toDOps diff 4#64 (2 * radius - 2) radius = some q →
        1 < q ∧ q < 2 * radius := by
    intro radius _ h diff q hq
    have := satQ_codes 4#64 (by decide) radius (by norm_num; omega) (radius - 1) (by omega) diff q
      (by rw [← hq]; congr 1; ring)
    omega
  have hco : ∀ p ∈ regPrecs satOpt.toBOps 4 4#64 2, ∀ diff q,
      linQuant satOpt.C.toDOps diff p 65536 32768 = some q → 0 < q ∧ q < 65536 := by
    intro p hp diff q hq
    have hp' : p = 4#64 := by
      simpa [regPrecs, satOpt, satB] using hp
    subst hp'
    have := satQ_codes 4#64 (by decide) 32768 (by norm_num) 32768 (by norm_num) diff q hq
    omega
  have h9 : 9 ≤ 2 * 3 * 3 := by norm_num
  have hs : 3 ≤ satOpt.sqrt (2 * 3 * 3) := by
    show 3 ≤ Nat.sqrt 18
    exact Nat.le_sqrt.2 (by norm_num)
  obtain ⟨fuel0, bytes, h, -⟩ := C63_roundtrip_3d satOpt (satFmt 8) rfl E1 E2 data 4#64 2 3 3 2
    indep h9 hs (by norm_num) (by norm_num) (by norm_num) hc hm hco (by
      intro fuel mean cap hopt
      have hsel : ∀ o sx sy sz, Ev.start o sx sy sz ∈ plan3d indep 2 3 3 2 →
          choose3 satOpt.toFitOps data 3 3 mean 4#64 o sx sy sz = none := by
        intro o sx sy sz h
        have := plan3d_starts indep 2 3 3 2 (by norm_num) (by norm_num) o sx sy sz h
        unfold choose3
        rw [if_pos (by omega)]
      obtain ⟨j, hj5, hj17, hcap⟩ := optimize_cap satOpt data 2 3 3 4#64 fuel mean cap hopt
      have hr1 : 16 ≤ cap / 2 := by
        have : 2 ^ 5 ≤ cap := hcap ▸ Nat.pow_le_pow_right (by norm_num) hj5
        omega
      have hr2 : cap / 2 ≤ 65536 := by
        have : cap ≤ 2 ^ 17 := hcap ▸ Nat.pow_le_pow_right (by norm_num) hj17
        omega
      have hperm : (positions (plan3d indep 2 3 3 2)).Perm (List.range (2 * 3 * 3)) :=
        (C32_tiles_3d indep 2 3 3 2 (by norm_num) (by norm_num) (by norm_num) (by norm_num)).1
      have e : out3 satOpt.toBOps data 4#64 2 3 3 2 indep (cap / 2) mean
          (choose3 satOpt.toFitOps data 3 3 mean 4#64) = out3 satOpt.toBOps data 4#64 2 3 3 2
          indep (cap / 2) mean (fun _ _ _ _ => none) :=
        runEnc_sel_congr _ data _ _ _ hsel
      obtain ⟨k1, k2, -⟩ := runEnc_codes (cfg3 satOpt.toBOps 3 3 2 indep mean (cap / 2)
          (fun _ => 4#64) 4#64 (fun _ _ _ _ => none)) (· < 2 * 3 * 3)
        (cfg3_good satOpt.toBOps 4#64 3 3 2 _ indep (cap / 2) mean _ (by omega)
          (fun _ _ _ _ _ h => by cases h) (hc _ hr1 hr2) (fun _ => hm _ hr1 hr2) hco) data
        (plan3d indep 2 3 3 2) (fun p hp => List.mem_range.1 (hperm.mem_iff.1 hp))
        (initSt satOpt.toBOps 4)
      rw [e]
      refine ⟨fun hne => absurd ?_ hne, ?_⟩
      · unfold out3
        rw [(runEnc_no_coefs _ (fun _ _ _ _ => rfl) _ _ _).1]
        rfl
      · have hlen := k2
        rw [hperm.length_eq, List.length_range] at hlen
        refine depthOK_of_short E2 _ _ ?_ (by unfold out3; rw [hlen]; norm_num) (by omega) ?_
        · intro h0
          unfold out3 at h0
          rw [h0] at hlen
          simp at hlen
        · intro x hx
          have := k1 x hx
          have hrad : (cfg3 satOpt.toBOps 3 3 2 indep mean (cap / 2) (fun _ => 4#64) 4#64
            (fun _ _ _ _ => none)).radius = (cap / 2 : Nat) := rfl
          rw [hrad] at this
          push_cast
          omega)
  exact ⟨fuel0, bytes, h⟩

/-- A block of 8 by 8 for which the toy arithmetic chooses regression. -/
def exData8 : Nat → W := fun p => if p = 1 ∨ p = 3 then 20#64 else if p = 2 then -40#64 else 0#64

example : (choose2 satOpt.toFitOps exData8 8 (false, 0#64) 4#64 0 8 8 1).isSome = true := by
  decide +kernel

example (E1 E2 : Env) : ∃ bytes, szCompress2 satOpt.toFitOps (satFmt 8) E1 E2 exData8 4#64 8 8 8
    false = some bytes := by
  have h := C63_roundtrip_2d satOpt.toFitOps (satFmt 8) rfl E1 E2 exData8 4#64 8 8 8 false
    (by decide) (by decide) (by decide) (by decide) (by decide) ?_ ?_ ?_ ?_
  · obtain ⟨b, hb, -⟩ := h
    exact ⟨b, hb⟩
  · intro diff q h
    have := satB_codes _ _ 16384 (by norm_num) (by norm_num) (by norm_num) diff q h
    omega
  · intro p hp diff q h
    have : p = 4#64 := by simpa [regPrecs, satOpt, satB] using hp
    subst this
    have := satQ_codes 4#64 (by decide) 32768 (by norm_num) 32768 (by norm_num) diff q h
    omega
  · intro _
    exact depthOK_of_short E1 _ _ (by decide +kernel) (by decide +kernel) (by norm_num)
      (by decide +kernel)
  · exact depthOK_of_short E2 _ _ (by decide +kernel) (by decide +kernel) (by norm_num)
      (by decide +kernel)

example (indep : Bool) := C63_exact_3d (fun p => (p : ℝ) ^ 2) (1 / 10) (by norm_num) 3 4 5 2
  (by norm_num) (by norm_num) indep (fun _ => 0)

example {rnd rnd' : ℝ → ℤ} (hr : IsNearest rnd) (hr' : IsIntRounding rnd') (lg : ℝ → ℝ) :=
  C63_float_3d hr hr' (lg := lg) (fun p => (p : ℝ) ^ 2) (1 / 10) (by norm_num) 3 4 5 2
    (by norm_num) (by norm_num) true (fun _ => 0)

example := C63_capacity (fun p => (p : ℝ) ^ 2) 3 4 5 (1 / 10) (by norm_num) (by norm_num)

end CpSZ.Block
