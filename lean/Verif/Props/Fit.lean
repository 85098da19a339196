import Verif.Block.Fit
import Verif.Props.Block3
import Mathlib.Algebra.BigOperators.Ring.Finset
import Mathlib.Algebra.Order.BigOperators.Ring.Finset
import Mathlib.Tactic.FieldSimp
import Mathlib.Tactic.LinearCombination
/-
C61: the regression coefficients are the least squares fit.
-/

namespace CpSZ.Block

open Finset

/-! ### C61: least squares -/

/-- Sum of the squared differences between the values `d` on a `sx` by `sy` block and the plane
`a x + b y + c`. -/
noncomputable def sq2 (d : Nat → Nat → ℝ) (sx sy : Nat) (a b c : ℝ) : ℝ :=
  ∑ i ∈ range sx, ∑ j ∈ range sy, (d i j - (a * i + b * j + c)) ^ 2

/-- The same in 3D. -/
noncomputable def sq3 (d : Nat → Nat → Nat → ℝ) (sx sy sz : Nat) (a b c e : ℝ) : ℝ :=
  ∑ i ∈ range sx, ∑ j ∈ range sy, ∑ k ∈ range sz, (d i j k - (a * i + b * j + c * k + e)) ^ 2

theorem sum_id (n : Nat) : ∑ i ∈ range n, (i : ℝ) = n * (n - 1) / 2 := by
  induction n with
  | zero => simp
  | succ n ih => rw [sum_range_succ, ih]; push_cast; ring

theorem sum_sq (n : Nat) : ∑ i ∈ range n, (i : ℝ) * i = n * (n - 1) * (2 * n - 1) / 6 := by
  induction n with
  | zero => simp
  | succ n ih => rw [sum_range_succ, ih]; push_cast; ring

/-- The sums that the loops of `compute_regression_coeffcients_2d` compute. -/
theorem fit2_real (data : Nat → ℝ) (o sx sy off : Nat) (hoff : sy ≤ off) :
    fit2 realFit data o sx sy off =
      let d := fun i j => data (o + i * off + j)
      let f := ∑ i ∈ range sx, ∑ j ∈ range sy, d i j
      let fx := ∑ i ∈ range sx, ∑ j ∈ range sy, d i j * i
      let fy := ∑ i ∈ range sx, ∑ j ∈ range sy, d i j * j
      let a := (2 * fx / (sx - 1) - f) * 6 * (1 / (sx * sy)) / (sx + 1)
      let b := (2 * fy / (sy - 1) - f) * 6 * (1 / (sx * sy)) / (sy + 1)
      [a, b, f * (1 / (sx * sy)) - ((sx - 1) * a / 2 + (sy - 1) * b / 2)] := by
  have key := foldl_range_inv (fun i (s : Acc2 ℝ ℝ) => s.cur = o + i * off ∧
      s.f = ∑ i ∈ range i, ∑ j ∈ range sy, data (o + i * off + j) ∧
      s.fx = ∑ i ∈ range i, ∑ j ∈ range sy, data (o + i * off + j) * i ∧
      s.fy = ∑ i ∈ range i, ∑ j ∈ range sy, data (o + i * off + j) * j)
    (fitRow realFit data sy off) sx ⟨o, 0, 0, 0, 0⟩ (by simp) (by
      rintro i hi s ⟨h1, h2, h3, h4⟩
      have inner := foldl_range_inv (fun j (t : Acc2 ℝ ℝ) => t.cur = o + i * off + j ∧
          t.f = s.f ∧ t.fx = s.fx ∧
          t.fy = s.fy + ∑ j ∈ range j, data (o + i * off + j) * j ∧
          t.sumx = ∑ j ∈ range j, data (o + i * off + j))
        (fitCol realFit data) sy { s with sumx := 0 } (by simp [h1]) (by
          rintro j hj t ⟨g1, g2, g3, g4, g5⟩
          refine ⟨by simp only [fitCol, g1]; omega, g2, g3, ?_, ?_⟩
          · simp only [fitCol, g1, g4, realFit, roundedFit, id, sum_range_succ]
            push_cast; ring
          · simp only [fitCol, g1, g5, realFit, roundedFit, id, sum_range_succ])
      have hz : realFit.zeroD = (0 : ℝ) := rfl
      obtain ⟨t, ht⟩ : ∃ t, (List.range sy).foldl (fitCol realFit data)
        { s with sumx := 0 } = t := ⟨_, rfl⟩
      rw [ht] at inner
      obtain ⟨g1, g2, g3, g4, g5⟩ := inner
      simp only [fitRow, hz, ht, g1, g2, g3, g4, g5]
      refine ⟨?_, ?_, ?_, ?_⟩
      · rw [Nat.succ_mul]; omega
      · simp only [realFit, roundedFit, id, sum_range_succ, h2]
      · simp only [realFit, roundedFit, id, sum_range_succ, h3]
        rw [sum_mul]
      · simp only [sum_range_succ, h4])
  obtain ⟨-, h2, h3, h4⟩ := key
  have hz : realFit.zeroD = (0 : ℝ) := rfl
  have hz' : realFit.zeroF = (0 : ℝ) := rfl
  simp only [fit2, hz, hz', h2, h3, h4]
  simp only [slope, halfSpan, realFit, roundedFit, id]
  push_cast
  rfl

/-- A plane whose residual is orthogonal to planes: Pythagoras. -/
theorem sq2_split (d : Nat → Nat → ℝ) (sx sy : Nat) (a b c a' b' c' : ℝ)
    (h0 : ∑ i ∈ range sx, ∑ j ∈ range sy, (d i j - (a * i + b * j + c)) = 0)
    (h1 : ∑ i ∈ range sx, ∑ j ∈ range sy, (d i j - (a * i + b * j + c)) * i = 0)
    (h2 : ∑ i ∈ range sx, ∑ j ∈ range sy, (d i j - (a * i + b * j + c)) * j = 0) :
    sq2 d sx sy a' b' c' = sq2 d sx sy a b c +
      ∑ i ∈ range sx, ∑ j ∈ range sy, ((a - a') * i + (b - b') * j + (c - c')) ^ 2 := by
  unfold sq2
  have : ∀ i j : Nat, (d i j - (a' * i + b' * j + c')) ^ 2 =
      (d i j - (a * i + b * j + c)) ^ 2 + ((a - a') * i + (b - b') * j + (c - c')) ^ 2 +
      (2 * (a - a') * ((d i j - (a * i + b * j + c)) * i) +
        2 * (b - b') * ((d i j - (a * i + b * j + c)) * j) +
        2 * (c - c') * (d i j - (a * i + b * j + c))) := by
    intro i j; ring
  simp only [this]
  simp only [sum_add_distrib, ← mul_sum, h0, h1, h2]
  ring

/-- In exact arithmetic `compute_regression_coeffcients_2d` returns the plane with the smallest
sum of squared errors over the block, and no other plane reaches it. -/
theorem C61_least_squares_2d (data : Nat → ℝ) (o sx sy off : Nat) (hx : 2 ≤ sx) (hy : 2 ≤ sy)
    (hoff : sy ≤ off) :
    ∃ a b c, fit2 realFit data o sx sy off = [a, b, c] ∧ ∀ a' b' c',
      sq2 (fun i j => data (o + i * off + j)) sx sy a b c ≤
        sq2 (fun i j => data (o + i * off + j)) sx sy a' b' c' ∧
      (sq2 (fun i j => data (o + i * off + j)) sx sy a' b' c' ≤
        sq2 (fun i j => data (o + i * off + j)) sx sy a b c → a' = a ∧ b' = b ∧ c' = c) := by
  rw [fit2_real data o sx sy off hoff]
  simp only
  obtain ⟨d, hd⟩ : ∃ d : Nat → Nat → ℝ, d = fun i j => data (o + i * off + j) := ⟨_, rfl⟩
  have hd' : ∀ i j, data (o + i * off + j) = d i j := by intro i j; rw [hd]
  simp only [hd']
  have hX : (2 : ℝ) ≤ sx := by exact_mod_cast hx
  have hY : (2 : ℝ) ≤ sy := by exact_mod_cast hy
  refine ⟨_, _, _, rfl, ?_⟩
  obtain ⟨f, hf⟩ : ∃ f, f = ∑ i ∈ range sx, ∑ j ∈ range sy, d i j := ⟨_, rfl⟩
  obtain ⟨fx, hfx⟩ : ∃ fx, fx = ∑ i ∈ range sx, ∑ j ∈ range sy, d i j * i := ⟨_, rfl⟩
  obtain ⟨fy, hfy⟩ : ∃ fy, fy = ∑ i ∈ range sx, ∑ j ∈ range sy, d i j * j := ⟨_, rfl⟩
  rw [← hf, ← hfx, ← hfy]
  obtain ⟨a, ha⟩ : ∃ a, a = (2 * fx / (sx - 1) - f) * 6 * (1 / (sx * sy)) / (sx + 1) := ⟨_, rfl⟩
  obtain ⟨b, hb⟩ : ∃ b, b = (2 * fy / (sy - 1) - f) * 6 * (1 / (sx * sy)) / (sy + 1) := ⟨_, rfl⟩
  rw [← ha, ← hb]
  obtain ⟨c, hc⟩ : ∃ c, c = f * (1 / (sx * sy)) - ((sx - 1) * a / 2 + (sy - 1) * b / 2) :=
    ⟨_, rfl⟩
  rw [← hc]
  have hX0 : (sx : ℝ) - 1 ≠ 0 := by linarith
  have hY0 : (sy : ℝ) - 1 ≠ 0 := by linarith
  have hX1 : (sx : ℝ) + 1 ≠ 0 := by linarith
  have hY1 : (sy : ℝ) + 1 ≠ 0 := by linarith
  have hX2 : (sx : ℝ) ≠ 0 := by linarith
  have hY2 : (sy : ℝ) ≠ 0 := by linarith
  have m0 : ∑ i ∈ range sx, ∑ j ∈ range sy, (1 : ℝ) = sx * sy := by simp
  have m1 : ∑ i ∈ range sx, ∑ j ∈ range sy, (i : ℝ) = sy * (sx * (sx - 1) / 2) := by
    simp only [sum_const, card_range, nsmul_eq_mul, ← mul_sum, sum_id]
  have m2 : ∑ i ∈ range sx, ∑ j ∈ range sy, (j : ℝ) = sx * (sy * (sy - 1) / 2) := by
    simp only [sum_const, card_range, nsmul_eq_mul, sum_id]
  have m11 : ∑ i ∈ range sx, ∑ j ∈ range sy, (i : ℝ) * i =
      sy * (sx * (sx - 1) * (2 * sx - 1) / 6) := by
    simp only [sum_const, card_range, nsmul_eq_mul]
    rw [← mul_sum, sum_sq]
  have m12 : ∑ i ∈ range sx, ∑ j ∈ range sy, (i : ℝ) * j =
      sx * (sx - 1) / 2 * (sy * (sy - 1) / 2) := by
    rw [← sum_mul_sum, sum_id, sum_id]
  have m22 : ∑ i ∈ range sx, ∑ j ∈ range sy, (j : ℝ) * j =
      sx * (sy * (sy - 1) * (2 * sy - 1) / 6) := by
    simp only [sum_const, card_range, nsmul_eq_mul, sum_sq]
  have n0 : ∑ i ∈ range sx, ∑ j ∈ range sy, (d i j - (a * i + b * j + c)) = 0 := by
    have : ∀ i j : Nat, d i j - (a * i + b * j + c) = d i j - (a * i + b * j + c * 1) := by
      intro i j; ring
    simp only [this, sum_sub_distrib, sum_add_distrib, ← mul_sum]
    rw [← hf, m0, m1, m2, hc]
    field_simp
    ring
  have n1 : ∑ i ∈ range sx, ∑ j ∈ range sy, (d i j - (a * i + b * j + c)) * i = 0 := by
    have : ∑ i ∈ range sx, ∑ j ∈ range sy, (d i j - (a * i + b * j + c)) * i =
        ∑ i ∈ range sx, ∑ j ∈ range sy, d i j * i -
        (a * ∑ i ∈ range sx, ∑ j ∈ range sy, (i : ℝ) * i +
          b * ∑ i ∈ range sx, ∑ j ∈ range sy, (i : ℝ) * j +
          c * ∑ i ∈ range sx, ∑ j ∈ range sy, (i : ℝ)) := by
      simp only [mul_sum, ← sum_sub_distrib, ← sum_add_distrib]
      exact sum_congr rfl fun i _ => sum_congr rfl fun j _ => by ring
    rw [this, ← hfx, m1, m11, m12, hc, ha]
    field_simp
    ring
  have n2 : ∑ i ∈ range sx, ∑ j ∈ range sy, (d i j - (a * i + b * j + c)) * j = 0 := by
    have : ∑ i ∈ range sx, ∑ j ∈ range sy, (d i j - (a * i + b * j + c)) * j =
        ∑ i ∈ range sx, ∑ j ∈ range sy, d i j * j -
        (a * ∑ i ∈ range sx, ∑ j ∈ range sy, (i : ℝ) * j +
          b * ∑ i ∈ range sx, ∑ j ∈ range sy, (j : ℝ) * j +
          c * ∑ i ∈ range sx, ∑ j ∈ range sy, (j : ℝ)) := by
      simp only [mul_sum, ← sum_sub_distrib, ← sum_add_distrib]
      exact sum_congr rfl fun i _ => sum_congr rfl fun j _ => by ring
    rw [this, ← hfy, m2, m22, m12, hc, hb]
    field_simp
    ring
  intro a' b' c'
  rw [sq2_split d sx sy a b c a' b' c' n0 n1 n2]
  have hpos : ∀ i ∈ range sx, 0 ≤ ∑ j ∈ range sy, ((a - a') * i + (b - b') * j + (c - c')) ^ 2 :=
    fun i _ => sum_nonneg fun j _ => sq_nonneg _
  refine ⟨by linarith [sum_nonneg hpos], fun hle => ?_⟩
  have hz := (sum_eq_zero_iff_of_nonneg hpos).1 (le_antisymm (by linarith) (sum_nonneg hpos))
  have pt : ∀ i < sx, ∀ j < sy, (a - a') * i + (b - b') * j + (c - c') = 0 := by
    intro i hi j hj
    have := (sum_eq_zero_iff_of_nonneg (fun j _ => sq_nonneg _)).1 (hz i (mem_range.2 hi)) j
      (mem_range.2 hj)
    exact pow_eq_zero_iff (two_ne_zero) |>.1 this
  have p0 := pt 0 (by omega) 0 (by omega)
  have p1 := pt 1 (by omega) 0 (by omega)
  have p2 := pt 0 (by omega) 1 (by omega)
  norm_num at p0 p1 p2
  exact ⟨by linarith, by linarith, by linarith⟩

/-- The sums that the loops of `compute_regression_coeffcients_3d` compute. -/
theorem fit3_real (data : Nat → ℝ) (o sx sy sz off0 off1 : Nat) (h1 : sz ≤ off1)
    (h0 : sy * off1 ≤ off0) :
    fit3 realFit data o sx sy sz off0 off1 =
      let d := fun i j k => data (o + i * off0 + j * off1 + k)
      let f := ∑ i ∈ range sx, ∑ j ∈ range sy, ∑ k ∈ range sz, d i j k
      let fx := ∑ i ∈ range sx, ∑ j ∈ range sy, ∑ k ∈ range sz, d i j k * i
      let fy := ∑ i ∈ range sx, ∑ j ∈ range sy, ∑ k ∈ range sz, d i j k * j
      let fz := ∑ i ∈ range sx, ∑ j ∈ range sy, ∑ k ∈ range sz, d i j k * k
      let n : ℝ := sx * sy * sz
      let a := (2 * fx / (sx - 1) - f) * 6 * (1 / n) / (sx + 1)
      let b := (2 * fy / (sy - 1) - f) * 6 * (1 / n) / (sy + 1)
      let c := (2 * fz / (sz - 1) - f) * 6 * (1 / n) / (sz + 1)
      [a, b, c, f * (1 / n) - ((sx - 1) * a / 2 + (sy - 1) * b / 2 + (sz - 1) * c / 2)] := by
  have hz : realFit.zeroF = (0 : ℝ) := rfl
  have key := foldl_range_inv (fun n (s : Acc3 ℝ) => s.cur = o + n * off0 ∧
      s.f = ∑ i ∈ range n, ∑ j ∈ range sy, ∑ k ∈ range sz, data (o + i * off0 + j * off1 + k) ∧
      s.fx = ∑ i ∈ range n, ∑ j ∈ range sy, ∑ k ∈ range sz, data (o + i * off0 + j * off1 + k) * i ∧
      s.fy = ∑ i ∈ range n, ∑ j ∈ range sy, ∑ k ∈ range sz, data (o + i * off0 + j * off1 + k) * j ∧
      s.fz = ∑ i ∈ range n, ∑ j ∈ range sy, ∑ k ∈ range sz, data (o + i * off0 + j * off1 + k) * k)
    (fitX realFit data sy sz off0 off1) sx ⟨o, 0, 0, 0, 0, 0, 0⟩ (by simp) (by
      rintro i hi s ⟨e1, e2, e3, e4, e5⟩
      have mid := foldl_range_inv (fun n (t : Acc3 ℝ) => t.cur = o + i * off0 + n * off1 ∧
          t.f = s.f ∧ t.fx = s.fx ∧
          t.fy = s.fy + ∑ j ∈ range n, ∑ k ∈ range sz, data (o + i * off0 + j * off1 + k) * j ∧
          t.fz = s.fz + ∑ j ∈ range n, ∑ k ∈ range sz, data (o + i * off0 + j * off1 + k) * k ∧
          t.sumx = ∑ j ∈ range n, ∑ k ∈ range sz, data (o + i * off0 + j * off1 + k))
        (fitY realFit data sz off1) sy { s with sumx := 0 } (by simp [e1]) (by
          rintro j hj t ⟨g1, g2, g3, g4, g5, g6⟩
          have inner := foldl_range_inv (fun n (u : Acc3 ℝ) =>
              u.cur = o + i * off0 + j * off1 + n ∧
              u.f = t.f ∧ u.fx = t.fx ∧ u.fy = t.fy ∧ u.sumx = t.sumx ∧
              u.fz = t.fz + ∑ k ∈ range n, data (o + i * off0 + j * off1 + k) * k ∧
              u.sumy = ∑ k ∈ range n, data (o + i * off0 + j * off1 + k))
            (fitZ realFit data) sz { t with sumy := 0 } (by simp [g1]) (by
              rintro k hk u ⟨q1, q2, q3, q4, q5, q6, q7⟩
              refine ⟨by simp only [fitZ, q1]; omega, q2, q3, q4, q5, ?_, ?_⟩
              · simp only [fitZ, q1, q6, realFit, roundedFit, id, sum_range_succ]
                ring
              · simp only [fitZ, q1, q7, realFit, roundedFit, id, sum_range_succ])
          obtain ⟨u, hu⟩ : ∃ u, (List.range sz).foldl (fitZ realFit data)
            { t with sumy := 0 } = u := ⟨_, rfl⟩
          rw [hu] at inner
          obtain ⟨q1, q2, q3, q4, q5, q6, q7⟩ := inner
          simp only [fitY, hz, hu, q1, q2, q3, q4, q5, q6, q7]
          refine ⟨?_, g2, g3, ?_, ?_, ?_⟩
          · rw [Nat.succ_mul]; omega
          · simp only [realFit, roundedFit, id, sum_range_succ, g4]
            rw [sum_mul]; push_cast; ring
          · simp only [sum_range_succ, g5]
            ring
          · simp only [realFit, roundedFit, id, sum_range_succ, g6])
      obtain ⟨t, ht⟩ : ∃ t, (List.range sy).foldl (fitY realFit data sz off1)
        { s with sumx := 0 } = t := ⟨_, rfl⟩
      rw [ht] at mid
      obtain ⟨g1, g2, g3, g4, g5, g6⟩ := mid
      simp only [fitX, hz, ht, g1, g2, g3, g4, g5, g6]
      refine ⟨?_, ?_, ?_, ?_, ?_⟩
      · rw [Nat.succ_mul]; omega
      · simp only [realFit, roundedFit, id, sum_range_succ, e2]
      · simp only [realFit, roundedFit, id, sum_range_succ, e3]
        rw [sum_mul]
        simp only [sum_mul, Int.cast_natCast]
      · simp only [sum_range_succ, e4]
      · simp only [sum_range_succ, e5])
  obtain ⟨-, h2, h3, h4, h5⟩ := key
  simp only [fit3, hz, h2, h3, h4, h5]
  simp only [slope, halfSpan, realFit, roundedFit, id]
  push_cast
  rfl

theorem sq3_split (d : Nat → Nat → Nat → ℝ) (sx sy sz : Nat) (a b c e a' b' c' e' : ℝ)
    (h0 : ∑ i ∈ range sx, ∑ j ∈ range sy, ∑ k ∈ range sz, (d i j k - (a * i + b * j + c * k + e)) = 0)
    (h1 : ∑ i ∈ range sx, ∑ j ∈ range sy, ∑ k ∈ range sz, (d i j k - (a * i + b * j + c * k + e)) * i = 0)
    (h2 : ∑ i ∈ range sx, ∑ j ∈ range sy, ∑ k ∈ range sz, (d i j k - (a * i + b * j + c * k + e)) * j = 0)
    (h3 : ∑ i ∈ range sx, ∑ j ∈ range sy, ∑ k ∈ range sz, (d i j k - (a * i + b * j + c * k + e)) * k = 0) :
    sq3 d sx sy sz a' b' c' e' = sq3 d sx sy sz a b c e +
      ∑ i ∈ range sx, ∑ j ∈ range sy, ∑ k ∈ range sz, ((a - a') * i + (b - b') * j + (c - c') * k + (e - e')) ^ 2 := by
  unfold sq3
  have : ∀ i j k : Nat, (d i j k - (a' * i + b' * j + c' * k + e')) ^ 2 =
      (d i j k - (a * i + b * j + c * k + e)) ^ 2 + ((a - a') * i + (b - b') * j + (c - c') * k + (e - e')) ^ 2 +
      (2 * (a - a') * ((d i j k - (a * i + b * j + c * k + e)) * i) + 2 * (b - b') * ((d i j k - (a * i + b * j + c * k + e)) * j) + 2 * (c - c') * ((d i j k - (a * i + b * j + c * k + e)) * k) +
        2 * (e - e') * (d i j k - (a * i + b * j + c * k + e))) := by
    intro i j k; ring
  simp only [this]
  simp only [sum_add_distrib, ← mul_sum, h0, h1, h2, h3]
  ring

/-- The same in 3D for `compute_regression_coeffcients_3d`. -/
theorem C61_least_squares_3d (data : Nat → ℝ) (o sx sy sz off0 off1 : Nat) (hx : 2 ≤ sx)
    (hy : 2 ≤ sy) (hz : 2 ≤ sz) (h1 : sz ≤ off1) (h0 : sy * off1 ≤ off0) :
    ∃ a b c e, fit3 realFit data o sx sy sz off0 off1 = [a, b, c, e] ∧ ∀ a' b' c' e',
      sq3 (fun i j k => data (o + i * off0 + j * off1 + k)) sx sy sz a b c e ≤ sq3 (fun i j k => data (o + i * off0 + j * off1 + k)) sx sy sz a' b' c' e' ∧
      (sq3 (fun i j k => data (o + i * off0 + j * off1 + k)) sx sy sz a' b' c' e' ≤ sq3 (fun i j k => data (o + i * off0 + j * off1 + k)) sx sy sz a b c e →
        a' = a ∧ b' = b ∧ c' = c ∧ e' = e) := by
  rw [fit3_real data o sx sy sz off0 off1 h1 h0]
  simp only
  obtain ⟨d, hd⟩ : ∃ d : Nat → Nat → Nat → ℝ, d = fun i j k => data (o + i * off0 + j * off1 + k) := ⟨_, rfl⟩
  have hd' : ∀ i j k, data (o + i * off0 + j * off1 + k) = d i j k := by intro i j k; rw [hd]
  simp only [hd']
  have hX : (2 : ℝ) ≤ sx := by exact_mod_cast hx
  have hY : (2 : ℝ) ≤ sy := by exact_mod_cast hy
  have hZ : (2 : ℝ) ≤ sz := by exact_mod_cast hz
  refine ⟨_, _, _, _, rfl, ?_⟩
  obtain ⟨f, hf⟩ : ∃ f, f = ∑ i ∈ range sx, ∑ j ∈ range sy, ∑ k ∈ range sz, d i j k := ⟨_, rfl⟩
  obtain ⟨fx, hfx⟩ : ∃ fx, fx = ∑ i ∈ range sx, ∑ j ∈ range sy, ∑ k ∈ range sz, d i j k * i := ⟨_, rfl⟩
  obtain ⟨fy, hfy⟩ : ∃ fy, fy = ∑ i ∈ range sx, ∑ j ∈ range sy, ∑ k ∈ range sz, d i j k * j := ⟨_, rfl⟩
  obtain ⟨fz, hfz⟩ : ∃ fz, fz = ∑ i ∈ range sx, ∑ j ∈ range sy, ∑ k ∈ range sz, d i j k * k := ⟨_, rfl⟩
  rw [← hf, ← hfx, ← hfy, ← hfz]
  obtain ⟨a, ha⟩ : ∃ a, a = (2 * fx / (sx - 1) - f) * 6 * (1 / (sx * sy * sz)) / (sx + 1) :=
    ⟨_, rfl⟩
  obtain ⟨b, hb⟩ : ∃ b, b = (2 * fy / (sy - 1) - f) * 6 * (1 / (sx * sy * sz)) / (sy + 1) :=
    ⟨_, rfl⟩
  obtain ⟨c, hc⟩ : ∃ c, c = (2 * fz / (sz - 1) - f) * 6 * (1 / (sx * sy * sz)) / (sz + 1) :=
    ⟨_, rfl⟩
  rw [← ha, ← hb, ← hc]
  obtain ⟨e, he⟩ : ∃ e, e = f * (1 / (sx * sy * sz)) -
    ((sx - 1) * a / 2 + (sy - 1) * b / 2 + (sz - 1) * c / 2) := ⟨_, rfl⟩
  rw [← he]
  have hX0 : (sx : ℝ) - 1 ≠ 0 := by linarith
  have hY0 : (sy : ℝ) - 1 ≠ 0 := by linarith
  have hZ0 : (sz : ℝ) - 1 ≠ 0 := by linarith
  have hX1 : (sx : ℝ) + 1 ≠ 0 := by linarith
  have hY1 : (sy : ℝ) + 1 ≠ 0 := by linarith
  have hZ1 : (sz : ℝ) + 1 ≠ 0 := by linarith
  have hX2 : (sx : ℝ) ≠ 0 := by linarith
  have hY2 : (sy : ℝ) ≠ 0 := by linarith
  have hZ2 : (sz : ℝ) ≠ 0 := by linarith
  have prod : ∀ u v w : Nat → ℝ, ∑ i ∈ range sx, ∑ j ∈ range sy, ∑ k ∈ range sz, u i * v j * w k =
      (∑ i ∈ range sx, u i) * (∑ j ∈ range sy, v j) * ∑ k ∈ range sz, w k := by
    intro u v w
    rw [sum_mul_sum, sum_mul]
    refine sum_congr rfl fun i _ => ?_
    rw [sum_mul]
    refine sum_congr rfl fun j _ => ?_
    rw [mul_sum]
  have one : ∀ n : Nat, ∑ i ∈ range n, (1 : ℝ) = n := by intro n; simp
  have lin : ∀ u v w : Nat → ℝ,
      ∑ i ∈ range sx, ∑ j ∈ range sy, ∑ k ∈ range sz, (d i j k - (a * i + b * j + c * k + e)) * (u i * v j * w k) =
      ∑ i ∈ range sx, ∑ j ∈ range sy, ∑ k ∈ range sz, d i j k * (u i * v j * w k) -
        (a * ((∑ i ∈ range sx, (i : ℝ) * u i) * (∑ j ∈ range sy, v j) * ∑ k ∈ range sz, w k) +
        b * ((∑ i ∈ range sx, u i) * (∑ j ∈ range sy, (j : ℝ) * v j) * ∑ k ∈ range sz, w k) +
        c * ((∑ i ∈ range sx, u i) * (∑ j ∈ range sy, v j) * ∑ k ∈ range sz, (k : ℝ) * w k) +
        e * ((∑ i ∈ range sx, u i) * (∑ j ∈ range sy, v j) * ∑ k ∈ range sz, w k)) := by
    intro u v w
    rw [← prod (fun i => (i : ℝ) * u i) v w, ← prod u (fun j => (j : ℝ) * v j) w,
      ← prod u v (fun k => (k : ℝ) * w k), ← prod u v w]
    simp only [mul_sum, ← sum_sub_distrib, ← sum_add_distrib]
    exact sum_congr rfl fun i _ => sum_congr rfl fun j _ => sum_congr rfl fun k _ => by ring
  have n0 : ∑ i ∈ range sx, ∑ j ∈ range sy, ∑ k ∈ range sz, (d i j k - (a * i + b * j + c * k + e)) = 0 := by
    have := lin (fun _ => 1) (fun _ => 1) (fun _ => 1)
    simp only [mul_one, one, sum_id] at this
    rw [this, ← hf, he]
    field_simp
    ring
  have n1 : ∑ i ∈ range sx, ∑ j ∈ range sy, ∑ k ∈ range sz, (d i j k - (a * i + b * j + c * k + e)) * i = 0 := by
    have := lin (fun i => i) (fun _ => 1) (fun _ => 1)
    simp only [mul_one, one, sum_id, sum_sq] at this
    rw [this, ← hfx, he, ha]
    field_simp
    ring
  have n2 : ∑ i ∈ range sx, ∑ j ∈ range sy, ∑ k ∈ range sz, (d i j k - (a * i + b * j + c * k + e)) * j = 0 := by
    have := lin (fun _ => 1) (fun j => j) (fun _ => 1)
    simp only [mul_one, one_mul, one, sum_id, sum_sq] at this
    rw [this, ← hfy, he, hb]
    field_simp
    ring
  have n3 : ∑ i ∈ range sx, ∑ j ∈ range sy, ∑ k ∈ range sz, (d i j k - (a * i + b * j + c * k + e)) * k = 0 := by
    have := lin (fun _ => 1) (fun _ => 1) (fun k => k)
    simp only [mul_one, one_mul, one, sum_id, sum_sq] at this
    rw [this, ← hfz, he, hc]
    field_simp
    ring
  intro a' b' c' e'
  rw [sq3_split d sx sy sz a b c e a' b' c' e' n0 n1 n2 n3]
  have hp2 : ∀ i, ∀ j ∈ range sy, 0 ≤ ∑ k ∈ range sz,
      ((a - a') * (i : ℕ) + (b - b') * j + (c - c') * k + (e - e')) ^ 2 :=
    fun i j _ => sum_nonneg fun k _ => sq_nonneg _
  have hp1 : ∀ i ∈ range sx, 0 ≤ ∑ j ∈ range sy, ∑ k ∈ range sz,
      ((a - a') * i + (b - b') * j + (c - c') * k + (e - e')) ^ 2 :=
    fun i _ => sum_nonneg (hp2 i)
  refine ⟨by linarith [sum_nonneg hp1], fun hle => ?_⟩
  have hz := (sum_eq_zero_iff_of_nonneg hp1).1 (le_antisymm (by linarith) (sum_nonneg hp1))
  have pt : ∀ i < sx, ∀ j < sy, ∀ k < sz,
      (a - a') * i + (b - b') * j + (c - c') * k + (e - e') = 0 := by
    intro i hi j hj k hk
    have := (sum_eq_zero_iff_of_nonneg (hp2 i)).1 (hz i (mem_range.2 hi)) j (mem_range.2 hj)
    have := (sum_eq_zero_iff_of_nonneg (fun k _ => sq_nonneg _)).1 this k (mem_range.2 hk)
    exact pow_eq_zero_iff (two_ne_zero) |>.1 this
  have p0 := pt 0 (by omega) 0 (by omega) 0 (by omega)
  have p1 := pt 1 (by omega) 0 (by omega) 0 (by omega)
  have p2 := pt 0 (by omega) 1 (by omega) 0 (by omega)
  have p3 := pt 0 (by omega) 0 (by omega) 1 (by omega)
  norm_num at p0 p1 p2 p3
  exact ⟨by linarith, by linarith, by linarith, by linarith⟩

example := C61_least_squares_2d (fun p => (p : ℝ) ^ 2) 7 8 5 20 (by norm_num) (by norm_num)
  (by norm_num)

example := C61_least_squares_3d (fun p => (p : ℝ) ^ 2) 7 6 5 4 200 20 (by norm_num) (by norm_num)
  (by norm_num) (by norm_num) (by norm_num)

end CpSZ.Block
