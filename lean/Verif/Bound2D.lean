import Verif.Spec2D
/-
The error bound formulas of the 2D online modes over the reals
(src/sz_compress_cp_preserve_2d.cpp L390-537) and the proof that they keep critical points
and their types.

A `double` result that may be NaN is an `Option ℝ`, `none` being NaN.
-/

namespace CpSZ

/-- `max_eb_to_keep_sign_2d_online` (src/sz_compress_cp_preserve_2d.cpp L390-396). -/
noncomputable def keepSign (A B : ℝ) (C : ℝ) : ℝ :=
  if |A| + |B| = 0 then 0 else |A + B + C| / (|A| + |B|)

/-- `MINF(a,b) = (a < b) ? a : b` (include/sz_def.hpp L151) on reals. -/
noncomputable def minf (a b : ℝ) : ℝ := if a < b then a else b

/-- `MAX(a,b) = (a > b) ? a : b` (include/sz_def.hpp L147) on reals. -/
noncomputable def maxf (a b : ℝ) : ℝ := if b < a then a else b

/-- `MINF` with NaN operands: a comparison with NaN is false, so the second operand is
returned.  (include/sz_def.hpp L149-152.) -/
noncomputable def minfX : Option ℝ → Option ℝ → Option ℝ
  | some a, some b => if a < b then some a else some b
  | _, b => b

/-- `max_eb_to_keep_position_online` (src/sz_compress_cp_preserve_2d.cpp L402-408). -/
noncomputable def keepPosition (_u0v1 _u1v0 u1v2 u2v1 u2v0 u0v2 : ℝ) : ℝ :=
  minf (keepSign (-u2v1) u1v2 0) (keepSign u2v0 (-u0v2) 0)

/-- `max_eb_to_keep_type_online` (src/sz_compress_cp_preserve_2d.cpp L414-477).  The division by
`2*a` yields NaN for `a = 0`: then `b*b - 4*a*c = b*b`, the numerator is zero, and `MINF(eb, NaN)`
is NaN. -/
noncomputable def keepType (u0 u1 u2 v0 v1 v2 c0 c1 c2 c3 : ℝ) : Option ℝ :=
  let eb1 := minf 1 (keepSign (u2 * v0 - u2 * v1) (u1 * v2 - u0 * v2) (u0 * v1 - u1 * v0))
  let m := c1 * c2 - c0 * c3
  let C := (-m) * (u0 * v1 - u0 * v2 + u1 * v2 - u1 * v0 + u2 * v0 - u2 * v1)
  if C ≤ 0 then some eb1
  else
    let eb2 := keepSign (-c0 * u2 - c1 * u2) (-c2 * v2 - c3 * v2)
      (c0 * u0 + c1 * u1 + c2 * v0 + c3 * v1)
    let A := -c0 * u2 - c1 * u2
    let B := -c2 * v2 - c3 * v2
    let C := c0 * u0 + c1 * u1 + c2 * v0 + c3 * v1
    let D := (-m) * (u2 * v0 - u2 * v1)
    let E := (-m) * (u1 * v2 - u0 * v2)
    let F := (-m) * (u0 * v1 - u1 * v0)
    let C := C + (A + B)
    let F := F + (D + E)
    let delta := C * C - 4 * F
    let L := |2 * A * C - 4 * D| + |2 * B * C - 4 * E|
    if delta = 0 then some 0
    else if 0 < delta then
      if L = 0 then some 1 else some (minf eb2 (delta / L))
    else
      let a := (|A| + |B|) * (|A| + |B|)
      if 2 * a = 0 then none
      else some (minf eb2 ((-L + √(L * L - 4 * a * delta)) / (2 * a)))

open Classical in
/-- `derive_cp_eb_for_positions_online` (src/sz_compress_cp_preserve_2d.cpp L484-537). -/
noncomputable def deriveOnline (u0 u1 u2 v0 v1 v2 c0 c1 c2 c3 : ℝ) : Option ℝ :=
  let M0 := u2 * v0 - u0 * v2
  let M1 := u1 * v2 - u2 * v1
  let M2 := u0 * v1 - u1 * v0
  let M := M0 + M1 + M2
  if M = 0 then some 0
  else
    let f1 := M0 = 0 ∨ 1 ≤ M / M0
    let f2 := M1 = 0 ∨ 1 ≤ M / M1
    let f3 := M2 = 0 ∨ 1 ≤ M / M2
    if f1 ∧ f2 ∧ f3 then
      minfX (some (keepPosition (u0 * v1) (u1 * v0) (u1 * v2) (u2 * v1) (u2 * v0) (u0 * v2)))
        (keepType u0 u1 u2 v0 v1 v2 c0 c1 c2 c3)
    else
      let eb := 0
      let eb := if ¬ f1 then maxf eb (minf (keepSign (u2 * v0) (-u0 * v2) 0)
        (keepSign (-u2 * v1) (u1 * v2) (u0 * v1 - u1 * v0))) else eb
      let eb := if ¬ f2 then maxf eb (minf (keepSign (-u2 * v1) (u1 * v2) 0)
        (keepSign (u2 * v0) (-u0 * v2) (u0 * v1 - u1 * v0))) else eb
      let eb := if ¬ f3 then maxf eb (keepSign (u2 * v0 - u2 * v1) (u1 * v2 - u0 * v2) 0) else eb
      some eb

/-! ### Elementary facts -/

theorem minf_le_left (a b : ℝ) : minf a b ≤ a := by
  unfold minf; split
  · exact le_refl _
  · linarith

theorem minf_le_right (a b : ℝ) : minf a b ≤ b := by
  unfold minf; split
  · linarith
  · exact le_refl _

theorem le_maxf_iff (e a b : ℝ) : e ≤ maxf a b → e ≤ a ∨ e ≤ b := by
  unfold maxf; split
  · exact Or.inl
  · exact Or.inr

/-- Relative perturbation of a product by a constant. -/
theorem rel_mul {x x' e : ℝ} (α : ℝ) (h : |x' - x| < |x| * e) :
    |α * x' - α * x| ≤ |α * x| * e ∧ (α * x ≠ 0 → |α * x' - α * x| < |α * x| * e) := by
  have h1 : |α * x' - α * x| = |α| * |x' - x| := by rw [← mul_sub, abs_mul]
  rw [h1, abs_mul]
  refine ⟨?_, fun hne => ?_⟩
  · nlinarith [abs_nonneg α]
  · have : 0 < |α| := abs_pos.2 (left_ne_zero_of_mul hne)
    nlinarith

/-- The bound keeps the strict sign of `A + B + C` when `A` and `B` change by a relative
error below it. -/
theorem keepSign_spec {A B C A' B' e : ℝ} (he : 0 < e) (hle : e ≤ keepSign A B C)
    (hA : |A' - A| ≤ |A| * e ∧ (A ≠ 0 → |A' - A| < |A| * e))
    (hB : |B' - B| ≤ |B| * e ∧ (B ≠ 0 → |B' - B| < |B| * e)) :
    0 < (A + B + C) * (A' + B' + C) := by
  unfold keepSign at hle
  split at hle
  · linarith
  · rename_i hs
    have hspos : 0 < |A| + |B| :=
      lt_of_le_of_ne (by positivity) (Ne.symm hs)
    rw [le_div_iff₀ hspos] at hle
    have hlt : |A' - A| + |B' - B| < (|A| + |B|) * e := by
      by_cases h : A = 0
      · have hB0 : B ≠ 0 := by
          rintro rfl; subst h; simp at hs
        have := hB.2 hB0
        linarith [hA.1]
      · have := hA.2 h
        linarith [hB.1]
    have hd : |(A' + B' + C) - (A + B + C)| < |A + B + C| := by
      have : (A' + B' + C) - (A + B + C) = (A' - A) + (B' - B) := by ring
      rw [this]
      have := abs_add_le (A' - A) (B' - B)
      nlinarith
    set X := A + B + C
    set Y := A' + B' + C
    rcases le_or_gt 0 X with hX | hX
    · rw [abs_of_nonneg hX, abs_lt] at hd
      have hXp : 0 < X := by
        have : 0 < e * (|A| + |B|) := by positivity
        rw [abs_of_nonneg hX] at hle
        linarith
      nlinarith
    · rw [abs_of_neg hX, abs_lt] at hd
      nlinarith

theorem keepSign_ne_zero {A B C e : ℝ} (he : 0 < e) (hle : e ≤ keepSign A B C) :
    A + B + C ≠ 0 := by
  intro h
  unfold keepSign at hle
  split at hle
  · linarith
  · rw [h] at hle; simp at hle; linarith

theorem pos_cases {a b : ℝ} (h : 0 < a * b) : (0 < a ∧ 0 < b) ∨ (a < 0 ∧ b < 0) :=
  pos_and_pos_or_neg_and_neg_of_mul_pos h

/-- Two numbers of equal strict sign and a third of weakly equal sign. -/
theorem flag_iff {M Mi : ℝ} (hM : M ≠ 0) : (Mi = 0 ∨ 1 ≤ M / Mi) ↔ 0 ≤ Mi * (M - Mi) := by
  constructor
  · rintro (rfl | h)
    · simp
    · have hne : Mi ≠ 0 := by rintro rfl; simp at h; linarith
      have : M = M / Mi * Mi := by field_simp
      rw [this]
      have h2 : Mi * (M / Mi * Mi - Mi) = (M / Mi - 1) * (Mi * Mi) := by ring
      rw [h2]
      exact mul_nonneg (by linarith) (mul_self_nonneg _)
  · intro h
    by_cases hne : Mi = 0
    · exact Or.inl hne
    · right
      have hp : 0 < Mi * Mi := mul_self_pos.2 hne
      have : M / Mi - 1 = Mi * (M - Mi) / (Mi * Mi) := by field_simp
      have := div_nonneg h hp.le
      linarith

/-! ### Existence of the critical point -/

section step

variable {u0 u1 u2 v0 v1 v2 u2' v2' e : ℝ}

/-- All three flags: the minors have the sign of the determinant. -/
theorem flags_hasCP (hM : (u2 * v0 - u0 * v2) + (u1 * v2 - u2 * v1) + (u0 * v1 - u1 * v0) ≠ 0) :
    HasCP (u0, v0) (u1, v1) (u2, v2) ↔
      (u2 * v0 - u0 * v2 = 0 ∨ 1 ≤ ((u2 * v0 - u0 * v2) + (u1 * v2 - u2 * v1) +
        (u0 * v1 - u1 * v0)) / (u2 * v0 - u0 * v2)) ∧
      (u1 * v2 - u2 * v1 = 0 ∨ 1 ≤ ((u2 * v0 - u0 * v2) + (u1 * v2 - u2 * v1) +
        (u0 * v1 - u1 * v0)) / (u1 * v2 - u2 * v1)) ∧
      (u0 * v1 - u1 * v0 = 0 ∨ 1 ≤ ((u2 * v0 - u0 * v2) + (u1 * v2 - u2 * v1) +
        (u0 * v1 - u1 * v0)) / (u0 * v1 - u1 * v0)) := by
  rw [hasCP_iff rfl rfl rfl rfl hM, flag_iff hM, flag_iff hM, flag_iff hM]
  generalize u2 * v0 - u0 * v2 = M0 at *
  generalize u1 * v2 - u2 * v1 = M1 at *
  generalize u0 * v1 - u1 * v0 = M2 at *
  constructor
  · rintro ⟨h0, h1, h2⟩
    have key : ∀ a b M : ℝ, 0 ≤ a * M → 0 ≤ b * M → M ≠ 0 → 0 ≤ a * b := by
      intro a b M ha hb hM
      rcases lt_or_gt_of_ne hM with h | h
      · nlinarith [mul_nonneg_of_nonpos_of_nonpos (show a ≤ 0 by nlinarith) (show b ≤ 0 by nlinarith)]
      · exact mul_nonneg (by nlinarith) (by nlinarith)
    have h01 := key _ _ _ h0 h1 hM
    have h02 := key _ _ _ h0 h2 hM
    have h12 := key _ _ _ h1 h2 hM
    refine ⟨?_, ?_, ?_⟩ <;> nlinarith
  · rintro ⟨h0, h1, h2⟩
    refine ⟨?_, ?_, ?_⟩
    · nlinarith [mul_self_nonneg M0]
    · nlinarith [mul_self_nonneg M1]
    · nlinarith [mul_self_nonneg M2]

/-- Position bound: the two minors involving the vertex keep their strict signs. -/
theorem position_step (he : 0 < e)
    (hle : e ≤ keepPosition (u0 * v1) (u1 * v0) (u1 * v2) (u2 * v1) (u2 * v0) (u0 * v2))
    (hu : |u2' - u2| < |u2| * e) (hv : |v2' - v2| < |v2| * e) :
    0 < (u2 * v0 - u0 * v2) * (u2' * v0 - u0 * v2') ∧
    0 < (u1 * v2 - u2 * v1) * (u1 * v2' - u2' * v1) := by
  unfold keepPosition at hle
  have h1 := hle.trans (minf_le_left _ _)
  have h2 := hle.trans (minf_le_right _ _)
  constructor
  · have := keepSign_spec (A' := u2' * v0) (B' := -(u0 * v2')) he h2
      (by have := rel_mul v0 hu; rw [mul_comm v0, mul_comm v0] at this; exact this)
      (by have := rel_mul (-u0) hv; rw [neg_mul, neg_mul] at this; exact this)
    simpa [sub_eq_add_neg] using this
  · have := keepSign_spec (A' := -(u2' * v1)) (B' := u1 * v2') he h1
      (by have := rel_mul (-v1) hu
          rw [show -v1 * u2' = -(u2' * v1) by ring, show -v1 * u2 = -(u2 * v1) by ring] at this
          exact this)
      (rel_mul u1 hv)
    have e1 : -(u2 * v1) + u1 * v2 + 0 = u1 * v2 - u2 * v1 := by ring
    have e2 : -(u2' * v1) + u1 * v2' + 0 = u1 * v2' - u2' * v1 := by ring
    rwa [e1, e2] at this

/-- With a critical point and the position bound, the perturbed triangle has a critical
point and its determinant keeps its strict sign. -/
theorem cp_kept (hcp : HasCP (u0, v0) (u1, v1) (u2, v2))
    (hM : (u2 * v0 - u0 * v2) + (u1 * v2 - u2 * v1) + (u0 * v1 - u1 * v0) ≠ 0)
    (hp0 : 0 < (u2 * v0 - u0 * v2) * (u2' * v0 - u0 * v2'))
    (hp1 : 0 < (u1 * v2 - u2 * v1) * (u1 * v2' - u2' * v1)) :
    0 < ((u2 * v0 - u0 * v2) + (u1 * v2 - u2 * v1) + (u0 * v1 - u1 * v0)) *
      ((u2' * v0 - u0 * v2') + (u1 * v2' - u2' * v1) + (u0 * v1 - u1 * v0)) ∧
    HasCP (u0, v0) (u1, v1) (u2', v2') := by
  obtain ⟨h0, h1, h2⟩ := (hasCP_iff rfl rfl rfl rfl hM).1 hcp
  have key : 0 < ((u2 * v0 - u0 * v2) + (u1 * v2 - u2 * v1) + (u0 * v1 - u1 * v0)) *
      ((u2' * v0 - u0 * v2') + (u1 * v2' - u2' * v1) + (u0 * v1 - u1 * v0)) ∧
      0 ≤ (u2' * v0 - u0 * v2') *
        ((u2' * v0 - u0 * v2') + (u1 * v2' - u2' * v1) + (u0 * v1 - u1 * v0)) ∧
      0 ≤ (u1 * v2' - u2' * v1) *
        ((u2' * v0 - u0 * v2') + (u1 * v2' - u2' * v1) + (u0 * v1 - u1 * v0)) ∧
      0 ≤ (u0 * v1 - u1 * v0) *
        ((u2' * v0 - u0 * v2') + (u1 * v2' - u2' * v1) + (u0 * v1 - u1 * v0)) := by
    clear hcp
    generalize u2 * v0 - u0 * v2 = M0 at *
    generalize u1 * v2 - u2 * v1 = M1 at *
    generalize u0 * v1 - u1 * v0 = M2 at *
    generalize u2' * v0 - u0 * v2' = N0 at *
    generalize u1 * v2' - u2' * v1 = N1 at *
    rcases lt_or_gt_of_ne hM with h | h
    · have a0 : M0 ≤ 0 := by nlinarith
      have a1 : M1 ≤ 0 := by nlinarith
      have a2 : M2 ≤ 0 := by nlinarith
      have b0 : N0 < 0 := by rcases pos_cases hp0 with ⟨x, y⟩ | ⟨x, y⟩ <;> linarith
      have b1 : N1 < 0 := by rcases pos_cases hp1 with ⟨x, y⟩ | ⟨x, y⟩ <;> linarith
      have hN : N0 + N1 + M2 < 0 := by linarith
      exact ⟨mul_pos_of_neg_of_neg h hN, (mul_pos_of_neg_of_neg b0 hN).le,
        (mul_pos_of_neg_of_neg b1 hN).le, mul_nonneg_of_nonpos_of_nonpos a2 hN.le⟩
    · have a0 : 0 ≤ M0 := by nlinarith
      have a1 : 0 ≤ M1 := by nlinarith
      have a2 : 0 ≤ M2 := by nlinarith
      have b0 : 0 < N0 := by rcases pos_cases hp0 with ⟨x, y⟩ | ⟨x, y⟩ <;> linarith
      have b1 : 0 < N1 := by rcases pos_cases hp1 with ⟨x, y⟩ | ⟨x, y⟩ <;> linarith
      have hN : 0 < N0 + N1 + M2 := by linarith
      exact ⟨mul_pos h hN, (mul_pos b0 hN).le, (mul_pos b1 hN).le, mul_nonneg a2 hN.le⟩
  refine ⟨key.1, (hasCP_iff rfl rfl rfl rfl ?_).2 key.2⟩
  intro h0
  rw [h0] at key
  simp at key

/-- No critical point: one of the `!f` branches excludes one after the change. -/
theorem nocp_kept (he : 0 < e)
    (hM : (u2 * v0 - u0 * v2) + (u1 * v2 - u2 * v1) + (u0 * v1 - u1 * v0) ≠ 0)
    (hu : |u2' - u2| < |u2| * e) (hv : |v2' - v2| < |v2| * e)
    (h : (¬ (u2 * v0 - u0 * v2 = 0 ∨ 1 ≤ ((u2 * v0 - u0 * v2) + (u1 * v2 - u2 * v1) +
          (u0 * v1 - u1 * v0)) / (u2 * v0 - u0 * v2)) ∧
        e ≤ minf (keepSign (u2 * v0) (-u0 * v2) 0)
          (keepSign (-u2 * v1) (u1 * v2) (u0 * v1 - u1 * v0))) ∨
      (¬ (u1 * v2 - u2 * v1 = 0 ∨ 1 ≤ ((u2 * v0 - u0 * v2) + (u1 * v2 - u2 * v1) +
          (u0 * v1 - u1 * v0)) / (u1 * v2 - u2 * v1)) ∧
        e ≤ minf (keepSign (-u2 * v1) (u1 * v2) 0)
          (keepSign (u2 * v0) (-u0 * v2) (u0 * v1 - u1 * v0))) ∨
      (¬ (u0 * v1 - u1 * v0 = 0 ∨ 1 ≤ ((u2 * v0 - u0 * v2) + (u1 * v2 - u2 * v1) +
          (u0 * v1 - u1 * v0)) / (u0 * v1 - u1 * v0)) ∧
        e ≤ keepSign (u2 * v0 - u2 * v1) (u1 * v2 - u0 * v2) 0)) :
    ¬ HasCP (u0, v0) (u1, v1) (u2', v2') := by
  have ru0 : |u2' * v0 - u2 * v0| ≤ |u2 * v0| * e ∧
      (u2 * v0 ≠ 0 → |u2' * v0 - u2 * v0| < |u2 * v0| * e) := by
    have := rel_mul v0 hu; rw [mul_comm v0, mul_comm v0] at this; exact this
  have rv0 : |-u0 * v2' - -u0 * v2| ≤ |-u0 * v2| * e ∧
      (-u0 * v2 ≠ 0 → |-u0 * v2' - -u0 * v2| < |-u0 * v2| * e) := rel_mul (-u0) hv
  have ru1 : |-u2' * v1 - -u2 * v1| ≤ |-u2 * v1| * e ∧
      (-u2 * v1 ≠ 0 → |-u2' * v1 - -u2 * v1| < |-u2 * v1| * e) := by
    have := rel_mul (-v1) hu
    rw [show -v1 * u2' = -u2' * v1 by ring, show -v1 * u2 = -u2 * v1 by ring] at this
    exact this
  have rv1 : |u1 * v2' - u1 * v2| ≤ |u1 * v2| * e ∧
      (u1 * v2 ≠ 0 → |u1 * v2' - u1 * v2| < |u1 * v2| * e) := rel_mul u1 hv
  rw [flag_iff hM, flag_iff hM, flag_iff hM] at h
  apply not_hasCP_of_opp rfl rfl rfl rfl
  rcases h with ⟨hf, hle⟩ | ⟨hf, hle⟩ | ⟨hf, hle⟩
  · left
    have k1 := keepSign_spec he (hle.trans (minf_le_left _ _)) ru0 rv0
    have k2 := keepSign_spec he (hle.trans (minf_le_right _ _)) ru1 rv1
    push Not at hf
    rcases pos_cases k1 with ⟨x, y⟩ | ⟨x, y⟩ <;> rcases pos_cases k2 with ⟨z, w⟩ | ⟨z, w⟩ <;> nlinarith
  · right; left
    have k1 := keepSign_spec he (hle.trans (minf_le_left _ _)) ru1 rv1
    have k2 := keepSign_spec he (hle.trans (minf_le_right _ _)) ru0 rv0
    push Not at hf
    rcases pos_cases k1 with ⟨x, y⟩ | ⟨x, y⟩ <;> rcases pos_cases k2 with ⟨z, w⟩ | ⟨z, w⟩ <;> nlinarith
  · right; right
    have ru : |(u2' * v0 - u2' * v1) - (u2 * v0 - u2 * v1)| ≤ |u2 * v0 - u2 * v1| * e ∧
        (u2 * v0 - u2 * v1 ≠ 0 →
          |(u2' * v0 - u2' * v1) - (u2 * v0 - u2 * v1)| < |u2 * v0 - u2 * v1| * e) := by
      have := rel_mul (v0 - v1) hu
      rw [show (v0 - v1) * u2' = u2' * v0 - u2' * v1 by ring,
        show (v0 - v1) * u2 = u2 * v0 - u2 * v1 by ring] at this
      exact this
    have rv : |(u1 * v2' - u0 * v2') - (u1 * v2 - u0 * v2)| ≤ |u1 * v2 - u0 * v2| * e ∧
        (u1 * v2 - u0 * v2 ≠ 0 →
          |(u1 * v2' - u0 * v2') - (u1 * v2 - u0 * v2)| < |u1 * v2 - u0 * v2| * e) := by
      have := rel_mul (u1 - u0) hv
      rw [show (u1 - u0) * v2' = u1 * v2' - u0 * v2' by ring,
        show (u1 - u0) * v2 = u1 * v2 - u0 * v2 by ring] at this
      exact this
    have k1 := keepSign_spec he hle ru rv
    push Not at hf
    rcases pos_cases k1 with ⟨x, y⟩ | ⟨x, y⟩ <;>
      rcases lt_trichotomy (u0 * v1 - u1 * v0) 0 with z | z | z <;> nlinarith

end step

/-! ### Type of the critical point -/

theorem minfX_some {a b : Option ℝ} {E e : ℝ} (hb : b ≠ none) (ha : a ≠ none)
    (h : minfX a b = some E) (he : e ≤ E) :
    (∃ x, a = some x ∧ e ≤ x) ∧ (∃ y, b = some y ∧ e ≤ y) := by
  cases a with
  | none => exact absurd rfl ha
  | some x =>
    cases b with
    | none => exact absurd rfl hb
    | some y =>
      simp only [minfX] at h
      split at h
      · cases h; exact ⟨⟨_, rfl, he⟩, ⟨_, rfl, by linarith⟩⟩
      · cases h; exact ⟨⟨_, rfl, by linarith⟩, ⟨_, rfl, he⟩⟩

/-- Trace of the Jacobian in terms of the constants `c`. -/
def trC (c0 c1 c2 c3 u0 u1 u2 v0 v1 v2 : ℝ) : ℝ :=
  c0 * (u0 - u2) + c1 * (u1 - u2) + c2 * (v0 - v2) + c3 * (v1 - v2)

/-- Determinant of the Jacobian in terms of the constants `c`. -/
def detC (c0 c1 c2 c3 u0 u1 u2 v0 v1 v2 : ℝ) : ℝ :=
  -(c1 * c2 - c0 * c3) *
    ((u2 * v0 - u0 * v2) + (u1 * v2 - u2 * v1) + (u0 * v1 - u1 * v0))

theorem rel_factor {x x' e : ℝ} (h : |x' - x| < |x| * e) : ∃ r, x' = x * (1 + r) ∧ |r| < e := by
  have hx : x ≠ 0 := by rintro rfl; simp at h; exact absurd h (not_lt.2 (abs_nonneg _))
  refine ⟨(x' - x) / x, by field_simp; ring, ?_⟩
  rw [abs_div, div_lt_iff₀ (abs_pos.2 hx)]
  linarith

theorem abs_lin_le {p q r s e : ℝ} (hr : |r| < e) (hs : |s| < e) :
    |p * r + q * s| ≤ (|p| + |q|) * e := by
  have h1 : |p * r| ≤ |p| * e := by rw [abs_mul]; nlinarith [abs_nonneg p]
  have h2 : |q * s| ≤ |q| * e := by rw [abs_mul]; nlinarith [abs_nonneg q]
  have := abs_add_le (p * r) (q * s)
  nlinarith

theorem abs_lin_lt {p q r s e : ℝ} (hr : |r| < e) (hs : |s| < e) (hpq : |p| + |q| ≠ 0) :
    |p * r + q * s| < (|p| + |q|) * e := by
  have h1 : |p * r| ≤ |p| * e := by rw [abs_mul]; nlinarith [abs_nonneg p]
  have h2 : |q * s| ≤ |q| * e := by rw [abs_mul]; nlinarith [abs_nonneg q]
  have h3 := abs_add_le (p * r) (q * s)
  by_cases hp : p = 0
  · have hq : 0 < |q| := by
      rw [hp] at hpq; simp at hpq; exact abs_pos.2 hpq
    have : |q * s| < |q| * e := by rw [abs_mul]; nlinarith
    nlinarith
  · have hp' : 0 < |p| := abs_pos.2 hp
    have : |p * r| < |p| * e := by rw [abs_mul]; nlinarith
    nlinarith

/-- Below the positive root of a quadratic its value is not positive. -/
theorem quad_root {a L c e : ℝ} (ha : 0 < a) (hL : 0 ≤ L) (hc : c < 0) (he : 0 < e)
    (hle : e ≤ (-L + √(L * L - 4 * a * c)) / (2 * a)) : a * (e * e) + L * e + c ≤ 0 := by
  rw [le_div_iff₀ (by linarith)] at hle
  have hRsq : √(L * L - 4 * a * c) * √(L * L - 4 * a * c) = L * L - 4 * a * c :=
    Real.mul_self_sqrt (by
      have k1 := mul_self_nonneg L
      have k2 := mul_pos ha (neg_pos.2 hc)
      linarith)
  have h2 : (2 * a * e + L) * (2 * a * e + L) ≤ √(L * L - 4 * a * c) * √(L * L - 4 * a * c) :=
    mul_self_le_mul_self (by positivity) (by linarith)
  rw [hRsq] at h2
  by_contra hcon; push Not at hcon
  have := mul_pos (show 0 < 4 * a by linarith) hcon
  nlinarith

/-- Abstract form of the type argument: trace and determinant are affine in the relative
changes `r`, `s`. -/
theorem type_core {A B D E t d r s e : ℝ} (he : 0 < e) (hr : |r| < e) (hs : |s| < e)
    (hd : 0 < d) (hd' : 0 < d + D * r + E * s)
    (h : (0 < t * t - 4 * d ∧ (|2 * A * t - 4 * D| + |2 * B * t - 4 * E| = 0)) ∨
      (0 < t * t - 4 * d ∧ |2 * A * t - 4 * D| + |2 * B * t - 4 * E| ≠ 0 ∧
        e ≤ (t * t - 4 * d) / (|2 * A * t - 4 * D| + |2 * B * t - 4 * E|) ∧
        0 < t * (t + A * r + B * s)) ∨
      (t * t - 4 * d < 0 ∧ (|A| + |B|) * (|A| + |B|) ≠ 0 ∧
        e ≤ (-(|2 * A * t - 4 * D| + |2 * B * t - 4 * E|) +
          √((|2 * A * t - 4 * D| + |2 * B * t - 4 * E|) *
            (|2 * A * t - 4 * D| + |2 * B * t - 4 * E|) -
            4 * ((|A| + |B|) * (|A| + |B|)) * (t * t - 4 * d))) /
          (2 * ((|A| + |B|) * (|A| + |B|))) ∧
        0 < t * (t + A * r + B * s))) :
    0 < (t * t - 4 * d) * ((t + A * r + B * s) * (t + A * r + B * s) -
        4 * (d + D * r + E * s)) ∧ 0 < t * (t + A * r + B * s) := by
  have hexp : (t + A * r + B * s) * (t + A * r + B * s) - 4 * (d + D * r + E * s) =
      (t * t - 4 * d) + ((2 * A * t - 4 * D) * r + (2 * B * t - 4 * E) * s) +
        (A * r + B * s) * (A * r + B * s) := by ring
  have hlin := abs_lin_le (p := 2 * A * t - 4 * D) (q := 2 * B * t - 4 * E) hr hs
  have hsq := mul_self_nonneg (A * r + B * s)
  rcases h with ⟨hdel, hL⟩ | ⟨hdel, hL, hle, htr⟩ | ⟨hdel, ha, hle, htr⟩
  · rw [hL, zero_mul] at hlin
    have hz : (2 * A * t - 4 * D) * r + (2 * B * t - 4 * E) * s = 0 :=
      abs_eq_zero.1 (le_antisymm hlin (abs_nonneg _))
    refine ⟨mul_pos hdel (by rw [hexp, hz]; linarith), ?_⟩
    by_contra hneg
    push Not at hneg
    set w := A * r + B * s with hw
    have hw' : t + A * r + B * s = t + w := by rw [hw]; ring
    rw [hw'] at hneg
    have htne : t ≠ 0 := by rintro rfl; simp at hdel; linarith
    have hwne : w ≠ 0 := by
      intro h0; rw [h0, add_zero] at hneg
      exact htne (by nlinarith [mul_self_nonneg t])
    -- the path parameter at which the trace vanishes
    have hsig : t * w < 0 := by
      have : 0 < t * t := mul_self_pos.2 htne
      nlinarith
    set σ := -t / w with hσ
    have hσw : σ * w = -t := by rw [hσ]; field_simp
    have hww : 0 < w * w := mul_self_pos.2 hwne
    have hσ0 : 0 ≤ σ := by
      have : σ * (w * w) = -(t * w) := by rw [← mul_assoc, hσw]; ring
      by_contra hc; push Not at hc; nlinarith
    have hσ1 : σ ≤ 1 := by
      have h1 : σ * (w * w) = -(t * w) := by rw [← mul_assoc, hσw]; ring
      have h2 : -(t * w) ≤ w * w := by
        have : w * w + t * w = w * (t + w) := by ring
        have h3 : 0 ≤ w * (t + w) := by
          rcases lt_or_gt_of_ne htne with h | h
          · have : 0 < w := by nlinarith
            have : 0 ≤ t + w := by nlinarith
            positivity
          · have hw0 : w < 0 := by nlinarith
            have : t + w ≤ 0 := by nlinarith
            exact mul_nonneg_of_nonpos_of_nonpos hw0.le this
        linarith
      by_contra hc; push Not at hc; nlinarith
    have hdpos : 0 < d + σ * (D * r + E * s) := by
      have : d + σ * (D * r + E * s) = (1 - σ) * d + σ * (d + D * r + E * s) := by ring
      rw [this]
      rcases eq_or_lt_of_le hσ0 with h | h
      · rw [← h]; linarith
      · have := mul_pos h hd'
        have := mul_nonneg (sub_nonneg.2 hσ1) hd.le
        linarith
    have hdisc : (t + σ * w) * (t + σ * w) - 4 * (d + σ * (D * r + E * s)) =
        (t * t - 4 * d) + σ * ((2 * A * t - 4 * D) * r + (2 * B * t - 4 * E) * s) +
          σ * σ * (w * w) := by rw [hw]; ring
    rw [hz, hσw] at hdisc
    have : 0 ≤ σ * σ * (w * w) := by positivity
    nlinarith
  · refine ⟨?_, htr⟩
    have hlt := abs_lin_lt (p := 2 * A * t - 4 * D) (q := 2 * B * t - 4 * E) hr hs hL
    have hLpos : 0 < |2 * A * t - 4 * D| + |2 * B * t - 4 * E| :=
      lt_of_le_of_ne (by positivity) (Ne.symm hL)
    rw [le_div_iff₀ hLpos] at hle
    rw [hexp]
    apply mul_pos hdel
    have := (abs_lt.1 hlt).1
    nlinarith
  · refine ⟨?_, htr⟩
    rw [hexp]
    apply mul_pos_of_neg_of_neg hdel
    have hABne : |A| + |B| ≠ 0 := fun h => ha (by rw [h]; ring)
    have hAB : 0 < |A| + |B| := lt_of_le_of_ne (by positivity) (Ne.symm hABne)
    have hABlt := abs_lin_lt (p := A) (q := B) hr hs hABne
    have hsq2 : (A * r + B * s) * (A * r + B * s) < (|A| + |B|) * e * ((|A| + |B|) * e) := by
      rw [← abs_mul_abs_self]
      exact mul_self_lt_mul_self (abs_nonneg _) hABlt
    generalize |2 * A * t - 4 * D| + |2 * B * t - 4 * E| = L at *
    generalize |A| + |B| = S at *
    have hSS : 0 < S * S := mul_pos hAB hAB
    have hLnn : 0 ≤ L := by
      by_contra hc; push Not at hc
      have := abs_nonneg ((2 * A * t - 4 * D) * r + (2 * B * t - 4 * E) * s)
      nlinarith
    have h4 := quad_root hSS hLnn hdel he hle
    have h5 := (abs_le.1 hlin).2
    have h6 : S * e * (S * e) = (S * S) * (e * e) := by ring
    rw [h6] at hsq2
    linarith

/-- The type bound keeps determinant sign, discriminant sign and, unless the point is a
saddle, trace sign. -/
theorem type_step {u0 u1 u2 v0 v1 v2 c0 c1 c2 c3 u2' v2' e E : ℝ} (he : 0 < e)
    (hE : keepType u0 u1 u2 v0 v1 v2 c0 c1 c2 c3 = some E) (hle : e ≤ E)
    (hu : |u2' - u2| < |u2| * e) (hv : |v2' - v2| < |v2| * e)
    (hdet : 0 < detC c0 c1 c2 c3 u0 u1 u2 v0 v1 v2 * detC c0 c1 c2 c3 u0 u1 u2' v0 v1 v2') :
    0 < (trC c0 c1 c2 c3 u0 u1 u2 v0 v1 v2 ^ 2 - 4 * detC c0 c1 c2 c3 u0 u1 u2 v0 v1 v2) *
      (trC c0 c1 c2 c3 u0 u1 u2' v0 v1 v2' ^ 2 - 4 * detC c0 c1 c2 c3 u0 u1 u2' v0 v1 v2') ∧
    (0 < detC c0 c1 c2 c3 u0 u1 u2 v0 v1 v2 →
      0 < trC c0 c1 c2 c3 u0 u1 u2 v0 v1 v2 * trC c0 c1 c2 c3 u0 u1 u2' v0 v1 v2') := by
  obtain ⟨r, rfl, hr⟩ := rel_factor hu
  obtain ⟨s, rfl, hs⟩ := rel_factor hv
  rcases pos_cases hdet with ⟨hd, hd'⟩ | ⟨hd, hd'⟩
  · unfold keepType at hE
    simp only at hE
    set A := -c0 * u2 - c1 * u2 with hA
    set B := -c2 * v2 - c3 * v2 with hB
    set D := -(c1 * c2 - c0 * c3) * (u2 * v0 - u2 * v1) with hD
    set E' := -(c1 * c2 - c0 * c3) * (u1 * v2 - u0 * v2) with hE'
    set t := trC c0 c1 c2 c3 u0 u1 u2 v0 v1 v2 with ht
    set d := detC c0 c1 c2 c3 u0 u1 u2 v0 v1 v2 with hdd
    have et : c0 * u0 + c1 * u1 + c2 * v0 + c3 * v1 + (A + B) = t := by
      rw [ht, hA, hB]; unfold trC; ring
    have ed : -(c1 * c2 - c0 * c3) * (u0 * v1 - u1 * v0) + (D + E') = d := by
      rw [hdd, hD, hE']; unfold detC; ring
    have ed2 : -(c1 * c2 - c0 * c3) *
        (u0 * v1 - u0 * v2 + u1 * v2 - u1 * v0 + u2 * v0 - u2 * v1) = d := by
      rw [hdd]; unfold detC; ring
    have et' : trC c0 c1 c2 c3 u0 u1 (u2 * (1 + r)) v0 v1 (v2 * (1 + s)) = t + A * r + B * s := by
      rw [ht, hA, hB]; unfold trC; ring
    have ed' : detC c0 c1 c2 c3 u0 u1 (u2 * (1 + r)) v0 v1 (v2 * (1 + s)) = d + D * r + E' * s := by
      rw [hdd, hD, hE']; unfold detC; ring
    rw [et', ed', pow_two, pow_two]
    rw [ed'] at hd'
    rw [ed2, et, ed, if_neg (not_le.2 hd)] at hE
    have htrace : e ≤ keepSign A B (c0 * u0 + c1 * u1 + c2 * v0 + c3 * v1) →
        0 < t * (t + A * r + B * s) := by
      intro hk
      have := keepSign_spec (A' := A * (1 + r)) (B' := B * (1 + s)) he hk
        (by have := rel_mul (-c0 - c1) hu
            rw [show (-c0 - c1) * (u2 * (1 + r)) = A * (1 + r) by rw [hA]; ring,
              show (-c0 - c1) * u2 = A by rw [hA]; ring] at this
            exact this)
        (by have := rel_mul (-c2 - c3) hv
            rw [show (-c2 - c3) * (v2 * (1 + s)) = B * (1 + s) by rw [hB]; ring,
              show (-c2 - c3) * v2 = B by rw [hB]; ring] at this
            exact this)
      have e1 : A + B + (c0 * u0 + c1 * u1 + c2 * v0 + c3 * v1) = t := by rw [← et]; ring
      have e2 : A * (1 + r) + B * (1 + s) + (c0 * u0 + c1 * u1 + c2 * v0 + c3 * v1) =
          t + A * r + B * s := by rw [← et]; ring
      rwa [e1, e2] at this
    have := type_core (A := A) (B := B) (D := D) (E := E') (t := t) (d := d) he hr hs hd hd' (by
      split at hE
      · cases hE; linarith
      · split at hE
        · rename_i hdel
          split at hE
          · rename_i hL
            exact Or.inl ⟨hdel, hL⟩
          · rename_i hL
            cases hE
            exact Or.inr (Or.inl ⟨hdel, hL, hle.trans (minf_le_right _ _),
              htrace (hle.trans (minf_le_left _ _))⟩)
        · rename_i h0 hdel
          split at hE
          · cases hE
          · rename_i ha
            cases hE
            refine Or.inr (Or.inr ⟨lt_of_le_of_ne (not_lt.1 hdel) h0, ?_,
              hle.trans (minf_le_right _ _), htrace (hle.trans (minf_le_left _ _))⟩)
            intro h; exact ha (by rw [h]; ring))
    exact ⟨this.1, fun _ => this.2⟩
  · refine ⟨?_, fun h => absurd h (not_lt.2 hd.le)⟩
    apply mul_pos <;> nlinarith [sq_nonneg (trC c0 c1 c2 c3 u0 u1 u2 v0 v1 v2),
      sq_nonneg (trC c0 c1 c2 c3 u0 u1 (u2 * (1 + r)) v0 v1 (v2 * (1 + s)))]

theorem keepType_none {u0 u1 u2 v0 v1 v2 c0 c1 c2 c3 : ℝ}
    (h : keepType u0 u1 u2 v0 v1 v2 c0 c1 c2 c3 = none) :
    (c0 + c1) * u2 = 0 ∧ (c2 + c3) * v2 = 0 := by
  unfold keepType at h
  simp only at h
  split at h
  · cases h
  split at h
  · cases h
  split at h
  · split at h <;> cases h
  split at h
  · rename_i ha
    have h0 : |-c0 * u2 - c1 * u2| + |-c2 * v2 - c3 * v2| = 0 := by
      have : (|-c0 * u2 - c1 * u2| + |-c2 * v2 - c3 * v2|) *
        (|-c0 * u2 - c1 * u2| + |-c2 * v2 - c3 * v2|) = 0 := by linarith
      exact mul_self_eq_zero.1 this
    have h1 := abs_nonneg (-c0 * u2 - c1 * u2)
    have h2 := abs_nonneg (-c2 * v2 - c3 * v2)
    have h3 : -c0 * u2 - c1 * u2 = 0 := abs_eq_zero.1 (by linarith)
    have h4 : -c2 * v2 - c3 * v2 = 0 := abs_eq_zero.1 (by linarith)
    constructor <;> linarith
  · cases h

theorem deriveOnline_none {u0 u1 u2 v0 v1 v2 c0 c1 c2 c3 : ℝ}
    (h : deriveOnline u0 u1 u2 v0 v1 v2 c0 c1 c2 c3 = none) :
    keepType u0 u1 u2 v0 v1 v2 c0 c1 c2 c3 = none := by
  unfold deriveOnline at h
  simp only at h
  split at h
  · cases h
  · split at h
    · cases hk : keepType u0 u1 u2 v0 v1 v2 c0 c1 c2 c3 with
      | none => rfl
      | some y => rw [hk] at h; simp only [minfX] at h; split at h <;> cases h
    · cases h

/-- One triangle, one vertex: the derived bound keeps the existence of the critical point,
and where there is one, the signs that decide its type. -/
theorem deriveOnline_step {u0 u1 u2 v0 v1 v2 c0 c1 c2 c3 u2' v2' e E : ℝ} (he : 0 < e)
    (hm : c1 * c2 - c0 * c3 ≠ 0)
    (hty : keepType u0 u1 u2 v0 v1 v2 c0 c1 c2 c3 ≠ none)
    (hE : deriveOnline u0 u1 u2 v0 v1 v2 c0 c1 c2 c3 = some E) (hle : e ≤ E)
    (hu : |u2' - u2| < |u2| * e) (hv : |v2' - v2| < |v2| * e) :
    (HasCP (u0, v0) (u1, v1) (u2, v2) ↔ HasCP (u0, v0) (u1, v1) (u2', v2')) ∧
    (HasCP (u0, v0) (u1, v1) (u2, v2) →
      0 < detC c0 c1 c2 c3 u0 u1 u2 v0 v1 v2 * detC c0 c1 c2 c3 u0 u1 u2' v0 v1 v2' ∧
      0 < (trC c0 c1 c2 c3 u0 u1 u2 v0 v1 v2 ^ 2 - 4 * detC c0 c1 c2 c3 u0 u1 u2 v0 v1 v2) *
        (trC c0 c1 c2 c3 u0 u1 u2' v0 v1 v2' ^ 2 - 4 * detC c0 c1 c2 c3 u0 u1 u2' v0 v1 v2') ∧
      (0 < detC c0 c1 c2 c3 u0 u1 u2 v0 v1 v2 →
        0 < trC c0 c1 c2 c3 u0 u1 u2 v0 v1 v2 * trC c0 c1 c2 c3 u0 u1 u2' v0 v1 v2')) := by
  unfold deriveOnline at hE
  simp only at hE
  by_cases hM : (u2 * v0 - u0 * v2) + (u1 * v2 - u2 * v1) + (u0 * v1 - u1 * v0) = 0
  · rw [if_pos hM] at hE; cases hE; linarith
  rw [if_neg hM] at hE
  by_cases hcp : HasCP (u0, v0) (u1, v1) (u2, v2)
  · have hf := (flags_hasCP hM).1 hcp
    rw [if_pos hf] at hE
    obtain ⟨⟨x, hx, hxe⟩, ⟨y, hy, hye⟩⟩ := minfX_some hty (by simp) hE hle
    cases hx
    obtain ⟨p0, p1⟩ := position_step he hxe hu hv
    obtain ⟨hMM, hcp'⟩ := cp_kept hcp hM p0 p1
    refine ⟨⟨fun _ => hcp', fun _ => hcp⟩, fun _ => ?_⟩
    have hdet : 0 < detC c0 c1 c2 c3 u0 u1 u2 v0 v1 v2 * detC c0 c1 c2 c3 u0 u1 u2' v0 v1 v2' := by
      unfold detC
      have := mul_pos (mul_self_pos.2 hm) hMM
      calc 0 < _ := this
        _ = _ := by ring
    obtain ⟨h1, h2⟩ := type_step he hy hye hu hv hdet
    exact ⟨hdet, h1, h2⟩
  · have hf := fun h => hcp ((flags_hasCP hM).2 h)
    rw [if_neg hf] at hE
    have hno : ¬ HasCP (u0, v0) (u1, v1) (u2', v2') := by
      apply nocp_kept he hM hu hv
      injection hE with hE
      subst hE
      by_cases h3 : ¬ (u0 * v1 - u1 * v0 = 0 ∨ 1 ≤ ((u2 * v0 - u0 * v2) + (u1 * v2 - u2 * v1) +
          (u0 * v1 - u1 * v0)) / (u0 * v1 - u1 * v0))
      · rw [if_pos h3] at hle
        rcases le_maxf_iff _ _ _ hle with hle | hle
        swap
        · exact Or.inr (Or.inr ⟨h3, hle⟩)
        by_cases h2 : ¬ (u1 * v2 - u2 * v1 = 0 ∨ 1 ≤ ((u2 * v0 - u0 * v2) + (u1 * v2 - u2 * v1) +
            (u0 * v1 - u1 * v0)) / (u1 * v2 - u2 * v1))
        · rw [if_pos h2] at hle
          rcases le_maxf_iff _ _ _ hle with hle | hle
          swap
          · exact Or.inr (Or.inl ⟨h2, hle⟩)
          split at hle
          · rename_i h1
            rcases le_maxf_iff _ _ _ hle with hle | hle
            · linarith
            · exact Or.inl ⟨h1, hle⟩
          · linarith
        · rw [if_neg h2] at hle
          split at hle
          · rename_i h1
            rcases le_maxf_iff _ _ _ hle with hle | hle
            · linarith
            · exact Or.inl ⟨h1, hle⟩
          · linarith
      · rw [if_neg h3] at hle
        by_cases h2 : ¬ (u1 * v2 - u2 * v1 = 0 ∨ 1 ≤ ((u2 * v0 - u0 * v2) + (u1 * v2 - u2 * v1) +
            (u0 * v1 - u1 * v0)) / (u1 * v2 - u2 * v1))
        · rw [if_pos h2] at hle
          rcases le_maxf_iff _ _ _ hle with hle | hle
          swap
          · exact Or.inr (Or.inl ⟨h2, hle⟩)
          split at hle
          · rename_i h1
            rcases le_maxf_iff _ _ _ hle with hle | hle
            · linarith
            · exact Or.inl ⟨h1, hle⟩
          · linarith
        · rw [if_neg h2] at hle
          split at hle
          · rename_i h1
            rcases le_maxf_iff _ _ _ hle with hle | hle
            · linarith
            · exact Or.inl ⟨h1, hle⟩
          · linarith
    exact ⟨⟨fun h => absurd h hcp, fun h => absurd h hno⟩, fun h => absurd h hcp⟩

end CpSZ
