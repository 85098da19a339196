import Verif.ThreeD.Spec
import Verif.Bound2D
/-
The error bound formulas of the 3D online modes over the reals
(src/sz_compress_cp_preserve_3d.cpp L598-602, L660-745, L1156-1239).
-/

namespace CpSZ.ThreeD

/-- `max_eb_to_keep_sign_3d_online` (src/sz_compress_cp_preserve_3d.cpp L599-602). -/
noncomputable def keepSign3 (A B C D : ℝ) : ℝ :=
  if A = 0 ∧ B = 0 ∧ C = 0 then 1 else |A + B + C + D| / (|A| + |B| + |C|)

open Classical in
/-- `sgn` (include/sz_cp_preserve_utils.hpp L30-32). -/
noncomputable def sgn (x : ℝ) : Int := (if 0 < x then 1 else 0) - (if x < 0 then 1 else 0)

open Classical in
/-- `same_direction` (include/sz_cp_preserve_utils.hpp L41-46). -/
noncomputable def sameDirection (u0 u1 u2 u3 : ℝ) : Bool :=
  if sgn u0 = 0 then false
  else if sgn u0 = sgn u1 ∧ sgn u0 = sgn u2 ∧ sgn u0 = sgn u3 then true else false

open Classical in
/-- `max_eb_to_keep_position_and_type_3d_online` (src/sz_compress_cp_preserve_3d.cpp L662-745).
The statements after the first `return 0` in the branch "cp found" are unreachable. -/
noncomputable def derive3 (a b c d : V3) : ℝ :=
  let u3_0 := -d.u * b.v * c.w + d.u * c.v * b.w
  let u3_1 := -d.u * c.v * a.w + d.u * a.v * c.w
  let u3_2 := -d.u * a.v * b.w + d.u * b.v * a.w
  let v3_0 := b.u * d.v * c.w - c.u * d.v * b.w
  let v3_1 := c.u * d.v * a.w - a.u * d.v * c.w
  let v3_2 := a.u * d.v * b.w - b.u * d.v * a.w
  let w3_0 := -b.u * c.v * d.w + c.u * b.v * d.w
  let w3_1 := a.u * c.v * d.w - c.u * a.v * d.w
  let w3_2 := -a.u * b.v * d.w + b.u * a.v * d.w
  let c_4 := a.u * b.v * c.w - a.u * c.v * b.w + b.u * c.v * a.w - b.u * a.v * c.w +
    c.u * a.v * b.w - c.u * b.v * a.w
  let M0 := u3_0 + v3_0 + w3_0
  let M1 := u3_1 + v3_1 + w3_1
  let M2 := u3_2 + v3_2 + w3_2
  let M3 := c_4
  let M := M0 + M1 + M2 + M3
  if M = 0 then
    if sameDirection a.u b.u c.u d.u || sameDirection a.v b.v c.v d.v ||
      sameDirection a.w b.w c.w d.w then 1 else 0
  else
    let f0 := M0 = 0 ∨ 1 < M / M0
    let f1 := M1 = 0 ∨ 1 < M / M1
    let f2 := M2 = 0 ∨ 1 < M / M2
    let f3 := M3 = 0 ∨ 1 < M / M3
    if f0 ∧ f1 ∧ f2 ∧ f3 then 0
    else
      let eb := 0
      let eb := if ¬ f0 then maxf eb (minf (keepSign3 u3_0 v3_0 w3_0 0)
        (keepSign3 (u3_1 + u3_2) (v3_1 + v3_2) (w3_1 + w3_2) c_4)) else eb
      let eb := if ¬ f1 then maxf eb (minf (keepSign3 u3_1 v3_1 w3_1 0)
        (keepSign3 (u3_0 + u3_2) (v3_0 + v3_2) (w3_0 + w3_2) c_4)) else eb
      let eb := if ¬ f2 then maxf eb (minf (keepSign3 u3_2 v3_2 w3_2 0)
        (keepSign3 (u3_0 + u3_1) (v3_0 + v3_1) (w3_0 + w3_1) c_4)) else eb
      let eb := if ¬ f3 then maxf eb
        (keepSign3 (u3_0 + u3_1 + u3_2) (v3_0 + v3_1 + v3_2) (w3_0 + w3_1 + w3_2) 0) else eb
      eb

/-! ### Critical points through minors -/

theorem Weights.le_one {a b c d : V3} {x y z t : ℝ} (W : Weights a b c d x y z t) :
    x ≤ 1 ∧ y ≤ 1 ∧ z ≤ 1 ∧ t ≤ 1 := by
  obtain ⟨h1, h2, h3, h4, h5, -, -, -⟩ := W
  refine ⟨by linarith, by linarith, by linarith, by linarith⟩

/-- A minor of sign opposite to the sum of the others excludes a critical point. -/
theorem no_cp {a b c d : V3} {m : ℝ} (hm : m = minor0 a b c d ∨ m = minor1 a b c d ∨
    m = minor2 a b c d ∨ m = minor3 a b c d) (h : (minorSum a b c d - m) * m < 0) :
    ¬ HasCP [a, b, c, d] := by
  rw [hasCP_four]
  rintro ⟨x, y, z, t, W⟩
  obtain ⟨h0, h1, h2, h3⟩ := W.minors
  obtain ⟨l0, l1, l2, l3⟩ := W.le_one
  have key : ∀ l : ℝ, 0 ≤ l → l ≤ 1 → m = l * minorSum a b c d → False := by
    intro l hl hl1 he
    rw [he] at h
    have : 0 ≤ (l * (1 - l)) * (minorSum a b c d) ^ 2 :=
      mul_nonneg (mul_nonneg hl (by linarith)) (sq_nonneg _)
    nlinarith
  rcases hm with hm | hm | hm | hm
  · exact key x W.x0 l0 (hm.trans h0)
  · exact key y W.y0 l1 (hm.trans h1)
  · exact key z W.z0 l2 (hm.trans h2)
  · exact key t W.t0 l3 (hm.trans h3)

def V3.isZero (a : V3) : Prop := a.u = 0 ∧ a.v = 0 ∧ a.w = 0

theorem cp_iff0 {a b c d : V3} (hm : minor0 a b c d ≠ 0)
    (hs : minorSum a b c d = minor0 a b c d) : HasCP [a, b, c, d] ↔ a.isZero := by
  rw [hasCP_four]
  constructor
  · rintro ⟨x, y, z, t, W⟩
    obtain ⟨h0, -, -, -⟩ := W.minors
    rw [hs] at h0
    have hx : x = 1 := mul_right_cancel₀ hm (by rw [one_mul]; exact h0.symm)
    obtain ⟨x0, y0, z0, t0, hsum, hu, hv, hw⟩ := W
    have hy : y = 0 := by linarith
    have hz : z = 0 := by linarith
    have ht : t = 0 := by linarith
    subst hx hy hz ht
    exact ⟨by linarith, by linarith, by linarith⟩
  · rintro ⟨hu, hv, hw⟩
    exact ⟨1, 0, 0, 0, by norm_num, by norm_num, by norm_num, by norm_num, by norm_num,
      by rw [hu]; ring, by rw [hv]; ring, by rw [hw]; ring⟩

theorem cp_iff1 {a b c d : V3} (hm : minor1 a b c d ≠ 0)
    (hs : minorSum a b c d = minor1 a b c d) : HasCP [a, b, c, d] ↔ b.isZero := by
  rw [hasCP_four]
  constructor
  · rintro ⟨x, y, z, t, W⟩
    obtain ⟨-, h0, -, -⟩ := W.minors
    rw [hs] at h0
    have hy : y = 1 := mul_right_cancel₀ hm (by rw [one_mul]; exact h0.symm)
    obtain ⟨x0, y0, z0, t0, hsum, hu, hv, hw⟩ := W
    have hx : x = 0 := by linarith
    have hz : z = 0 := by linarith
    have ht : t = 0 := by linarith
    subst hx hy hz ht
    exact ⟨by linarith, by linarith, by linarith⟩
  · rintro ⟨hu, hv, hw⟩
    exact ⟨0, 1, 0, 0, by norm_num, by norm_num, by norm_num, by norm_num, by norm_num,
      by rw [hu]; ring, by rw [hv]; ring, by rw [hw]; ring⟩

theorem cp_iff2 {a b c d : V3} (hm : minor2 a b c d ≠ 0)
    (hs : minorSum a b c d = minor2 a b c d) : HasCP [a, b, c, d] ↔ c.isZero := by
  rw [hasCP_four]
  constructor
  · rintro ⟨x, y, z, t, W⟩
    obtain ⟨-, -, h0, -⟩ := W.minors
    rw [hs] at h0
    have hz : z = 1 := mul_right_cancel₀ hm (by rw [one_mul]; exact h0.symm)
    obtain ⟨x0, y0, z0, t0, hsum, hu, hv, hw⟩ := W
    have hx : x = 0 := by linarith
    have hy : y = 0 := by linarith
    have ht : t = 0 := by linarith
    subst hx hy hz ht
    exact ⟨by linarith, by linarith, by linarith⟩
  · rintro ⟨hu, hv, hw⟩
    exact ⟨0, 0, 1, 0, by norm_num, by norm_num, by norm_num, by norm_num, by norm_num,
      by rw [hu]; ring, by rw [hv]; ring, by rw [hw]; ring⟩

theorem cp_iff3 {a b c d : V3} (hm : minor3 a b c d ≠ 0)
    (hs : minorSum a b c d = minor3 a b c d) : HasCP [a, b, c, d] ↔ d.isZero := by
  rw [hasCP_four]
  constructor
  · rintro ⟨x, y, z, t, W⟩
    obtain ⟨-, -, -, h0⟩ := W.minors
    rw [hs] at h0
    have ht : t = 1 := mul_right_cancel₀ hm (by rw [one_mul]; exact h0.symm)
    obtain ⟨x0, y0, z0, t0, hsum, hu, hv, hw⟩ := W
    have hx : x = 0 := by linarith
    have hy : y = 0 := by linarith
    have hz : z = 0 := by linarith
    subst hx hy hz ht
    exact ⟨by linarith, by linarith, by linarith⟩
  · rintro ⟨hu, hv, hw⟩
    exact ⟨0, 0, 0, 1, by norm_num, by norm_num, by norm_num, by norm_num, by norm_num,
      by rw [hu]; ring, by rw [hv]; ring, by rw [hw]; ring⟩

/-! ### The elementary bound -/

theorem sign_of_close {X Y : ℝ} (h : |Y - X| < |X|) : 0 < X * Y := by
  rcases le_or_gt 0 X with hX | hX
  · rw [abs_of_nonneg hX, abs_lt] at h
    nlinarith
  · rw [abs_of_neg hX, abs_lt] at h
    nlinarith

theorem lin3_lt {A B C x y z e : ℝ} (h : ¬ (A = 0 ∧ B = 0 ∧ C = 0)) (hx : |x| < e) (hy : |y| < e)
    (hz : |z| < e) : |A * x + B * y + C * z| < (|A| + |B| + |C|) * e := by
  have h1 : |A * x + B * y + C * z| ≤ |A| * |x| + |B| * |y| + |C| * |z| := by
    rw [← abs_mul, ← abs_mul, ← abs_mul]
    exact (abs_add_le _ _).trans (by gcongr; exact abs_add_le _ _)
  have hA := abs_nonneg A
  have hB := abs_nonneg B
  have hC := abs_nonneg C
  by_cases hA0 : A = 0
  · by_cases hB0 : B = 0
    · have hC0 : 0 < |C| := abs_pos.2 (fun h0 => h ⟨hA0, hB0, h0⟩)
      nlinarith
    · have hB0 : 0 < |B| := abs_pos.2 hB0
      nlinarith
  · have hA0 : 0 < |A| := abs_pos.2 hA0
    nlinarith

theorem denom_pos {A B C : ℝ} (h : ¬ (A = 0 ∧ B = 0 ∧ C = 0)) : 0 < |A| + |B| + |C| := by
  have hA := abs_nonneg A
  have hB := abs_nonneg B
  have hC := abs_nonneg C
  by_contra hc
  exact h ⟨abs_eq_zero.1 (by linarith), abs_eq_zero.1 (by linarith), abs_eq_zero.1 (by linarith)⟩

theorem keepSign3_spec {A B C D e x y z : ℝ} (hle : e ≤ keepSign3 A B C D)
    (hx : |x| < e) (hy : |y| < e) (hz : |z| < e) :
    0 < (A + B + C + D) * (A * (1 + x) + B * (1 + y) + C * (1 + z) + D) ∨
    (A = 0 ∧ B = 0 ∧ C = 0) := by
  by_cases h0 : A = 0 ∧ B = 0 ∧ C = 0
  · exact Or.inr h0
  · left
    unfold keepSign3 at hle
    rw [if_neg h0, le_div_iff₀ (denom_pos h0)] at hle
    apply sign_of_close
    have h1 := lin3_lt h0 hx hy hz
    rw [show A * (1 + x) + B * (1 + y) + C * (1 + z) + D - (A + B + C + D) =
      A * x + B * y + C * z by ring]
    linarith [mul_comm e (|A| + |B| + |C|)]

theorem keepSign3_le_one {A B C : ℝ} : keepSign3 A B C 0 ≤ 1 := by
  unfold keepSign3
  split
  · exact le_refl _
  · rename_i h
    rw [div_le_one (denom_pos h)]
    rw [add_zero]
    exact (abs_add_le _ _).trans (by gcongr; exact abs_add_le _ _)

theorem keepSign3_ne {A B C D e : ℝ} (he : 0 < e) (hle : e ≤ keepSign3 A B C D)
    (h : A + B + C + D = 0) : A = 0 ∧ B = 0 ∧ C = 0 := by
  by_contra h0
  unfold keepSign3 at hle
  rw [if_neg h0, h] at hle
  simp at hle
  linarith

/-! ### Shape of the bound -/

theorem not_flag {M m : ℝ} (h : ¬ (m = 0 ∨ 1 < M / m)) : m ≠ 0 ∧ (M - m) * m ≤ 0 := by
  push Not at h
  obtain ⟨h0, h1⟩ := h
  refine ⟨h0, ?_⟩
  have : M / m - 1 ≤ 0 := by linarith
  have h2 : (M - m) * m = (M / m - 1) * (m * m) := by field_simp
  rw [h2]
  exact mul_nonpos_of_nonpos_of_nonneg this (mul_self_nonneg m)

/-- The conditions attached to one minor `m`: `m` is not zero and does not have the sign of
the sum of the others. -/
def Opp (a b c d : V3) (m : ℝ) : Prop := m ≠ 0 ∧ (minorSum a b c d - m) * m ≤ 0

theorem derive3_cases {a b c d : V3} {e : ℝ} (he : 0 < e) (hle : e ≤ derive3 a b c d) :
    (e ≤ 1 ∧ (sameDirection a.u b.u c.u d.u = true ∨ sameDirection a.v b.v c.v d.v = true ∨
      sameDirection a.w b.w c.w d.w = true)) ∨
    (Opp a b c d (minor0 a b c d) ∧
      e ≤ keepSign3 (-d.u * b.v * c.w + d.u * c.v * b.w) (b.u * d.v * c.w - c.u * d.v * b.w)
        (-b.u * c.v * d.w + c.u * b.v * d.w) 0 ∧
      e ≤ keepSign3 ((-d.u * c.v * a.w + d.u * a.v * c.w) + (-d.u * a.v * b.w + d.u * b.v * a.w))
        ((c.u * d.v * a.w - a.u * d.v * c.w) + (a.u * d.v * b.w - b.u * d.v * a.w))
        ((a.u * c.v * d.w - c.u * a.v * d.w) + (-a.u * b.v * d.w + b.u * a.v * d.w))
        (minor3 a b c d)) ∨
    (Opp a b c d (minor1 a b c d) ∧
      e ≤ keepSign3 (-d.u * c.v * a.w + d.u * a.v * c.w) (c.u * d.v * a.w - a.u * d.v * c.w)
        (a.u * c.v * d.w - c.u * a.v * d.w) 0 ∧
      e ≤ keepSign3 ((-d.u * b.v * c.w + d.u * c.v * b.w) + (-d.u * a.v * b.w + d.u * b.v * a.w))
        ((b.u * d.v * c.w - c.u * d.v * b.w) + (a.u * d.v * b.w - b.u * d.v * a.w))
        ((-b.u * c.v * d.w + c.u * b.v * d.w) + (-a.u * b.v * d.w + b.u * a.v * d.w))
        (minor3 a b c d)) ∨
    (Opp a b c d (minor2 a b c d) ∧
      e ≤ keepSign3 (-d.u * a.v * b.w + d.u * b.v * a.w) (a.u * d.v * b.w - b.u * d.v * a.w)
        (-a.u * b.v * d.w + b.u * a.v * d.w) 0 ∧
      e ≤ keepSign3 ((-d.u * b.v * c.w + d.u * c.v * b.w) + (-d.u * c.v * a.w + d.u * a.v * c.w))
        ((b.u * d.v * c.w - c.u * d.v * b.w) + (c.u * d.v * a.w - a.u * d.v * c.w))
        ((-b.u * c.v * d.w + c.u * b.v * d.w) + (a.u * c.v * d.w - c.u * a.v * d.w))
        (minor3 a b c d)) ∨
    (Opp a b c d (minor3 a b c d) ∧
      e ≤ keepSign3
        ((-d.u * b.v * c.w + d.u * c.v * b.w) + (-d.u * c.v * a.w + d.u * a.v * c.w) +
          (-d.u * a.v * b.w + d.u * b.v * a.w))
        ((b.u * d.v * c.w - c.u * d.v * b.w) + (c.u * d.v * a.w - a.u * d.v * c.w) +
          (a.u * d.v * b.w - b.u * d.v * a.w))
        ((-b.u * c.v * d.w + c.u * b.v * d.w) + (a.u * c.v * d.w - c.u * a.v * d.w) +
          (-a.u * b.v * d.w + b.u * a.v * d.w)) 0) := by
  unfold derive3 at hle
  simp only at hle
  split at hle
  · split at hle
    · rename_i hs
      simp only [Bool.or_eq_true] at hs
      left
      exact ⟨hle, by tauto⟩
    · linarith
  · right
    split at hle
    · linarith
    · have conv : ∀ m, ¬ (m = 0 ∨ 1 < minorSum a b c d / m) → Opp a b c d m := fun m h => not_flag h
      have step : ∀ {p : Prop} [Decidable p] {eb x : ℝ}, e ≤ (if ¬ p then maxf eb x else eb) →
          e ≤ eb ∨ (¬ p ∧ e ≤ x) := by
        intro p _ eb x h
        split at h
        · rename_i hp
          rcases le_maxf_iff _ _ _ h with h | h
          · exact Or.inl h
          · exact Or.inr ⟨hp, h⟩
        · exact Or.inl h
      rcases step hle with hle | ⟨hf, hle⟩
      · rcases step hle with hle | ⟨hf, hle⟩
        · rcases step hle with hle | ⟨hf, hle⟩
          · rcases step hle with hle | ⟨hf, hle⟩
            · linarith
            · exact Or.inl ⟨conv _ hf, hle.trans (minf_le_left _ _), hle.trans (minf_le_right _ _)⟩
          · exact Or.inr (Or.inl
              ⟨conv _ hf, hle.trans (minf_le_left _ _), hle.trans (minf_le_right _ _)⟩)
        · exact Or.inr (Or.inr (Or.inl
            ⟨conv _ hf, hle.trans (minf_le_left _ _), hle.trans (minf_le_right _ _)⟩))
      · exact Or.inr (Or.inr (Or.inr ⟨conv _ hf, hle⟩))

theorem sgn_pos_iff (x : ℝ) : (sgn x = 1 ↔ 0 < x) ∧ (sgn x = -1 ↔ x < 0) ∧ (sgn x = 0 ↔ x = 0) := by
  unfold sgn
  rcases lt_trichotomy x 0 with h | h | h
  · simp [h, not_lt.2 h.le, h.ne]
  · subst h; simp
  · simp [h, not_lt.2 h.le, h.ne']

theorem sameDirection_iff (u0 u1 u2 u3 : ℝ) : sameDirection u0 u1 u2 u3 = true ↔
    (0 < u0 ∧ 0 < u1 ∧ 0 < u2 ∧ 0 < u3) ∨ (u0 < 0 ∧ u1 < 0 ∧ u2 < 0 ∧ u3 < 0) := by
  unfold sameDirection
  rcases lt_trichotomy u0 0 with h | h | h
  · have h1 := (sgn_pos_iff u0).2.1.2 h
    rw [h1]
    simp only [show ¬ ((-1 : Int) = 0) by decide, if_false, not_lt.2 h.le, false_and, false_or, h,
      true_and]
    rw [← (sgn_pos_iff u1).2.1, ← (sgn_pos_iff u2).2.1, ← (sgn_pos_iff u3).2.1]
    simp only [eq_comm (a := (-1 : Int)), Bool.if_false_right, Bool.and_true, decide_eq_true_eq]
  · subst h
    have h1 := (sgn_pos_iff 0).2.2.2 rfl
    rw [h1]; simp
  · have h1 := (sgn_pos_iff u0).1.2 h
    rw [h1]
    simp only [show ¬ ((1 : Int) = 0) by decide, if_false, not_lt.2 h.le, false_and, or_false, h,
      true_and]
    rw [← (sgn_pos_iff u1).1, ← (sgn_pos_iff u2).1, ← (sgn_pos_iff u3).1]
    simp only [eq_comm (a := (1 : Int)), Bool.if_false_right, Bool.and_true, decide_eq_true_eq]

theorem no_cp_same {a b c d : V3}
    (h : sameDirection a.u b.u c.u d.u = true ∨ sameDirection a.v b.v c.v d.v = true ∨
      sameDirection a.w b.w c.w d.w = true) : ¬ HasCP [a, b, c, d] := by
  rw [hasCP_four]
  rintro ⟨x, y, z, t, W⟩
  have key : ∀ p q r s : ℝ, sameDirection p q r s = true → x * p + y * q + z * r + t * s = 0 →
      False := by
    intro p q r s hs he
    obtain ⟨x0, y0, z0, t0, hsum, -, -, -⟩ := W
    have pos : ∀ p q r s : ℝ, 0 < p → 0 < q → 0 < r → 0 < s →
        0 < x * p + y * q + z * r + t * s := by
      intro p q r s hp hq hr hs
      have a1 := mul_nonneg x0 hp.le
      have a2 := mul_nonneg y0 hq.le
      have a3 := mul_nonneg z0 hr.le
      have a4 := mul_nonneg t0 hs.le
      by_contra hc
      have b1 : x * p = 0 := by linarith
      have b2 : y * q = 0 := by linarith
      have b3 : z * r = 0 := by linarith
      have b4 : t * s = 0 := by linarith
      have c1 : x = 0 := (mul_eq_zero.1 b1).resolve_right hp.ne'
      have c2 : y = 0 := (mul_eq_zero.1 b2).resolve_right hq.ne'
      have c3 : z = 0 := (mul_eq_zero.1 b3).resolve_right hr.ne'
      have c4 : t = 0 := (mul_eq_zero.1 b4).resolve_right hs.ne'
      linarith
    rcases (sameDirection_iff p q r s).1 hs with ⟨h1, h2, h3, h4⟩ | ⟨h1, h2, h3, h4⟩
    · exact absurd he (pos p q r s h1 h2 h3 h4).ne'
    · have := pos (-p) (-q) (-r) (-s) (by linarith) (by linarith) (by linarith) (by linarith)
      linarith
  rcases h with h | h | h
  · exact key _ _ _ _ h W.hu
  · exact key _ _ _ _ h W.hv
  · exact key _ _ _ _ h W.hw

theorem sameDirection_pert {u0 u1 u2 u3 x e : ℝ} (he : e ≤ 1) (hx : |x| < e)
    (h : sameDirection u0 u1 u2 u3 = true) : sameDirection u0 u1 u2 (u3 * (1 + x)) = true := by
  rw [sameDirection_iff] at h ⊢
  rw [abs_lt] at hx
  have : 0 < 1 + x := by linarith
  rcases h with ⟨h1, h2, h3, h4⟩ | ⟨h1, h2, h3, h4⟩
  · exact Or.inl ⟨h1, h2, h3, mul_pos h4 this⟩
  · exact Or.inr ⟨h1, h2, h3, mul_neg_of_neg_of_pos h4 this⟩

/-- Conclusion from the signs before and after a change. -/
theorem cp_of_signs {P Q : Prop} {m m' S S' : ℝ} (hm : m ≠ 0) (hS : S * m ≤ 0)
    (h1 : 0 < m * m') (h2 : 0 < S * S' ∨ (S = 0 ∧ S' = 0))
    (hneg : S * m < 0 → ¬ P) (hneg' : S' * m' < 0 → ¬ Q)
    (hzero : S = 0 → S' = 0 → m' ≠ 0 → (P ↔ Q)) : P ↔ Q := by
  have hm' : m' ≠ 0 := by rintro rfl; simp at h1
  rcases h2 with h2 | ⟨h2, h3⟩
  · have hS0 : S ≠ 0 := by rintro rfl; simp at h2
    have hlt : S * m < 0 := lt_of_le_of_ne hS (mul_ne_zero hS0 hm)
    have hlt' : S' * m' < 0 := by
      rcases pos_cases h1 with ⟨p1, p2⟩ | ⟨p1, p2⟩ <;> rcases pos_cases h2 with ⟨q1, q2⟩ | ⟨q1, q2⟩
      · exact absurd hlt (not_lt.2 (mul_pos q1 p1).le)
      · exact mul_neg_of_neg_of_pos q2 p2
      · exact mul_neg_of_pos_of_neg q2 p2
      · exact absurd hlt (not_lt.2 (mul_pos_of_neg_of_neg q1 p1).le)
    exact iff_of_false (hneg hlt) (hneg' hlt')
  · exact hzero h2 h3 hm'

theorem keepSign3_two {A B C D e x y z : ℝ} (hle : e ≤ keepSign3 A B C D)
    (hx : |x| < e) (hy : |y| < e) (hz : |z| < e) {S S' : ℝ} (hS : S = A + B + C + D)
    (hS' : S' = A * (1 + x) + B * (1 + y) + C * (1 + z) + D) :
    0 < S * S' ∨ (S = 0 ∧ S' = 0) := by
  rcases keepSign3_spec hle hx hy hz with h | ⟨h1, h2, h3⟩
  · left; rw [hS, hS']; exact h
  · rw [h1, h2, h3] at hS hS'
    simp only [zero_add, zero_mul] at hS hS'
    by_cases hD : D = 0
    · exact Or.inr ⟨hS.trans hD, hS'.trans hD⟩
    · left; rw [hS, hS']; exact mul_self_pos.2 hD

theorem keepSign3_pos {A B C D e x y z : ℝ} (hle : e ≤ keepSign3 A B C D)
    (hx : |x| < e) (hy : |y| < e) (hz : |z| < e) {S S' : ℝ} (h0 : S ≠ 0) (hS : S = A + B + C + D)
    (hS' : S' = A * (1 + x) + B * (1 + y) + C * (1 + z) + D) : 0 < S * S' := by
  rcases keepSign3_two hle hx hy hz hS hS' with h | ⟨h, -⟩
  · exact h
  · exact absurd h h0

/-- C29, one tetrahedron: relative changes of the vector at the last corner below the bound
neither create nor destroy a critical point. -/
theorem derive3_step {a b c d : V3} {e x y z : ℝ} (he : 0 < e) (hle : e ≤ derive3 a b c d)
    (hx : |x| < e) (hy : |y| < e) (hz : |z| < e) :
    HasCP [a, b, c, d] ↔ HasCP [a, b, c, ⟨d.u * (1 + x), d.v * (1 + y), d.w * (1 + z)⟩] := by
  set d' : V3 := ⟨d.u * (1 + x), d.v * (1 + y), d.w * (1 + z)⟩ with hd'
  rcases derive3_cases he hle with ⟨h1, hs⟩ | ⟨⟨hm, hS⟩, k1, k2⟩ | ⟨⟨hm, hS⟩, k1, k2⟩ |
    ⟨⟨hm, hS⟩, k1, k2⟩ | ⟨⟨hm, hS⟩, k1⟩
  · refine iff_of_false (no_cp_same hs) (no_cp_same ?_)
    rcases hs with hs | hs | hs
    · exact Or.inl (sameDirection_pert h1 hx hs)
    · exact Or.inr (Or.inl (sameDirection_pert h1 hy hs))
    · exact Or.inr (Or.inr (sameDirection_pert h1 hz hs))
  · refine cp_of_signs (m' := minor0 a b c d') (S' := minorSum a b c d' - minor0 a b c d') hm hS
      (keepSign3_pos k1 hx hy hz hm ?_ ?_) (keepSign3_two k2 hx hy hz ?_ ?_)
      (no_cp (Or.inl rfl)) (no_cp (Or.inl rfl)) ?_
    · unfold minor0; ring
    · unfold minor0; simp only [hd']; ring
    · unfold minorSum minor0 minor1 minor2 minor3; ring
    · unfold minorSum minor0 minor1 minor2 minor3; simp only [hd']; ring
    · intro z0 z1 hm'
      rw [cp_iff0 hm (by linarith), cp_iff0 hm' (by linarith)]
  · refine cp_of_signs (m' := minor1 a b c d') (S' := minorSum a b c d' - minor1 a b c d') hm hS
      (keepSign3_pos k1 hx hy hz hm ?_ ?_) (keepSign3_two k2 hx hy hz ?_ ?_)
      (no_cp (Or.inr (Or.inl rfl))) (no_cp (Or.inr (Or.inl rfl))) ?_
    · unfold minor1; ring
    · unfold minor1; simp only [hd']; ring
    · unfold minorSum minor0 minor1 minor2 minor3; ring
    · unfold minorSum minor0 minor1 minor2 minor3; simp only [hd']; ring
    · intro z0 z1 hm'
      rw [cp_iff1 hm (by linarith), cp_iff1 hm' (by linarith)]
  · refine cp_of_signs (m' := minor2 a b c d') (S' := minorSum a b c d' - minor2 a b c d') hm hS
      (keepSign3_pos k1 hx hy hz hm ?_ ?_) (keepSign3_two k2 hx hy hz ?_ ?_)
      (no_cp (Or.inr (Or.inr (Or.inl rfl)))) (no_cp (Or.inr (Or.inr (Or.inl rfl)))) ?_
    · unfold minor2; ring
    · unfold minor2; simp only [hd']; ring
    · unfold minorSum minor0 minor1 minor2 minor3; ring
    · unfold minorSum minor0 minor1 minor2 minor3; simp only [hd']; ring
    · intro z0 z1 hm'
      rw [cp_iff2 hm (by linarith), cp_iff2 hm' (by linarith)]
  · have he1 : e ≤ 1 := k1.trans keepSign3_le_one
    have hm' : minor3 a b c d' = minor3 a b c d := rfl
    refine cp_of_signs (m' := minor3 a b c d') (S' := minorSum a b c d' - minor3 a b c d') hm hS
      (by rw [hm']; exact mul_self_pos.2 hm) (keepSign3_two k1 hx hy hz ?_ ?_)
      (no_cp (Or.inr (Or.inr (Or.inr rfl)))) (no_cp (Or.inr (Or.inr (Or.inr rfl)))) ?_
    · unfold minorSum minor0 minor1 minor2 minor3; ring
    · unfold minorSum minor0 minor1 minor2 minor3; simp only [hd']; ring
    · intro z0 z1 hm'
      rw [cp_iff3 hm (by linarith), cp_iff3 hm' (by linarith)]
      rw [abs_lt] at hx hy hz
      have e1 : 1 + x ≠ 0 := by linarith
      have e2 : 1 + y ≠ 0 := by linarith
      have e3 : 1 + z ≠ 0 := by linarith
      simp only [V3.isZero, hd', mul_eq_zero, e1, e2, e3, or_false]

/-- A tetrahedron which contains a critical point and has no zero vector at a corner gets the
bound zero: its corners are stored exactly. -/
theorem derive3_cp {a b c d : V3} (h : HasCP [a, b, c, d]) (ha : ¬ a.isZero) (hb : ¬ b.isZero)
    (hc : ¬ c.isZero) (hd : ¬ d.isZero) : derive3 a b c d ≤ 0 := by
  by_contra hp
  push Not at hp
  have key : ∀ m, Opp a b c d m → (m = minor0 a b c d ∨ m = minor1 a b c d ∨
      m = minor2 a b c d ∨ m = minor3 a b c d) → minorSum a b c d = m := by
    intro m ⟨_, hS⟩ hmm
    by_contra hne
    refine no_cp hmm (lt_of_le_of_ne hS (mul_ne_zero (sub_ne_zero.2 hne) ?_)) h
    assumption
  rcases derive3_cases hp le_rfl with ⟨h1, hs⟩ | ⟨ho, k1, k2⟩ | ⟨ho, k1, k2⟩ | ⟨ho, k1, k2⟩ |
    ⟨ho, k1⟩
  · exact no_cp_same hs h
  · exact ha ((cp_iff0 ho.1 (key _ ho (Or.inl rfl))).1 h)
  · exact hb ((cp_iff1 ho.1 (key _ ho (Or.inr (Or.inl rfl)))).1 h)
  · exact hc ((cp_iff2 ho.1 (key _ ho (Or.inr (Or.inr (Or.inl rfl))))).1 h)
  · exact hd ((cp_iff3 ho.1 (key _ ho (Or.inr (Or.inr (Or.inr rfl))))).1 h)

/-! ### Absolute bounds -/

open Classical in
/-- `max_eb_to_keep_sign_3d_online_abs` (src/sz_compress_cp_preserve_3d.cpp L1157-1163). -/
noncomputable def keepAbs3 (A B C D : ℝ) : ℝ :=
  if |A| + |B| + |C| = 0 then (if D = 0 then 0 else 1e9) else |D| / (|A| + |B| + |C|)

open Classical in
/-- `max_eb_to_keep_position_and_type_3d_online_abs`
(src/sz_compress_cp_preserve_3d.cpp L1167-1239). -/
noncomputable def deriveAbs3 (a b c d : V3) : ℝ :=
  let u3_0 := -b.v * c.w + c.v * b.w
  let u3_1 := -c.v * a.w + a.v * c.w
  let u3_2 := -a.v * b.w + b.v * a.w
  let v3_0 := b.u * c.w - c.u * b.w
  let v3_1 := c.u * a.w - a.u * c.w
  let v3_2 := a.u * b.w - b.u * a.w
  let w3_0 := -b.u * c.v + c.u * b.v
  let w3_1 := a.u * c.v - c.u * a.v
  let w3_2 := -a.u * b.v + b.u * a.v
  let c_4 := a.u * b.v * c.w - a.u * c.v * b.w + b.u * c.v * a.w - b.u * a.v * c.w +
    c.u * a.v * b.w - c.u * b.v * a.w
  let M0 := u3_0 * d.u + v3_0 * d.v + w3_0 * d.w
  let M1 := u3_1 * d.u + v3_1 * d.v + w3_1 * d.w
  let M2 := u3_2 * d.u + v3_2 * d.v + w3_2 * d.w
  let M3 := c_4
  let M := M0 + M1 + M2 + M3
  if M = 0 then 0
  else
    let f0 := M0 = 0 ∨ 1 < M / M0
    let f1 := M1 = 0 ∨ 1 < M / M1
    let f2 := M2 = 0 ∨ 1 < M / M2
    let f3 := M3 = 0 ∨ 1 < M / M3
    if f0 ∧ f1 ∧ f2 ∧ f3 then 0
    else
      let eb := 0
      let eb := if ¬ f0 then maxf eb (minf (keepAbs3 u3_0 v3_0 w3_0 M0)
        (keepAbs3 (u3_1 + u3_2) (v3_1 + v3_2) (w3_1 + w3_2) (M1 + M2 + M3))) else eb
      let eb := if ¬ f1 then maxf eb (minf (keepAbs3 u3_1 v3_1 w3_1 M1)
        (keepAbs3 (u3_0 + u3_2) (v3_0 + v3_2) (w3_0 + w3_2) (M0 + M2 + M3))) else eb
      let eb := if ¬ f2 then maxf eb (minf (keepAbs3 u3_2 v3_2 w3_2 M2)
        (keepAbs3 (u3_0 + u3_1) (v3_0 + v3_1) (w3_0 + w3_1) (M0 + M1 + M3))) else eb
      let eb := if ¬ f3 then maxf eb
        (keepAbs3 (u3_0 + u3_1 + u3_2) (v3_0 + v3_1 + v3_2) (w3_0 + w3_1 + w3_2) (M0 + M1 + M2))
        else eb
      eb

theorem keepAbs3_spec {A B C D e x y z : ℝ} (he : 0 < e) (hle : e ≤ keepAbs3 A B C D)
    (hx : |x| < e) (hy : |y| < e) (hz : |z| < e) {D' : ℝ} (hD' : D' = D + (A * x + B * y + C * z)) :
    0 < D * D' := by
  unfold keepAbs3 at hle
  subst hD'
  by_cases h0 : A = 0 ∧ B = 0 ∧ C = 0
  · obtain ⟨rfl, rfl, rfl⟩ := h0
    by_cases hD : D = 0
    · simp [hD] at hle; linarith
    · have := mul_self_pos.2 hD
      linarith
  · have hp := denom_pos h0
    rw [if_neg hp.ne', le_div_iff₀ hp] at hle
    apply sign_of_close
    have h1 := lin3_lt h0 hx hy hz
    rw [add_sub_cancel_left]
    linarith [mul_comm e (|A| + |B| + |C|)]

theorem deriveAbs3_cases {a b c d : V3} {e : ℝ} (he : 0 < e) (hle : e ≤ deriveAbs3 a b c d) :
    (Opp a b c d (minor0 a b c d) ∧
      e ≤ keepAbs3 (-b.v * c.w + c.v * b.w) (b.u * c.w - c.u * b.w) (-b.u * c.v + c.u * b.v)
        (minor0 a b c d) ∧
      e ≤ keepAbs3 ((-c.v * a.w + a.v * c.w) + (-a.v * b.w + b.v * a.w)) ((c.u * a.w - a.u * c.w) + (a.u * b.w - b.u * a.w))
        ((a.u * c.v - c.u * a.v) + (-a.u * b.v + b.u * a.v))
        (minorSum a b c d - minor0 a b c d)) ∨
    (Opp a b c d (minor1 a b c d) ∧
      e ≤ keepAbs3 (-c.v * a.w + a.v * c.w) (c.u * a.w - a.u * c.w) (a.u * c.v - c.u * a.v)
        (minor1 a b c d) ∧
      e ≤ keepAbs3 ((-b.v * c.w + c.v * b.w) + (-a.v * b.w + b.v * a.w)) ((b.u * c.w - c.u * b.w) + (a.u * b.w - b.u * a.w))
        ((-b.u * c.v + c.u * b.v) + (-a.u * b.v + b.u * a.v))
        (minorSum a b c d - minor1 a b c d)) ∨
    (Opp a b c d (minor2 a b c d) ∧
      e ≤ keepAbs3 (-a.v * b.w + b.v * a.w) (a.u * b.w - b.u * a.w) (-a.u * b.v + b.u * a.v)
        (minor2 a b c d) ∧
      e ≤ keepAbs3 ((-b.v * c.w + c.v * b.w) + (-c.v * a.w + a.v * c.w)) ((b.u * c.w - c.u * b.w) + (c.u * a.w - a.u * c.w))
        ((-b.u * c.v + c.u * b.v) + (a.u * c.v - c.u * a.v))
        (minorSum a b c d - minor2 a b c d)) ∨
    (Opp a b c d (minor3 a b c d) ∧
      e ≤ keepAbs3 ((-b.v * c.w + c.v * b.w) + (-c.v * a.w + a.v * c.w) + (-a.v * b.w + b.v * a.w))
        ((b.u * c.w - c.u * b.w) + (c.u * a.w - a.u * c.w) + (a.u * b.w - b.u * a.w))
        ((-b.u * c.v + c.u * b.v) + (a.u * c.v - c.u * a.v) + (-a.u * b.v + b.u * a.v))
        (minorSum a b c d - minor3 a b c d)) := by
  have m0 : (-b.v * c.w + c.v * b.w) * d.u + (b.u * c.w - c.u * b.w) * d.v +
      (-b.u * c.v + c.u * b.v) * d.w = minor0 a b c d := by unfold minor0; ring
  have m1 : (-c.v * a.w + a.v * c.w) * d.u + (c.u * a.w - a.u * c.w) * d.v +
      (a.u * c.v - c.u * a.v) * d.w = minor1 a b c d := by unfold minor1; ring
  have m2 : (-a.v * b.w + b.v * a.w) * d.u + (a.u * b.w - b.u * a.w) * d.v +
      (-a.u * b.v + b.u * a.v) * d.w = minor2 a b c d := by unfold minor2; ring
  have m3 : a.u * b.v * c.w - a.u * c.v * b.w + b.u * c.v * a.w - b.u * a.v * c.w +
    c.u * a.v * b.w - c.u * b.v * a.w = minor3 a b c d := rfl
  have s0 : minor1 a b c d + minor2 a b c d + minor3 a b c d =
      minorSum a b c d - minor0 a b c d := by unfold minorSum; ring
  have s1 : minor0 a b c d + minor2 a b c d + minor3 a b c d =
      minorSum a b c d - minor1 a b c d := by unfold minorSum; ring
  have s2 : minor0 a b c d + minor1 a b c d + minor3 a b c d =
      minorSum a b c d - minor2 a b c d := by unfold minorSum; ring
  have s3 : minor0 a b c d + minor1 a b c d + minor2 a b c d =
      minorSum a b c d - minor3 a b c d := by unfold minorSum; ring
  unfold deriveAbs3 at hle
  simp only [m0, m1, m2, m3, s0, s1, s2, s3] at hle
  split at hle
  · linarith
  · split at hle
    · linarith
    · have ss : minorSum a b c d - minor3 a b c d + minor3 a b c d = minorSum a b c d := by ring
      rw [ss] at hle
      have conv : ∀ m, ¬ (m = 0 ∨ 1 < minorSum a b c d / m) → Opp a b c d m := fun m h => not_flag h
      have step : ∀ {p : Prop} [Decidable p] {eb x : ℝ}, e ≤ (if ¬ p then maxf eb x else eb) →
          e ≤ eb ∨ (¬ p ∧ e ≤ x) := by
        intro p _ eb x h
        split at h
        · rename_i hp
          rcases le_maxf_iff _ _ _ h with h | h
          · exact Or.inl h
          · exact Or.inr ⟨hp, h⟩
        · exact Or.inl h
      rcases step hle with hle | ⟨hf, hle⟩
      · rcases step hle with hle | ⟨hf, hle⟩
        · rcases step hle with hle | ⟨hf, hle⟩
          · rcases step hle with hle | ⟨hf, hle⟩
            · linarith
            · exact Or.inl ⟨conv _ hf, hle.trans (minf_le_left _ _), hle.trans (minf_le_right _ _)⟩
          · exact Or.inr (Or.inl
              ⟨conv _ hf, hle.trans (minf_le_left _ _), hle.trans (minf_le_right _ _)⟩)
        · exact Or.inr (Or.inr (Or.inl
            ⟨conv _ hf, hle.trans (minf_le_left _ _), hle.trans (minf_le_right _ _)⟩))
      · exact Or.inr (Or.inr (Or.inr ⟨conv _ hf, hle⟩))

theorem prod_neg {m m' S S' : ℝ} (h : S * m ≤ 0) (hm : m ≠ 0) (h1 : 0 < m * m') (h2 : 0 < S * S') :
    S * m < 0 ∧ S' * m' < 0 := by
  have hS0 : S ≠ 0 := by rintro rfl; simp at h2
  have hlt : S * m < 0 := lt_of_le_of_ne h (mul_ne_zero hS0 hm)
  refine ⟨hlt, ?_⟩
  rcases pos_cases h1 with ⟨p1, p2⟩ | ⟨p1, p2⟩ <;> rcases pos_cases h2 with ⟨q1, q2⟩ | ⟨q1, q2⟩
  · exact absurd hlt (not_lt.2 (mul_pos q1 p1).le)
  · exact mul_neg_of_neg_of_pos q2 p2
  · exact mul_neg_of_pos_of_neg q2 p2
  · exact absurd hlt (not_lt.2 (mul_pos_of_neg_of_neg q1 p1).le)

/-- C27, one tetrahedron: when the absolute bound is positive the tetrahedron has no critical
point, and changes of the last corner below the bound do not create one. -/
theorem deriveAbs3_step {a b c d : V3} {e x y z : ℝ} (he : 0 < e) (hle : e ≤ deriveAbs3 a b c d)
    (hx : |x| < e) (hy : |y| < e) (hz : |z| < e) :
    ¬ HasCP [a, b, c, d] ∧ ¬ HasCP [a, b, c, ⟨d.u + x, d.v + y, d.w + z⟩] := by
  set d' : V3 := ⟨d.u + x, d.v + y, d.w + z⟩ with hd'
  rcases deriveAbs3_cases he hle with ⟨⟨hm, hS⟩, k1, k2⟩ | ⟨⟨hm, hS⟩, k1, k2⟩ |
    ⟨⟨hm, hS⟩, k1, k2⟩ | ⟨⟨hm, hS⟩, k1⟩
  · obtain ⟨p1, p2⟩ := prod_neg (m' := minor0 a b c d')
      (S' := minorSum a b c d' - minor0 a b c d') hS hm (keepAbs3_spec he k1 hx hy hz (by
        unfold minor0; simp only [hd']; ring)) (keepAbs3_spec he k2 hx hy hz (by
        unfold minorSum minor0 minor1 minor2 minor3; simp only [hd']; ring))
    exact ⟨no_cp (Or.inl rfl) p1, no_cp (Or.inl rfl) p2⟩
  · obtain ⟨p1, p2⟩ := prod_neg (m' := minor1 a b c d')
      (S' := minorSum a b c d' - minor1 a b c d') hS hm (keepAbs3_spec he k1 hx hy hz (by
        unfold minor1; simp only [hd']; ring)) (keepAbs3_spec he k2 hx hy hz (by
        unfold minorSum minor0 minor1 minor2 minor3; simp only [hd']; ring))
    exact ⟨no_cp (Or.inr (Or.inl rfl)) p1, no_cp (Or.inr (Or.inl rfl)) p2⟩
  · obtain ⟨p1, p2⟩ := prod_neg (m' := minor2 a b c d')
      (S' := minorSum a b c d' - minor2 a b c d') hS hm (keepAbs3_spec he k1 hx hy hz (by
        unfold minor2; simp only [hd']; ring)) (keepAbs3_spec he k2 hx hy hz (by
        unfold minorSum minor0 minor1 minor2 minor3; simp only [hd']; ring))
    exact ⟨no_cp (Or.inr (Or.inr (Or.inl rfl))) p1, no_cp (Or.inr (Or.inr (Or.inl rfl))) p2⟩
  · obtain ⟨p1, p2⟩ := prod_neg (m' := minor3 a b c d')
      (S' := minorSum a b c d' - minor3 a b c d') hS hm (mul_self_pos.2 hm)
      (keepAbs3_spec he k1 hx hy hz (by
        unfold minorSum minor0 minor1 minor2 minor3; simp only [hd']; ring))
    exact ⟨no_cp (Or.inr (Or.inr (Or.inr rfl))) p1, no_cp (Or.inr (Or.inr (Or.inr rfl))) p2⟩

end CpSZ.ThreeD
