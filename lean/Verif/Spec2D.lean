import Verif.Mesh2D
import Mathlib.Analysis.Real.Sqrt
/-
Specification vocabulary for 2D critical points, independent of the compressor.
-/

namespace CpSZ

/-- The linear interpolant of three vectors has a zero in the (closed) triangle. -/
def HasCP (p0 p1 p2 : ℝ × ℝ) : Prop :=
  ∃ a b c : ℝ, 0 ≤ a ∧ 0 ≤ b ∧ 0 ≤ c ∧ a + b + c = 1 ∧
    a * p0.1 + b * p1.1 + c * p2.1 = 0 ∧ a * p0.2 + b * p1.2 + c * p2.2 = 0

/-- Jacobian of a 2D vector field (`ux` is the derivative of the first component along a
row, i.e. in column direction). -/
structure Jac where
  ux : ℝ
  uy : ℝ
  vx : ℝ
  vy : ℝ

namespace Jac
def det (J : Jac) : ℝ := J.ux * J.vy - J.uy * J.vx
def tr (J : Jac) : ℝ := J.ux + J.vy
/-- Discriminant of the characteristic polynomial. -/
def disc (J : Jac) : ℝ := J.tr ^ 2 - 4 * J.det
end Jac

/-- Types of critical points (test/cp_extraction_2d.cpp L33-39). -/
inductive CPType where
  | singular | attracting | repelling | saddle | attractingFocus | repellingFocus | center
  deriving DecidableEq

open Classical in
/-- Classification by the eigenvalues of the Jacobian (test/cp_extraction_2d.cpp L82-100). -/
noncomputable def cpType (J : Jac) : CPType :=
  if 0 ≤ J.disc then
    let l1 := (J.tr + √J.disc) / 2
    let l2 := (J.tr - √J.disc) / 2
    if l1 * l2 < 0 then .saddle
    else if l1 < 0 then .attracting
    else if 0 < l1 then .repelling
    else .singular
  else if J.tr < 0 then .attractingFocus
  else if 0 < J.tr then .repellingFocus
  else .center

/-- `J` is the Jacobian of the interpolant of values `u`, `v` given at the grid points
`P = (row, column)` of a triangle. -/
def IsJac (verts : List (Nat × Nat)) (u v : Nat × Nat → ℝ) (J : Jac) : Prop :=
  ∀ P ∈ verts, ∀ Q ∈ verts,
    u P - u Q = J.ux * ((P.2 : ℝ) - Q.2) + J.uy * ((P.1 : ℝ) - Q.1) ∧
    v P - v Q = J.vx * ((P.2 : ℝ) - Q.2) + J.vy * ((P.1 : ℝ) - Q.1)

/-- Value of a row-major array at a grid point. -/
def gridVal (r2 : Nat) (f : Nat → ℝ) (P : Nat × Nat) : ℝ := f (P.1 * r2 + P.2)

/-- Vector of a field at the `q`-th vertex of a triangle. -/
def Tri.vec (r2 : Nat) (f : Online2D.Field ℝ) (t : Tri) (q : Nat) : ℝ × ℝ :=
  let P := t.verts.getD q (0, 0)
  (gridVal r2 f.u P, gridVal r2 f.v P)

/-- The interpolant of the field has a zero in the triangle. -/
def Tri.hasCP (r2 : Nat) (f : Online2D.Field ℝ) (t : Tri) : Prop :=
  HasCP (t.vec r2 f 0) (t.vec r2 f 1) (t.vec r2 f 2)

/-- `J` is the Jacobian of the field in the triangle. -/
def Tri.isJac (r2 : Nat) (f : Online2D.Field ℝ) (t : Tri) (J : Jac) : Prop :=
  IsJac t.verts (gridVal r2 f.u) (gridVal r2 f.v) J

/-! ### Basic facts -/

theorem HasCP.perm {p0 p1 p2 q0 q1 q2 : ℝ × ℝ} (h : [p0, p1, p2].Perm [q0, q1, q2])
    (hc : HasCP p0 p1 p2) : HasCP q0 q1 q2 := by
  obtain ⟨a, b, c, ha, hb, hc, hs, h1, h2⟩ := hc
  have h3 := h.mem_iff (a := p0)
  have key : (q0 = p0 ∧ ((q1 = p1 ∧ q2 = p2) ∨ (q1 = p2 ∧ q2 = p1))) ∨
      (q0 = p1 ∧ ((q1 = p0 ∧ q2 = p2) ∨ (q1 = p2 ∧ q2 = p0))) ∨
      (q0 = p2 ∧ ((q1 = p0 ∧ q2 = p1) ∨ (q1 = p1 ∧ q2 = p0))) := by
    have two : ∀ {x y z w : ℝ × ℝ}, [x, y].Perm [z, w] → (z = x ∧ w = y) ∨ (z = y ∧ w = x) := by
      intro x y z w hp
      rcases List.mem_cons.1 (hp.mem_iff.2 (List.mem_cons_self (a := z) (l := [w]))) with e | e
      · subst e
        have := (List.perm_cons z).1 hp
        have := List.perm_singleton.1 this.symm
        simp at this
        exact Or.inl ⟨rfl, this⟩
      · have e : z = y := by simpa using e
        subst e
        have := (List.perm_cons z).1 ((List.Perm.swap x z []).trans hp)
        have := List.perm_singleton.1 this.symm
        simp at this
        exact Or.inr ⟨rfl, this⟩
    have hm := h.mem_iff.2 (List.mem_cons_self (a := q0) (l := [q1, q2]))
    simp only [List.mem_cons, List.not_mem_nil, or_false] at hm
    rcases hm with e | e | e
    · subst e
      exact Or.inl ⟨rfl, two ((List.perm_cons q0).1 h)⟩
    · subst e
      have : [q0, p0, p2].Perm [q0, q1, q2] := (List.Perm.swap p0 q0 [p2]).trans h
      exact Or.inr (Or.inl ⟨rfl, two ((List.perm_cons q0).1 this)⟩)
    · subst e
      have : [q0, p0, p1].Perm [q0, q1, q2] :=
        ((List.Perm.swap p0 q0 [p1]).trans (List.Perm.cons p0 (List.Perm.swap p1 q0 []))).trans h
      exact Or.inr (Or.inr ⟨rfl, two ((List.perm_cons q0).1 this)⟩)
  rcases key with ⟨rfl, ⟨rfl, rfl⟩ | ⟨rfl, rfl⟩⟩ | ⟨rfl, ⟨rfl, rfl⟩ | ⟨rfl, rfl⟩⟩ |
    ⟨rfl, ⟨rfl, rfl⟩ | ⟨rfl, rfl⟩⟩
  · exact ⟨a, b, c, ha, hb, hc, hs, h1, h2⟩
  · exact ⟨a, c, b, ha, hc, hb, by linarith, by linarith, by linarith⟩
  · exact ⟨b, a, c, hb, ha, hc, by linarith, by linarith, by linarith⟩
  · exact ⟨b, c, a, hb, hc, ha, by linarith, by linarith, by linarith⟩
  · exact ⟨c, a, b, hc, ha, hb, by linarith, by linarith, by linarith⟩
  · exact ⟨c, b, a, hc, hb, ha, by linarith, by linarith, by linarith⟩

/-- Criterion for a zero in terms of the three 2×2 minors, for a nondegenerate triangle. -/
theorem hasCP_iff {u0 v0 u1 v1 u2 v2 M0 M1 M2 M : ℝ} (h0 : M0 = u2 * v0 - u0 * v2)
    (h1 : M1 = u1 * v2 - u2 * v1) (h2 : M2 = u0 * v1 - u1 * v0) (hM : M = M0 + M1 + M2)
    (hne : M ≠ 0) :
    HasCP (u0, v0) (u1, v1) (u2, v2) ↔ 0 ≤ M0 * M ∧ 0 ≤ M1 * M ∧ 0 ≤ M2 * M := by
  constructor
  · rintro ⟨a, b, c, ha, hb, hc, hs, e1, e2⟩
    simp only at e1 e2
    have hc' : c = 1 - a - b := by linarith
    have k0 : b * M = M0 := by
      subst hM h0 h1 h2 hc'
      linear_combination (v2 - v0) * e1 - (u2 - u0) * e2
    have k1 : a * M = M1 := by
      subst hM h0 h1 h2 hc'
      linear_combination (-(v2 - v1)) * e1 + (u2 - u1) * e2
    have k2 : c * M = M2 := by
      have : (a + b + c) * M = M := by rw [hs, one_mul]
      linarith
    have := mul_self_nonneg M
    refine ⟨?_, ?_, ?_⟩
    · rw [← k0]; nlinarith
    · rw [← k1]; nlinarith
    · rw [← k2]; nlinarith
  · rintro ⟨g0, g1, g2⟩
    have hpos : 0 < M * M := mul_self_pos.2 hne
    refine ⟨M1 / M, M0 / M, M2 / M, ?_, ?_, ?_, ?_, ?_, ?_⟩
    · rw [← mul_div_mul_right _ _ hne]; exact div_nonneg g1 hpos.le
    · rw [← mul_div_mul_right _ _ hne]; exact div_nonneg g0 hpos.le
    · rw [← mul_div_mul_right _ _ hne]; exact div_nonneg g2 hpos.le
    · field_simp; linarith
    · simp only; field_simp; subst h0 h1 h2; ring
    · simp only; field_simp; subst h0 h1 h2; ring

/-- A minor and the rest of the determinant with opposite signs exclude a zero, degenerate
triangles included. -/
theorem not_hasCP_of_opp {u0 v0 u1 v1 u2 v2 M0 M1 M2 M : ℝ} (h0 : M0 = u2 * v0 - u0 * v2)
    (h1 : M1 = u1 * v2 - u2 * v1) (h2 : M2 = u0 * v1 - u1 * v0) (hM : M = M0 + M1 + M2)
    (h : M0 * (M - M0) < 0 ∨ M1 * (M - M1) < 0 ∨ M2 * (M - M2) < 0) :
    ¬ HasCP (u0, v0) (u1, v1) (u2, v2) := by
  rintro ⟨a, b, c, ha, hb, hc, hs, e1, e2⟩
  simp only at e1 e2
  have hc' : c = 1 - a - b := by linarith
  have k0 : b * M = M0 := by
    subst hM h0 h1 h2 hc'
    linear_combination (v2 - v0) * e1 - (u2 - u0) * e2
  have k1 : a * M = M1 := by
    subst hM h0 h1 h2 hc'
    linear_combination (-(v2 - v1)) * e1 + (u2 - u1) * e2
  have k2 : c * M = M2 := by
    have : (a + b + c) * M = M := by rw [hs, one_mul]
    linarith
  have hMM := mul_self_nonneg M
  have pr : ∀ l : ℝ, 0 ≤ l → l ≤ 1 → 0 ≤ l * M * (M - l * M) := by
    intro l hl0 hl1
    have : l * M * (M - l * M) = (l * (1 - l)) * (M * M) := by ring
    rw [this]
    exact mul_nonneg (mul_nonneg hl0 (by linarith)) hMM
  rcases h with h | h | h
  · have := pr b hb (by linarith); rw [k0] at this; linarith
  · have := pr a ha (by linarith); rw [k1] at this; linarith
  · have := pr c hc (by linarith); rw [k2] at this; linarith

/-- Sign agreement of the invariants implies equal types. -/
theorem cpType_eq {J J' : Jac} (hdet : 0 < J.det * J'.det) (hdisc : 0 < J.disc * J'.disc)
    (htr : 0 < J.det → SignType.sign J.tr = SignType.sign J'.tr) : cpType J = cpType J' := by
  have hprod : ∀ K : Jac, 0 ≤ K.disc →
      (K.tr + √K.disc) / 2 * ((K.tr - √K.disc) / 2) = K.det := by
    intro K hK
    have := Real.sq_sqrt hK
    unfold Jac.disc at this ⊢
    nlinarith
  rcases lt_or_ge J.disc 0 with hd | hd
  · have hd' : J'.disc < 0 := by
      by_contra hc
      push Not at hc
      nlinarith
    have hdp : 0 < J.det := by
      have : J.disc = J.tr ^ 2 - 4 * J.det := rfl
      nlinarith [sq_nonneg J.tr]
    have hs := htr hdp
    unfold cpType
    rw [if_neg (not_le.2 hd), if_neg (not_le.2 hd')]
    rcases lt_trichotomy J.tr 0 with h | h | h
    · rw [sign_neg h] at hs
      have h' : J'.tr < 0 := by rw [← sign_eq_neg_one_iff]; exact hs.symm
      rw [if_pos h, if_pos h']
    · rw [h, sign_zero] at hs
      have h' : J'.tr = 0 := by rw [← sign_eq_zero_iff]; exact hs.symm
      rw [h, h']
    · rw [sign_pos h] at hs
      have h' : 0 < J'.tr := by rw [← sign_eq_one_iff]; exact hs.symm
      rw [if_neg (by linarith), if_pos h, if_neg (by linarith), if_pos h']
  · have hdpos : 0 < J.disc := by
      rcases hd.lt_or_eq with h | h
      · exact h
      · rw [← h] at hdisc; simp at hdisc
    have hd' : 0 < J'.disc := by
      by_contra hc
      push Not at hc
      nlinarith
    unfold cpType
    rw [if_pos hd, if_pos hd'.le]
    simp only [hprod J hd, hprod J' hd'.le]
    rcases lt_or_ge J.det 0 with h | h
    · have h' : J'.det < 0 := by
        by_contra hc
        push Not at hc
        nlinarith
      rw [if_pos h, if_pos h']
    · have h0 : 0 < J.det := by
        rcases h.lt_or_eq with h | h
        · exact h
        · rw [← h] at hdet; simp at hdet
      have h0' : 0 < J'.det := by
        by_contra hc
        push Not at hc
        nlinarith
      rw [if_neg (not_lt.2 h0.le), if_neg (not_lt.2 h0'.le)]
      have aux : ∀ K : Jac, 0 < K.disc → 0 < K.det →
          ((K.tr + √K.disc) / 2 < 0 ↔ K.tr < 0) ∧ (0 < (K.tr + √K.disc) / 2 ↔ 0 < K.tr) := by
        intro K hK1 hK2
        have hlt : √K.disc < |K.tr| := by
          rw [← Real.sqrt_sq_eq_abs]
          apply Real.sqrt_lt_sqrt hK1.le
          have : K.disc = K.tr ^ 2 - 4 * K.det := rfl
          linarith
        have hsn := Real.sqrt_nonneg K.disc
        constructor
        · constructor
          · intro h; linarith
          · intro h; rw [abs_of_neg h] at hlt; linarith
        · constructor
          · intro h
            by_contra hc
            push Not at hc
            rw [abs_of_nonpos hc] at hlt
            linarith
          · intro h; linarith
      obtain ⟨a1, a2⟩ := aux J hdpos h0
      obtain ⟨b1, b2⟩ := aux J' hd' h0'
      have hs := htr h0
      simp only [a1, a2, b1, b2]
      rcases lt_trichotomy J.tr 0 with h | h | h
      · rw [sign_neg h] at hs
        have h' : J'.tr < 0 := by rw [← sign_eq_neg_one_iff]; exact hs.symm
        rw [if_pos h, if_pos h']
      · rw [h, sign_zero] at hs
        have h' : J'.tr = 0 := by rw [← sign_eq_zero_iff]; exact hs.symm
        rw [h, h']
      · rw [sign_pos h] at hs
        have h' : 0 < J'.tr := by rw [← sign_eq_one_iff]; exact hs.symm
        rw [if_neg (by linarith), if_pos h, if_neg (by linarith), if_pos h']

end CpSZ
