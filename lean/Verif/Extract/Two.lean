import Verif.Extract.Report
import Verif.Relax.Real
import Verif.Online2D.Real
/-
The 2D extraction tool (test/cp_extraction_2d.cpp) in exact arithmetic.  The functions of FTK it
calls are not part of the repository: `inverse_lerp_s2v2` is taken to be the copy in
src/sz_compress_cp_preserve_2d.cpp L1272-1289, `lerp_s2v2`, `jacobian_2dsimplex2` and
`solve_eigenvalues2x2` are given by the formulas for linear interpolation and for 2x2 matrices.
The tool computes in `double`; rounding is not modelled.
-/

namespace CpSZ.Extract
open Online2D.Relax

/-- `critical_point_t`, the fields which the tool sets (test/cp_extraction_2d.cpp L16-29,
L101-104); `x` is the position (column, row). -/
structure CP2 where
  x : ℝ × ℝ
  type : CPType

/-- The weights computed by `inverse_lerp_s2v2`.  (src/sz_compress_cp_preserve_2d.cpp L1272-1289.)
-/
noncomputable def mu (p0 p1 p2 : ℝ × ℝ) : ℝ × ℝ × ℝ :=
  let a00 := p0.1 - p2.1
  let a01 := p1.1 - p2.1
  let a10 := p0.2 - p2.2
  let a11 := p1.2 - p2.2
  let b0 := -p2.1
  let b1 := -p2.2
  let D := a00 * a11 - a10 * a01
  let mu0 := (b0 * a11 - a01 * b1) / D
  let mu1 := (a00 * b1 - b0 * a10) / D
  (mu0, mu1, 1 - mu0 - mu1)

/-- `jacobian_2dsimplex2`: derivatives of the linear interpolant of the vectors `p` at the
points `X`. -/
noncomputable def jacobian (X0 X1 X2 p0 p1 p2 : ℝ × ℝ) : Jac :=
  let D := (X1.1 - X0.1) * (X2.2 - X0.2) - (X2.1 - X0.1) * (X1.2 - X0.2)
  ⟨((p1.1 - p0.1) * (X2.2 - X0.2) - (p2.1 - p0.1) * (X1.2 - X0.2)) / D,
   ((X1.1 - X0.1) * (p2.1 - p0.1) - (X2.1 - X0.1) * (p1.1 - p0.1)) / D,
   ((p1.2 - p0.2) * (X2.2 - X0.2) - (p2.2 - p0.2) * (X1.2 - X0.2)) / D,
   ((X1.1 - X0.1) * (p2.2 - p0.2) - (X2.1 - X0.1) * (p1.2 - p0.2)) / D⟩

open Classical in
/-- `check_simplex_seq` (test/cp_extraction_2d.cpp L62-106). -/
noncomputable def checkSimplex (X0 X1 X2 p0 p1 p2 : ℝ × ℝ) (i j : Nat) : Option CP2 :=
  if p0 = (0, 0) ∨ p1 = (0, 0) ∨ p2 = (0, 0) then none
  else if checkCP p0 p1 p2 then
    let w := mu p0 p1 p2
    some ⟨(j + (w.1 * X0.1 + w.2.1 * X1.1 + w.2.2 * X2.1),
           i + (w.1 * X0.2 + w.2.1 * X1.2 + w.2.2 * X2.2)),
      cpType (jacobian X0 X1 X2 p0 p1 p2)⟩
  else none

/-- The calls of `check_simplex_seq` in order (test/cp_extraction_2d.cpp L125-145): simplex number
and result.  Both loops run from 1 to two below the last index. -/
noncomputable def calls (r1 r2 : Nat) (f : Online2D.Field ℝ) : List (Nat × Option CP2) :=
  (List.range' 1 (r1 - 3)).flatMap fun i => (List.range' 1 (r2 - 3)).flatMap fun j =>
    let v := fun q => (f.u q, f.v q)
    let v0 := v (i * r2 + j)
    let v2 := v ((i + 1) * r2 + (j + 1))
    [(2 * (i * (r2 - 1) + j), checkSimplex (0, 0) (0, 1) (1, 1) v0 (v ((i + 1) * r2 + j)) v2 i j),
     (2 * (i * (r2 - 1) + j) + 1,
      checkSimplex (0, 0) (1, 0) (1, 1) v0 (v (i * r2 + (j + 1))) v2 i j)]

/-- `compute_critical_points` (test/cp_extraction_2d.cpp L108-147). -/
noncomputable def extract (r1 r2 : Nat) (f : Online2D.Field ℝ) : List (Nat × CP2) :=
  ((calls r1 r2 f).filterMap fun e => e.2.map (Prod.mk e.1)).foldl insertMap []

/-! ### Specification -/

/-- The triangle belongs to a cell which the tool looks at: the first row and column of cells and
the last ones are left out.  (test/cp_extraction_2d.cpp L126, L128.) -/
def interior (r1 r2 : Nat) (t : Tri) : Prop := 1 ≤ t.a ∧ t.a + 3 ≤ r1 ∧ 1 ≤ t.b ∧ t.b + 3 ≤ r2

/-- The number of a triangle. -/
def triNo (r2 : Nat) (t : Tri) : Nat := 2 * (t.a * (r2 - 1) + t.b) + t.up.toNat

/-- `c` describes the zero of the interpolant of `f` in the triangle `t`: the Jacobian is
invertible and has the type `c.type`, the interpolant vanishes at the position `c.x` (column, row)
of the triangle, and no vertex of the triangle is a zero of the field. -/
structure IsPoint (r2 : Nat) (f : Online2D.Field ℝ) (t : Tri) (c : CP2) : Prop where
  jac : ∃ J, t.isJac r2 f J ∧ J.det ≠ 0 ∧ c.type = cpType J
  vert : ∀ P ∈ t.verts, ¬ (gridVal r2 f.u P = 0 ∧ gridVal r2 f.v P = 0)
  pos : ∃ w : Nat × Nat → ℝ, (∀ P ∈ t.verts, 0 ≤ w P) ∧ (t.verts.map w).sum = 1 ∧
    (t.verts.map fun P => w P * gridVal r2 f.u P).sum = 0 ∧
    (t.verts.map fun P => w P * gridVal r2 f.v P).sum = 0 ∧
    c.x = ((t.verts.map fun P => w P * (P.2 : ℝ)).sum, (t.verts.map fun P => w P * (P.1 : ℝ)).sum)

/-! ### Facts -/

theorem mu_unique {p0 p1 p2 : ℝ × ℝ} (hr : Regular p0 p1 p2) {a b c : ℝ} (hs : a + b + c = 1)
    (h1 : a * p0.1 + b * p1.1 + c * p2.1 = 0) (h2 : a * p0.2 + b * p1.2 + c * p2.2 = 0) :
    mu p0 p1 p2 = (a, b, c) := by
  obtain ⟨u0, v0⟩ := p0
  obtain ⟨u1, v1⟩ := p1
  obtain ⟨u2, v2⟩ := p2
  unfold Regular at hr
  simp only at hr h1 h2
  have hc : c = 1 - a - b := by linarith
  subst hc
  have e0 : (-u2 * (v1 - v2) - (u1 - u2) * -v2) /
      ((u0 - u2) * (v1 - v2) - (v0 - v2) * (u1 - u2)) = a := by
    rw [div_eq_iff hr]
    linear_combination (-(v1 - v2)) * h1 + (u1 - u2) * h2
  have e1 : ((u0 - u2) * -v2 - -u2 * (v0 - v2)) /
      ((u0 - u2) * (v1 - v2) - (v0 - v2) * (u1 - u2)) = b := by
    rw [div_eq_iff hr]
    linear_combination (v0 - v2) * h1 + (-(u0 - u2)) * h2
  simp only [mu, e0, e1]

theorem mu_zero {p0 p1 p2 : ℝ × ℝ} (h : checkCP p0 p1 p2 = true) :
    0 ≤ (mu p0 p1 p2).1 ∧ 0 ≤ (mu p0 p1 p2).2.1 ∧ 0 ≤ (mu p0 p1 p2).2.2 ∧
    (mu p0 p1 p2).1 + (mu p0 p1 p2).2.1 + (mu p0 p1 p2).2.2 = 1 ∧
    (mu p0 p1 p2).1 * p0.1 + (mu p0 p1 p2).2.1 * p1.1 + (mu p0 p1 p2).2.2 * p2.1 = 0 ∧
    (mu p0 p1 p2).1 * p0.2 + (mu p0 p1 p2).2.1 * p1.2 + (mu p0 p1 p2).2.2 * p2.2 = 0 := by
  obtain ⟨hr, a, b, c, h0, h1, h2, hs, e1, e2⟩ := (checkCP_iff p0 p1 p2).1 h
  rw [mu_unique hr hs e1 e2]
  exact ⟨h0, h1, h2, hs, e1, e2⟩

/-- The result of `check_simplex_seq` for a triangle of the mesh. 
(test/cp_extraction_2d.cpp L131-143.) -/
noncomputable def checkTri (r2 : Nat) (f : Online2D.Field ℝ) (t : Tri) : Option CP2 :=
  checkSimplex (0, 0) (if t.up then (1, 0) else (0, 1)) (1, 1) (t.vec r2 f 0) (t.vec r2 f 1)
    (t.vec r2 f 2) t.a t.b

theorem jacobian_isJac (r2 : Nat) (f : Online2D.Field ℝ) (t : Tri) :
    t.isJac r2 f (jacobian (0, 0) (if t.up then (1, 0) else (0, 1)) (1, 1) (t.vec r2 f 0)
      (t.vec r2 f 1) (t.vec r2 f 2)) := by
  obtain ⟨a, b, up⟩ := t
  unfold Tri.isJac IsJac
  cases up <;> intro P hP Q hQ <;>
    simp only [Tri.verts, Bool.false_eq_true, if_false, if_true, List.mem_cons, List.not_mem_nil,
      or_false] at hP hQ <;>
    rcases hP with rfl | rfl | rfl <;> rcases hQ with rfl | rfl | rfl <;>
    simp [jacobian, Tri.vec, Tri.verts] <;> constructor <;> ring

theorem jacobian_det (r2 : Nat) (f : Online2D.Field ℝ) (t : Tri) :
    (jacobian (0, 0) (if t.up then (1, 0) else (0, 1)) (1, 1) (t.vec r2 f 0)
      (t.vec r2 f 1) (t.vec r2 f 2)).det ≠ 0 ↔
    Regular (t.vec r2 f 0) (t.vec r2 f 1) (t.vec r2 f 2) := by
  obtain ⟨a, b, up⟩ := t
  generalize (⟨a, b, up⟩ : Tri).vec r2 f 0 = p0
  generalize (⟨a, b, up⟩ : Tri).vec r2 f 1 = p1
  generalize (⟨a, b, up⟩ : Tri).vec r2 f 2 = p2
  unfold Regular
  rw [not_iff_not]
  cases up <;> simp [jacobian, Jac.det] <;> constructor <;> intro h <;>
    first | linear_combination h | linear_combination -h

theorem verts_three (t : Tri) :
    t.verts = [t.verts.getD 0 (0, 0), t.verts.getD 1 (0, 0), t.verts.getD 2 (0, 0)] := by
  unfold Tri.verts
  split <;> rfl

theorem vec_ne {r2 : Nat} {f : Online2D.Field ℝ} {t : Tri} {q : Nat}
    (h : ¬ (gridVal r2 f.u (t.verts.getD q (0, 0)) = 0 ∧
      gridVal r2 f.v (t.verts.getD q (0, 0)) = 0)) : t.vec r2 f q ≠ (0, 0) := by
  intro he
  unfold Tri.vec at he
  simp only [Prod.mk.injEq] at he
  exact h he

theorem checkTri_some (r2 : Nat) (f : Online2D.Field ℝ) (t : Tri) (c : CP2) :
    checkTri r2 f t = some c ↔
      (t.vec r2 f 0 ≠ (0, 0) ∧ t.vec r2 f 1 ≠ (0, 0) ∧ t.vec r2 f 2 ≠ (0, 0)) ∧
      checkCP (t.vec r2 f 0) (t.vec r2 f 1) (t.vec r2 f 2) = true ∧
      c.type = cpType (jacobian (0, 0) (if t.up then (1, 0) else (0, 1)) (1, 1) (t.vec r2 f 0)
        (t.vec r2 f 1) (t.vec r2 f 2)) ∧
      c.x = ((mu (t.vec r2 f 0) (t.vec r2 f 1) (t.vec r2 f 2)).1 * (t.verts.getD 0 (0, 0)).2 +
          (mu (t.vec r2 f 0) (t.vec r2 f 1) (t.vec r2 f 2)).2.1 * (t.verts.getD 1 (0, 0)).2 +
          (mu (t.vec r2 f 0) (t.vec r2 f 1) (t.vec r2 f 2)).2.2 * (t.verts.getD 2 (0, 0)).2,
        (mu (t.vec r2 f 0) (t.vec r2 f 1) (t.vec r2 f 2)).1 * (t.verts.getD 0 (0, 0)).1 +
          (mu (t.vec r2 f 0) (t.vec r2 f 1) (t.vec r2 f 2)).2.1 * (t.verts.getD 1 (0, 0)).1 +
          (mu (t.vec r2 f 0) (t.vec r2 f 1) (t.vec r2 f 2)).2.2 * (t.verts.getD 2 (0, 0)).1) := by
  unfold checkTri checkSimplex
  split
  · rename_i h
    constructor
    · intro h'; cases h'
    · rintro ⟨⟨h0, h1, h2⟩, -⟩
      rcases h with h | h | h
      · exact absurd h h0
      · exact absurd h h1
      · exact absurd h h2
  · rename_i h
    push Not at h
    split
    · rename_i hc
      have hs : (mu (t.vec r2 f 0) (t.vec r2 f 1) (t.vec r2 f 2)).2.2 =
          1 - (mu (t.vec r2 f 0) (t.vec r2 f 1) (t.vec r2 f 2)).1 -
            (mu (t.vec r2 f 0) (t.vec r2 f 1) (t.vec r2 f 2)).2.1 := by
        have := (mu_zero hc).2.2.2.1
        linarith
      have hx : ((t.b : ℝ) + ((mu (t.vec r2 f 0) (t.vec r2 f 1) (t.vec r2 f 2)).1 * (0, 0).1 +
          (mu (t.vec r2 f 0) (t.vec r2 f 1) (t.vec r2 f 2)).2.1 *
            (if t.up then ((1, 0) : ℝ × ℝ) else (0, 1)).1 +
          (mu (t.vec r2 f 0) (t.vec r2 f 1) (t.vec r2 f 2)).2.2 * (1, 1).1),
          (t.a : ℝ) + ((mu (t.vec r2 f 0) (t.vec r2 f 1) (t.vec r2 f 2)).1 * (0, 0).2 +
          (mu (t.vec r2 f 0) (t.vec r2 f 1) (t.vec r2 f 2)).2.1 *
            (if t.up then ((1, 0) : ℝ × ℝ) else (0, 1)).2 +
          (mu (t.vec r2 f 0) (t.vec r2 f 1) (t.vec r2 f 2)).2.2 * (1, 1).2)) =
        ((mu (t.vec r2 f 0) (t.vec r2 f 1) (t.vec r2 f 2)).1 * (t.verts.getD 0 (0, 0)).2 +
          (mu (t.vec r2 f 0) (t.vec r2 f 1) (t.vec r2 f 2)).2.1 * (t.verts.getD 1 (0, 0)).2 +
          (mu (t.vec r2 f 0) (t.vec r2 f 1) (t.vec r2 f 2)).2.2 * (t.verts.getD 2 (0, 0)).2,
        (mu (t.vec r2 f 0) (t.vec r2 f 1) (t.vec r2 f 2)).1 * (t.verts.getD 0 (0, 0)).1 +
          (mu (t.vec r2 f 0) (t.vec r2 f 1) (t.vec r2 f 2)).2.1 * (t.verts.getD 1 (0, 0)).1 +
          (mu (t.vec r2 f 0) (t.vec r2 f 1) (t.vec r2 f 2)).2.2 * (t.verts.getD 2 (0, 0)).1) := by
        rw [hs]
        generalize (mu (t.vec r2 f 0) (t.vec r2 f 1) (t.vec r2 f 2)).1 = x
        generalize (mu (t.vec r2 f 0) (t.vec r2 f 1) (t.vec r2 f 2)).2.1 = y
        obtain ⟨a, b, up⟩ := t
        cases up <;> simp [Tri.verts] <;> constructor <;> ring
      simp only [Option.some.injEq]
      rw [hx]
      constructor
      · rintro rfl
        exact ⟨⟨h.1, h.2.1, h.2.2⟩, hc, rfl, rfl⟩
      · rintro ⟨-, -, h1, h2⟩
        rw [← h1, ← h2]
    · rename_i hc
      constructor
      · intro h'; cases h'
      · rintro ⟨-, h', -⟩; exact absurd h' hc

/-- `check_simplex_seq` reports exactly the critical points of the triangle. -/
theorem checkTri_iff (r1 r2 : Nat) (f : Online2D.Field ℝ) (t : Tri) (ht : t.inGrid r1 r2)
    (c : CP2) : checkTri r2 f t = some c ↔ IsPoint r2 f t c := by
  rw [checkTri_some]
  constructor
  · rintro ⟨⟨h0, h1, h2⟩, hc, hty, hx⟩
    have hreg := ((checkCP_iff _ _ _).1 hc).1
    obtain ⟨m0, m1, m2, ms, mu1, mu2⟩ := mu_zero hc
    refine ⟨⟨_, jacobian_isJac r2 f t, (jacobian_det r2 f t).2 hreg, hty⟩, ?_, ?_⟩
    · intro P hP ⟨e1, e2⟩
      rw [verts_three t] at hP
      simp only [List.mem_cons, List.not_mem_nil, or_false] at hP
      rcases hP with rfl | rfl | rfl
      · exact h0 (by simp only [Tri.vec, e1, e2])
      · exact h1 (by simp only [Tri.vec, e1, e2])
      · exact h2 (by simp only [Tri.vec, e1, e2])
    · refine ⟨fun P => if P = t.verts.getD 0 (0, 0) then
          (mu (t.vec r2 f 0) (t.vec r2 f 1) (t.vec r2 f 2)).1
        else if P = t.verts.getD 1 (0, 0) then
          (mu (t.vec r2 f 0) (t.vec r2 f 1) (t.vec r2 f 2)).2.1
        else (mu (t.vec r2 f 0) (t.vec r2 f 1) (t.vec r2 f 2)).2.2, ?_, ?_⟩
      · intro P _
        simp only
        split
        · exact m0
        · split
          · exact m1
          · exact m2
      · have n1 : t.verts.getD 1 (0, 0) ≠ t.verts.getD 0 (0, 0) := by
          obtain ⟨a, b, up⟩ := t
          cases up <;> simp [Tri.verts]
        have n2 : t.verts.getD 2 (0, 0) ≠ t.verts.getD 0 (0, 0) := by
          obtain ⟨a, b, up⟩ := t
          cases up <;> simp [Tri.verts]
        have n3 : t.verts.getD 2 (0, 0) ≠ t.verts.getD 1 (0, 0) := by
          obtain ⟨a, b, up⟩ := t
          cases up <;> simp [Tri.verts]
        rw [hx]
        rw [verts_three t]
        simp only [List.map_cons, List.map_nil, List.sum_cons, List.sum_nil, n1, n2, n3, if_true,
          if_false, List.getD_cons_zero, List.getD_cons_succ]
        refine ⟨by linarith, ?_, ?_, ?_⟩
        · have := mu1
          simp only [Tri.vec] at this ⊢
          linarith
        · have := mu2
          simp only [Tri.vec] at this ⊢
          linarith
        · simp only [Prod.mk.injEq]
          constructor <;> ring
  · rintro ⟨⟨J, hJ, hdet, hty⟩, hv, w, w0, ws, w1, w2, hx⟩
    have hJ' := Online2D.isJac_unique ht hJ (jacobian_isJac r2 f t)
    rw [verts_three t] at hv w0 ws w1 w2 hx
    simp only [List.map_cons, List.map_nil, List.sum_cons, List.sum_nil, add_zero, List.mem_cons,
      List.not_mem_nil, or_false] at hv w0 ws w1 w2 hx
    have hreg : Regular (t.vec r2 f 0) (t.vec r2 f 1) (t.vec r2 f 2) := by
      rw [← jacobian_det, ← hJ']; exact hdet
    have hmu := mu_unique hreg (a := w (t.verts.getD 0 (0, 0))) (b := w (t.verts.getD 1 (0, 0)))
      (c := w (t.verts.getD 2 (0, 0))) (by linarith) (by simp only [Tri.vec]; linarith)
      (by simp only [Tri.vec]; linarith)
    refine ⟨⟨vec_ne (hv _ (Or.inl rfl)), vec_ne (hv _ (Or.inr (Or.inl rfl))),
      vec_ne (hv _ (Or.inr (Or.inr rfl)))⟩, ?_, by rw [hty, hJ'], ?_⟩
    · rw [checkCP_iff]
      exact ⟨hreg, _, _, _, w0 _ (Or.inl rfl), w0 _ (Or.inr (Or.inl rfl)),
        w0 _ (Or.inr (Or.inr rfl)), by linarith, by simp only [Tri.vec]; linarith,
        by simp only [Tri.vec]; linarith⟩
    · rw [hmu, hx]
      simp only [Prod.mk.injEq]
      constructor <;> ring

/-! ### The list of triangles -/

/-- The triangles in the order of the calls.  (test/cp_extraction_2d.cpp L126-145.) -/
def tris (r1 r2 : Nat) : List Tri :=
  (List.range' 1 (r1 - 3)).flatMap fun i => (List.range' 1 (r2 - 3)).flatMap fun j =>
    [⟨i, j, false⟩, ⟨i, j, true⟩]

theorem mem_tris {r1 r2 : Nat} {t : Tri} : t ∈ tris r1 r2 ↔ interior r1 r2 t := by
  obtain ⟨a, b, up⟩ := t
  simp only [tris, List.mem_flatMap, List.mem_range'_1, List.mem_cons, Tri.mk.injEq,
    List.not_mem_nil, or_false, interior]
  constructor
  · rintro ⟨i, hi, j, hj, ⟨rfl, rfl, -⟩ | ⟨rfl, rfl, -⟩⟩ <;> omega
  · intro h
    refine ⟨a, by omega, b, by omega, ?_⟩
    cases up <;> simp

theorem nodup_tris (r1 r2 : Nat) : (tris r1 r2).Nodup := by
  unfold tris
  rw [List.nodup_flatMap]
  refine ⟨fun i _ => ?_, ?_⟩
  · rw [List.nodup_flatMap]
    refine ⟨fun j _ => by simp, ?_⟩
    refine (List.nodup_range' (step := 1)).imp fun {x y} hne => ?_
    simp only [Function.onFun]
    intro t h1 h2
    simp only [List.mem_cons, List.not_mem_nil, or_false] at h1 h2
    apply hne
    rcases h1 with rfl | rfl <;> rcases h2 with h2 | h2 <;> simp_all
  · refine (List.nodup_range' (step := 1)).imp fun {x y} hne => ?_
    simp only [Function.onFun]
    intro t h1 h2
    simp only [List.mem_flatMap, List.mem_cons, List.not_mem_nil, or_false] at h1 h2
    obtain ⟨j, -, h1⟩ := h1
    obtain ⟨j', -, h2⟩ := h2
    apply hne
    rcases h1 with rfl | rfl <;> rcases h2 with h2 | h2 <;> simp_all

theorem triNo_inj {r2 : Nat} {t t' : Tri} (h : t.b + 1 < r2) (h' : t'.b + 1 < r2)
    (he : triNo r2 t = triNo r2 t') : t = t' := by
  obtain ⟨a, b, up⟩ := t
  obtain ⟨a', b', up'⟩ := t'
  simp only at h h'
  unfold triNo at he
  simp only at he
  have hup : up = up' := by
    cases up <;> cases up' <;> simp at he ⊢ <;> omega
  subst hup
  have hab : a * (r2 - 1) + b = a' * (r2 - 1) + b' := by omega
  have hpos : 0 < r2 - 1 := by omega
  have ha : a = a' := by
    have e : ∀ x y : Nat, y < r2 - 1 → (x * (r2 - 1) + y) / (r2 - 1) = x := by
      intro x y hy
      rw [Nat.mul_comm x, Nat.mul_add_div hpos, Nat.div_eq_of_lt hy]; rfl
    have : (a * (r2 - 1) + b) / (r2 - 1) = (a' * (r2 - 1) + b') / (r2 - 1) :=
      congrArg (· / (r2 - 1)) hab
    rwa [e a b (by omega), e a' b' (by omega)] at this
  subst ha
  have hb : b = b' := by omega
  rw [hb]

theorem calls_eq (r1 r2 : Nat) (f : Online2D.Field ℝ) :
    calls r1 r2 f = (tris r1 r2).map fun t => (triNo r2 t, checkTri r2 f t) := by
  simp only [calls, tris, List.map_flatMap, List.map_cons, List.map_nil, triNo, checkTri, Tri.vec,
    Tri.verts, gridVal, Bool.false_eq_true, if_false, if_true, List.getD_cons_zero,
    List.getD_cons_succ, Bool.toNat_false, Bool.toNat_true, add_zero]

theorem interior.inGrid {r1 r2 : Nat} {t : Tri} (h : interior r1 r2 t) : t.inGrid r1 r2 := by
  unfold interior at h
  unfold Tri.inGrid
  omega

theorem keys_nodup (r1 r2 : Nat) (f : Online2D.Field ℝ) :
    (((calls r1 r2 f).filterMap fun e => e.2.map (Prod.mk e.1)).map (·.1)).Nodup := by
  have hk : ((calls r1 r2 f).map (·.1)).Nodup := by
    rw [calls_eq, List.map_map]
    refine List.Nodup.map_on ?_ (nodup_tris r1 r2)
    intro t ht t' ht' he
    have h1 := (mem_tris.1 ht).inGrid
    have h2 := (mem_tris.1 ht').inGrid
    unfold Tri.inGrid at h1 h2
    exact triNo_inj h1.2 h2.2 he
  refine List.Nodup.sublist ?_ hk
  generalize calls r1 r2 f = l
  induction l with
  | nil => simp
  | cons e l ih =>
    obtain ⟨id, o⟩ := e
    cases o with
    | none => simpa using ih.cons id
    | some c => simpa using ih.cons_cons id

theorem extract_eq (r1 r2 : Nat) (f : Online2D.Field ℝ) :
    extract r1 r2 f = (calls r1 r2 f).filterMap fun e => e.2.map (Prod.mk e.1) := by
  unfold extract
  rw [insertMap_foldl _ _ (by simpa using keys_nodup r1 r2 f)]
  rfl

theorem mem_extract {r1 r2 : Nat} {f : Online2D.Field ℝ} {id : Nat} {c : CP2} :
    (id, c) ∈ extract r1 r2 f ↔
      ∃ t, interior r1 r2 t ∧ id = triNo r2 t ∧ checkTri r2 f t = some c := by
  rw [extract_eq, calls_eq]
  simp only [List.mem_filterMap, List.mem_map]
  constructor
  · rintro ⟨_, ⟨t, ht, rfl⟩, he⟩
    simp only [Option.map_eq_some_iff, Prod.mk.injEq] at he
    obtain ⟨c', h1, h2, rfl⟩ := he
    exact ⟨t, mem_tris.1 ht, h2.symm, h1⟩
  · rintro ⟨t, ht, rfl, hc⟩
    exact ⟨_, ⟨t, mem_tris.2 ht, rfl⟩, by simp [hc]⟩

end CpSZ.Extract
