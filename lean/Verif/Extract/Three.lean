import Verif.Extract.Report
import Verif.ThreeD.Spec
import Verif.ThreeD.Mesh
import Mathlib.LinearAlgebra.Matrix.Charpoly.Basic
import Mathlib.LinearAlgebra.Matrix.NonsingularInverse
import Mathlib.LinearAlgebra.Matrix.Notation
/-
The 3D extraction tool (test/cp_extraction_3d.cpp) in exact arithmetic.  The functions of FTK it
calls are not part of the repository: `inverse_lerp_s3v3` is taken to solve the linear system for
the weights and to compare them with 0 and 1 (a vanishing determinant gives no number between 0
and 1), `lerp_s3v3`, `matrix_inverse3x3`, the product and the characteristic polynomial are those
of linear algebra.  The tool computes in `double`; rounding is not modelled.
-/

namespace CpSZ.Extract
open Mesh3D

variable {Ty : Type}

/-- `critical_point_t` (test/cp_extraction_3d.cpp L23-28); `x` is the position. -/
structure CP3 (Ty : Type) where
  x : Fin 3 → ℝ
  type : Ty

/-- `tet_coords` (test/cp_extraction_3d.cpp L40-77), entries `(x, y, z)`. -/
def tetCoords (s : Nat) : Fin 4 → Fin 3 → Nat :=
  match s with
  | 0 => ![![0, 0, 0], ![0, 0, 1], ![0, 1, 1], ![1, 1, 1]]
  | 1 => ![![0, 0, 0], ![0, 1, 0], ![0, 1, 1], ![1, 1, 1]]
  | 2 => ![![0, 0, 0], ![0, 0, 1], ![1, 0, 1], ![1, 1, 1]]
  | 3 => ![![0, 0, 0], ![1, 0, 0], ![1, 0, 1], ![1, 1, 1]]
  | 4 => ![![0, 0, 0], ![0, 1, 0], ![1, 1, 0], ![1, 1, 1]]
  | _ => ![![0, 0, 0], ![1, 0, 0], ![1, 1, 0], ![1, 1, 1]]

/-- `X_` and `U_` (test/cp_extraction_3d.cpp L82-91), also the matrix of `inverse_lerp_s3v3`: the
columns are the differences to the last corner. -/
def diffs (v : Fin 4 → Fin 3 → ℝ) : Matrix (Fin 3) (Fin 3) ℝ :=
  Matrix.of fun r c => v c.castSucc r - v 3 r

/-- `get_cp_type` (test/cp_extraction_3d.cpp L79-117).  The classification `ty` of the
characteristic polynomial (the roots and the discriminant of `solve_cubic`) is arbitrary. -/
noncomputable def cpType3 (ty : Polynomial ℝ → Ty) (X U : Fin 4 → Fin 3 → ℝ) : Ty :=
  ty ((diffs X)⁻¹ * diffs U).charpoly

/-- The weights computed by `inverse_lerp_s3v3`. -/
noncomputable def mu3 (v : Fin 4 → Fin 3 → ℝ) : Fin 4 → ℝ :=
  let m := (diffs v)⁻¹.mulVec fun r => -v 3 r
  ![m 0, m 1, m 2, 1 - m 0 - m 1 - m 2]

open Classical in
/-- `check_simplex_seq` (test/cp_extraction_3d.cpp L127-153). -/
noncomputable def checkSimplex3 (ty : Polynomial ℝ → Ty) (X v : Fin 4 → Fin 3 → ℝ) (i j k : Nat) :
    Option (CP3 Ty) :=
  if ∃ q, v q = 0 then none
  else if (diffs v).det ≠ 0 ∧ ∀ q, 0 ≤ mu3 v q ∧ mu3 v q ≤ 1 then
    some ⟨fun r => (![k, j, i] r : ℕ) + ∑ q, mu3 v q * X q r, cpType3 ty X v⟩
  else none

/-- `update_index_and_value` for four vertices (test/cp_extraction_3d.cpp L119-125). -/
def vals (f : Nat → Nat → ℝ) (l : List Nat) : Fin 4 → Fin 3 → ℝ := fun q c => f c (l.getD q 0)

/-- The offset of the simplex numbers of FTK (test/cp_extraction_3d.cpp L187-204). -/
def ftkNo (s : Nat) : Nat := [0, 2, 1, 4, 3, 5].getD s 0

/-- The calls of `check_simplex_seq` in order (test/cp_extraction_3d.cpp L174-207): key of the map
and result.  The parameter `simplex_id` and the key of the map have type `int`, to which the
`ptrdiff_t` is converted modulo 2^32; the model keeps the residue. -/
noncomputable def calls3 (ty : Polynomial ℝ → Ty) (r1 r2 r3 : Nat) (f : Nat → Nat → ℝ) :
    List (Nat × Option (CP3 Ty)) :=
  (List.range (r1 - 1)).flatMap fun i => (List.range (r2 - 1)).flatMap fun j =>
    (List.range (r3 - 1)).flatMap fun k => (List.range 6).map fun s =>
      ((6 * (i * (r2 * r3) + j * r3 + k) + ftkNo s) % 2 ^ 32,
        checkSimplex3 ty (fun q r => tetCoords s q r) (vals f (cpVerts r2 r3 i j k s)) i j k)

/-- `compute_critical_points` (test/cp_extraction_3d.cpp L155-209). -/
noncomputable def extract3 (ty : Polynomial ℝ → Ty) (r1 r2 r3 : Nat) (f : Nat → Nat → ℝ) :
    List (Nat × CP3 Ty) :=
  ((calls3 ty r1 r2 r3 f).filterMap fun e => e.2.map (Prod.mk e.1)).foldl insertMap []

/-! ### Specification -/

/-- The coordinates `(x, y, z)` of a grid point. -/
def xyz (P : Pos) : Fin 3 → ℝ := ![P.2.2, P.2.1, P.1]

/-- The vector at a grid point. -/
def vecAt3 (r2 r3 : Nat) (f : Nat → Nat → ℝ) (P : Pos) : Fin 3 → ℝ :=
  fun c => f c (flat3 r2 r3 P)

/-- The number of a tetrahedron. -/
def tetNo (r2 r3 : Nat) (t : Tet) : Nat := 6 * flat3 r2 r3 (t.a, t.b, t.c) + ftkNo t.s

/-- `c` describes the zero of the interpolant of `f` in the tetrahedron `t`: the Jacobian `J`
(which maps differences of corners to differences of vectors) is invertible and its characteristic
polynomial has the type `c.type`, the interpolant vanishes at the position `c.x` of the
tetrahedron, and no corner is a zero of the field. -/
structure IsPoint3 (ty : Polynomial ℝ → Ty) (r2 r3 : Nat) (f : Nat → Nat → ℝ) (t : Tet)
    (c : CP3 Ty) : Prop where
  jac : ∃ J : Matrix (Fin 3) (Fin 3) ℝ, (∀ P ∈ t.corners, ∀ Q ∈ t.corners,
      J.mulVec (xyz P - xyz Q) = vecAt3 r2 r3 f P - vecAt3 r2 r3 f Q) ∧ J.det ≠ 0 ∧
      c.type = ty J.charpoly
  vert : ∀ P ∈ t.corners, vecAt3 r2 r3 f P ≠ 0
  pos : ∃ w : Pos → ℝ, (∀ P ∈ t.corners, 0 ≤ w P) ∧ (t.corners.map w).sum = 1 ∧
    (∀ r, (t.corners.map fun P => w P * vecAt3 r2 r3 f P r).sum = 0) ∧
    ∀ r, c.x r = (t.corners.map fun P => w P * xyz P r).sum

/-! ### Facts -/

/-- Corner `q` of a tetrahedron.  (test/cp_extraction_3d.cpp L183-204.) -/
def corner (t : Tet) (q : Fin 4) : Pos := t.corners.getD q (0, 0, 0)

theorem corners_eq (t : Tet) : t.corners = [corner t 0, corner t 1, corner t 2, corner t 3] := by
  simp [corner, Tet.corners, pathCorners]

theorem mem_corners {t : Tet} {P : Pos} : P ∈ t.corners ↔ ∃ q, corner t q = P := by
  rw [corners_eq]
  constructor
  · intro h
    simp only [List.mem_cons, List.not_mem_nil, or_false] at h
    rcases h with h | h | h | h
    · exact ⟨0, h.symm⟩
    · exact ⟨1, h.symm⟩
    · exact ⟨2, h.symm⟩
    · exact ⟨3, h.symm⟩
  · rintro ⟨q, rfl⟩
    fin_cases q <;> simp

/-- The result of `check_simplex_seq` for a tetrahedron of the mesh. 
(test/cp_extraction_3d.cpp L182-204.) -/
noncomputable def checkTet (ty : Polynomial ℝ → Ty) (r2 r3 : Nat) (f : Nat → Nat → ℝ) (t : Tet) :
    Option (CP3 Ty) :=
  checkSimplex3 ty (fun q r => tetCoords t.s q r) (fun q => vecAt3 r2 r3 f (corner t q))
    t.a t.b t.c

theorem tetCoords_xyz {t : Tet} (ht : t.s < 6) (q : Fin 4) (r : Fin 3) :
    xyz (corner t q) r = (![t.c, t.b, t.a] r : ℕ) + (tetCoords t.s q r : ℝ) := by
  obtain ⟨a, b, c, s⟩ := t
  simp only at ht
  interval_cases s <;> fin_cases q <;> fin_cases r <;>
    simp [xyz, corner, Tet.corners, pathCorners, pathEdges, Pos.add, tetCoords]

theorem det_coords {s : Nat} (hs : s < 6) : (diffs fun q r => (tetCoords s q r : ℝ)).det ≠ 0 := by
  interval_cases s <;> simp [diffs, tetCoords, Matrix.det_fin_three]

theorem diffs_xyz {t : Tet} (ht : t.s < 6) :
    diffs (fun q => xyz (corner t q)) = diffs fun q r => (tetCoords t.s q r : ℝ) := by
  ext r c
  simp only [diffs, Matrix.of_apply, tetCoords_xyz ht]
  ring

theorem mu3_unique {v : Fin 4 → Fin 3 → ℝ} (hd : (diffs v).det ≠ 0) {w : Fin 4 → ℝ}
    (hs : ∑ q, w q = 1) (hz : ∀ r, ∑ q, w q * v q r = 0) : mu3 v = w := by
  have hu : IsUnit (diffs v).det := isUnit_iff_ne_zero.2 hd
  have hA : (diffs v).mulVec (fun q => w q.castSucc) = fun r => -v 3 r := by
    ext r
    have h1 := hz r
    rw [Fin.sum_univ_four] at h1 hs
    simp only [Matrix.mulVec, dotProduct, Fin.sum_univ_three, diffs, Matrix.of_apply]
    show (v 0 r - v 3 r) * w 0 + (v 1 r - v 3 r) * w 1 + (v 2 r - v 3 r) * w 2 = -v 3 r
    linear_combination h1 - v 3 r * hs
  have hm : ((diffs v)⁻¹.mulVec fun r => -v 3 r) = fun q => w q.castSucc := by
    rw [← hA, Matrix.mulVec_mulVec, Matrix.nonsing_inv_mul _ hu, Matrix.one_mulVec]
  ext q
  simp only [mu3, hm]
  rw [Fin.sum_univ_four] at hs
  fin_cases q
  · rfl
  · rfl
  · rfl
  · show 1 - w 0 - w 1 - w 2 = w 3
    linarith

theorem mu3_spec {v : Fin 4 → Fin 3 → ℝ} (hd : (diffs v).det ≠ 0) :
    ∑ q, mu3 v q = 1 ∧ ∀ r, ∑ q, mu3 v q * v q r = 0 := by
  have hu : IsUnit (diffs v).det := isUnit_iff_ne_zero.2 hd
  set m := (diffs v)⁻¹.mulVec fun r => -v 3 r with hm
  have h0 : mu3 v 0 = m 0 := rfl
  have h1 : mu3 v 1 = m 1 := rfl
  have h2 : mu3 v 2 = m 2 := rfl
  have h3 : mu3 v 3 = 1 - m 0 - m 1 - m 2 := rfl
  have hA : (diffs v).mulVec m = fun r => -v 3 r := by
    rw [hm, Matrix.mulVec_mulVec, Matrix.mul_nonsing_inv _ hu, Matrix.one_mulVec]
  refine ⟨by rw [Fin.sum_univ_four, h0, h1, h2, h3]; ring, fun r => ?_⟩
  have := congrFun hA r
  simp only [Matrix.mulVec, dotProduct, Fin.sum_univ_three, diffs, Matrix.of_apply] at this
  have this : (v 0 r - v 3 r) * m 0 + (v 1 r - v 3 r) * m 1 + (v 2 r - v 3 r) * m 2 = -v 3 r := this
  rw [Fin.sum_univ_four, h0, h1, h2, h3]
  linear_combination this

theorem sum_corners (t : Tet) (g : Pos → ℝ) : (t.corners.map g).sum = ∑ q, g (corner t q) := by
  rw [corners_eq, Fin.sum_univ_four]
  simp only [List.map_cons, List.map_nil, List.sum_cons, List.sum_nil]
  ring

theorem corner_inj (t : Tet) (ht : t.s < 6) {p q : Fin 4} (h : corner t p = corner t q) :
    p = q := by
  obtain ⟨a, b, c, s⟩ := t
  simp only at ht
  interval_cases s <;> fin_cases p <;> fin_cases q <;>
    first
    | rfl
    | (exfalso; simp [corner, Tet.corners, pathCorners, pathEdges, Pos.add] at h)

theorem mulVec_diffs {J : Matrix (Fin 3) (Fin 3) ℝ} {X v : Fin 4 → Fin 3 → ℝ}
    (h : ∀ p q, J.mulVec (X p - X q) = v p - v q) : diffs v = J * diffs X := by
  ext r c
  have := congrFun (h c.castSucc 3) r
  simp only [Pi.sub_apply] at this
  simp only [diffs, Matrix.of_apply, Matrix.mul_apply]
  rw [← this]
  rfl

theorem diffs_mulVec {J : Matrix (Fin 3) (Fin 3) ℝ} {X v : Fin 4 → Fin 3 → ℝ}
    (h : diffs v = J * diffs X) (p q : Fin 4) : J.mulVec (X p - X q) = v p - v q := by
  have h3 : ∀ p, J.mulVec (X p - X 3) = v p - v 3 := by
    have hc : ∀ c : Fin 3, J.mulVec (X c.castSucc - X 3) = v c.castSucc - v 3 := by
      intro c
      ext r
      have := congrFun (congrFun h r) c
      simp only [diffs, Matrix.of_apply, Matrix.mul_apply] at this
      rw [Pi.sub_apply, this]
      rfl
    intro p
    fin_cases p
    · exact hc 0
    · exact hc 1
    · exact hc 2
    · show J.mulVec (X 3 - X 3) = v 3 - v 3
      simp
  have e : X p - X q = (X p - X 3) - (X q - X 3) := by abel
  rw [e, Matrix.mulVec_sub, h3, h3]
  abel

/-- The tool decides the specification. -/
theorem checkTet_iff (ty : Polynomial ℝ → Ty) (r2 r3 : Nat) (f : Nat → Nat → ℝ) (t : Tet)
    (ht : t.s < 6) (c : CP3 Ty) :
    checkTet ty r2 r3 f t = some c ↔ IsPoint3 ty r2 r3 f t c := by
  set v : Fin 4 → Fin 3 → ℝ := fun q => vecAt3 r2 r3 f (corner t q) with hv
  set X : Fin 4 → Fin 3 → ℝ := fun q r => (tetCoords t.s q r : ℝ) with hX
  have hdX : (diffs X).det ≠ 0 := det_coords ht
  have huX : IsUnit (diffs X).det := isUnit_iff_ne_zero.2 hdX
  have hXx : diffs (fun q => xyz (corner t q)) = diffs X := diffs_xyz ht
  have hpos : ∀ w : Fin 4 → ℝ, ∑ q, w q = 1 → ∀ r,
      ∑ q, w q * xyz (corner t q) r = (![t.c, t.b, t.a] r : ℕ) + ∑ q, w q * X q r := by
    intro w hw r
    simp only [tetCoords_xyz ht, mul_add, Finset.sum_add_distrib, ← Finset.sum_mul, hw, one_mul]
    rfl
  have hch : checkTet ty r2 r3 f t = checkSimplex3 ty X v t.a t.b t.c := rfl
  rw [hch]
  unfold checkSimplex3
  constructor
  · intro h
    split at h
    · cases h
    · rename_i hnz
      split at h
      · rename_i hc
        obtain ⟨hd, hmu⟩ := hc
        obtain ⟨m1, m2⟩ := mu3_spec hd
        simp only [Option.some.injEq] at h
        subst h
        have hJ : diffs v = (diffs v * (diffs X)⁻¹) * diffs X := by
          rw [Matrix.mul_assoc, Matrix.nonsing_inv_mul _ huX, Matrix.mul_one]
        refine ⟨⟨diffs v * (diffs X)⁻¹, ?_, ?_, ?_⟩, ?_, ?_⟩
        · intro P hP Q hQ
          obtain ⟨p, rfl⟩ := mem_corners.1 hP
          obtain ⟨q, rfl⟩ := mem_corners.1 hQ
          exact diffs_mulVec (X := fun q => xyz (corner t q)) (v := v) (by rw [hXx]; exact hJ) p q
        · rw [Matrix.det_mul]
          exact mul_ne_zero hd (Matrix.isUnit_nonsing_inv_det _ huX).ne_zero
        · simp only [cpType3]
          rw [Matrix.charpoly_mul_comm]
        · intro P hP hz
          obtain ⟨p, rfl⟩ := mem_corners.1 hP
          exact hnz ⟨p, hz⟩
        · classical
          refine ⟨fun P => ∑ q, if corner t q = P then mu3 v q else 0, ?_, ?_, ?_, ?_⟩
          · intro P _
            exact Finset.sum_nonneg fun q _ => by
              split
              · exact (hmu q).1
              · exact le_rfl
          all_goals
            have hw : ∀ p, (∑ q, if corner t q = corner t p then mu3 v q else 0) = mu3 v p := by
              intro p
              rw [Finset.sum_eq_single p]
              · simp
              · intro q _ hq
                rw [if_neg fun e => hq (corner_inj t ht e)]
              · simp
          · rw [sum_corners]
            simp only [hw]
            exact m1
          · intro r
            rw [sum_corners]
            simp only [hw]
            exact m2 r
          · intro r
            rw [sum_corners]
            simp only [hw]
            exact (hpos _ m1 r).symm
      · cases h
  · rintro ⟨⟨J, hJ, hdet, hty⟩, hvert, w, w0, w1, w2, wx⟩
    have hJ' : diffs v = J * diffs X := by
      rw [← hXx]
      exact mulVec_diffs fun p q => hJ _ (mem_corners.2 ⟨p, rfl⟩) _ (mem_corners.2 ⟨q, rfl⟩)
    have hd : (diffs v).det ≠ 0 := by
      rw [hJ', Matrix.det_mul]
      exact mul_ne_zero hdet hdX
    rw [sum_corners] at w1
    have w2' : ∀ r, ∑ q, w (corner t q) * v q r = 0 := fun r => by rw [← w2 r, sum_corners]
    have hmu : mu3 v = fun q => w (corner t q) := mu3_unique hd w1 w2'
    have hle : ∀ q, w (corner t q) ≤ 1 := by
      intro q
      rw [← w1]
      exact Finset.single_le_sum (f := fun q => w (corner t q))
        (fun q _ => w0 _ (mem_corners.2 ⟨q, rfl⟩)) (Finset.mem_univ q)
    rw [if_neg, if_pos]
    · rw [Option.some.injEq]
      obtain ⟨cx, ct⟩ := c
      congr 1
      · ext r
        have := wx r
        simp only at this
        rw [this, sum_corners, hmu, hpos _ w1]
      · simp only at hty
        rw [hty, cpType3, hJ', ← Matrix.mul_assoc, Matrix.charpoly_mul_comm, ← Matrix.mul_assoc,
          Matrix.mul_nonsing_inv _ huX, Matrix.one_mul]
    · exact ⟨hd, fun q => by rw [hmu]; exact ⟨w0 _ (mem_corners.2 ⟨q, rfl⟩), hle q⟩⟩
    · rintro ⟨q, hq⟩
      exact hvert _ (mem_corners.2 ⟨q, rfl⟩) hq

/-- The tetrahedra of the mesh in the order of the loops.  (test/cp_extraction_3d.cpp L182-204.) -/
def tets (r1 r2 r3 : Nat) : List Tet :=
  (List.range (r1 - 1)).flatMap fun i => (List.range (r2 - 1)).flatMap fun j =>
    (List.range (r3 - 1)).flatMap fun k => (List.range 6).map fun s => ⟨i, j, k, s⟩

theorem mem_tets {r1 r2 r3 : Nat} {t : Tet} : t ∈ tets r1 r2 r3 ↔ t.inGrid r1 r2 r3 := by
  obtain ⟨a, b, c, s⟩ := t
  simp only [tets, List.mem_flatMap, List.mem_range, List.mem_map, Tet.mk.injEq, Tet.inGrid]
  constructor
  · rintro ⟨i, hi, j, hj, k, hk, n, hn, rfl, rfl, rfl, rfl⟩
    omega
  · rintro ⟨h1, h2, h3, h4⟩
    exact ⟨a, by omega, b, by omega, c, by omega, s, h4, rfl, rfl, rfl, rfl⟩

theorem vals_corner (r2 r3 : Nat) (f : Nat → Nat → ℝ) (i j k s : Nat) (hs : s < 6) :
    vals f (cpVerts r2 r3 i j k s) = fun q => vecAt3 r2 r3 f (corner ⟨i, j, k, s⟩ q) := by
  rw [cpVerts_eq _ _ _ _ _ _ hs]
  ext q c
  simp only [vals, vecAt3, Tet.verts, corner]
  congr 1
  rw [corners_eq]
  fin_cases q <;> rfl

theorem calls3_eq (ty : Polynomial ℝ → Ty) (r1 r2 r3 : Nat) (f : Nat → Nat → ℝ) :
    calls3 ty r1 r2 r3 f =
      (tets r1 r2 r3).map fun t => (tetNo r2 r3 t % 2 ^ 32, checkTet ty r2 r3 f t) := by
  simp only [calls3, tets, List.map_flatMap, List.map_map]
  congr 1; funext i; congr 1; funext j; congr 1; funext k
  apply List.map_congr_left
  intro s hs
  rw [vals_corner _ _ _ _ _ _ _ (List.mem_range.1 hs)]
  rfl

/-- Equal results for all tetrahedra give equal maps. -/
theorem extract3_congr {ty : Polynomial ℝ → Ty} {r1 r2 r3 : Nat} {f g : Nat → Nat → ℝ}
    (h : ∀ t : Tet, t.inGrid r1 r2 r3 → checkTet ty r2 r3 f t = checkTet ty r2 r3 g t) :
    extract3 ty r1 r2 r3 f = extract3 ty r1 r2 r3 g := by
  unfold extract3
  have : calls3 ty r1 r2 r3 f = calls3 ty r1 r2 r3 g := by
    rw [calls3_eq, calls3_eq]
    apply List.map_congr_left
    intro t ht
    rw [h t (mem_tets.1 ht)]
  rw [this]

end CpSZ.Extract
