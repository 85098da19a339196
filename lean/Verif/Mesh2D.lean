import Verif.Online2D.Model
/-
The neighbour tables of the 2D compressors (src/sz_compress_cp_preserve_2d.cpp L572-601 and
its copies L812-841, L1016-1045, L1356-1386) and the loop deriving the error bound of a
vertex from its incident triangles (L609-624).
-/

namespace CpSZ

/-! ### Specification of the mesh -/

/-- A triangle of the regular triangulation: grid cell `(a, b)` (row, column) is cut along
the diagonal from `(a, b)` to `(a+1, b+1)`; `up` selects the half containing `(a, b+1)`. -/
structure Tri where
  a : Nat
  b : Nat
  up : Bool
  deriving DecidableEq

/-- The triangle lies in the grid with `r1` rows and `r2` columns. -/
def Tri.inGrid (r1 r2 : Nat) (t : Tri) : Prop := t.a + 1 < r1 ∧ t.b + 1 < r2

/-- The vertices as (row, column) pairs. -/
def Tri.verts (t : Tri) : List (Nat × Nat) :=
  if t.up then [(t.a, t.b), (t.a, t.b + 1), (t.a + 1, t.b + 1)]
  else [(t.a, t.b), (t.a + 1, t.b), (t.a + 1, t.b + 1)]

/-! ### Model -/

namespace Mesh2D

/-- Table `x` (src/sz_compress_cp_preserve_2d.cpp L575-582). -/
def tx : List (List Int) :=
  [[1, 0, 1], [0, 0, 1], [0, 1, 1], [0, 1, 0], [1, 1, 0], [1, 0, 0]]

/-- Table `y` (src/sz_compress_cp_preserve_2d.cpp L583-590). -/
def ty : List (List Int) :=
  [[0, 0, 1], [0, 1, 1], [0, 1, 0], [1, 1, 0], [1, 0, 0], [1, 0, 1]]

/-- Entry of a table (src/sz_compress_cp_preserve_2d.cpp L575-590). -/
def tab (t : List (List Int)) (k q : Nat) : Int := (t.getD k []).getD q 0

/-- `index_offset[k][q][0]` (src/sz_compress_cp_preserve_2d.cpp L595-601): column offset of the
`q`-th neighbour. -/
def dj (k q : Nat) : Int := tab tx k q - tab tx k 2

/-- `index_offset[k][q][1]`: row offset of the `q`-th neighbour.
(src/sz_compress_cp_preserve_2d.cpp L595-601.) -/
def di (k q : Nat) : Int := tab ty k q - tab ty k 2

/-- `offsets[7]` (src/sz_compress_cp_preserve_2d.cpp L572-574). -/
def offsets (r2 : Nat) (k : Nat) : Int :=
  [-(r2 : Int), -(r2 : Int) - 1, -1, (r2 : Int), (r2 : Int) + 1, 1, -(r2 : Int)].getD k 0

/-- `in_range` (include/sz_cp_preserve_utils.hpp L171-174). -/
def inRange (pos n : Int) : Bool := decide (0 ≤ pos) && decide (pos < n)

/-- `in_mesh` (src/sz_compress_cp_preserve_2d.cpp L612-619). -/
def inMesh (r1 r2 i j k : Nat) : Bool :=
  (inRange (i + di k 0) r1 && inRange (j + dj k 0) r2) &&
  (inRange (i + di k 1) r1 && inRange (j + dj k 1) r2)

/-- Read of `f[idx]` in an array of `n` elements; out of bounds is undefined.
(src/sz_compress_cp_preserve_2d.cpp L621-623.) -/
def rd {T : Type} (n : Nat) (f : Nat → T) (idx : Int) : Option T :=
  if 0 ≤ idx ∧ idx < n then some (f idx.toNat) else none

/-- The loop over the incident triangles (src/sz_compress_cp_preserve_2d.cpp L609-624), for any
per-triangle bound `derive` (`derive k u0 u1 u2 v0 v1 v2` is the call with `inv_C[k]`) and any
`MINF`. -/
def requiredLoop {T D : Type} (r1 r2 : Nat) (minf : D → D → D)
    (derive : Nat → T → T → T → T → T → T → D) (m : Online2D.Field T) (p : Nat) :
    List Nat → D → Option D
  | [], req => some req
  | k :: ks, req =>
    if inMesh r1 r2 (p / r2) (p % r2) k then
      match rd (r1 * r2) m.u (p + offsets r2 k), rd (r1 * r2) m.u (p + offsets r2 (k + 1)),
        rd (r1 * r2) m.v (p + offsets r2 k), rd (r1 * r2) m.v (p + offsets r2 (k + 1)) with
      | some u0, some u1, some v0, some v1 =>
        requiredLoop r1 r2 minf derive m p ks
          (minf req (derive k u0 u1 (m.u p) v0 v1 (m.v p)))
      | _, _, _, _ => none
    else requiredLoop r1 r2 minf derive m p ks req

/-- `required_eb` of a vertex.  (src/sz_compress_cp_preserve_2d.cpp L609-624.) -/
def requiredEb {T D : Type} (r1 r2 : Nat) (maxEb : D) (minf : D → D → D)
    (derive : Nat → T → T → T → T → T → T → D) (m : Online2D.Field T) (p : Nat) : Option D :=
  requiredLoop r1 r2 minf derive m p [0, 1, 2, 3, 4, 5] maxEb

/-! ### Adjacency -/

/-- The triangle addressed by table row `k` at vertex `(i, j)`. -/
def triOf (i j k : Nat) : Tri :=
  match k with
  | 0 => ⟨i - 1, j - 1, true⟩
  | 1 => ⟨i - 1, j - 1, false⟩
  | 2 => ⟨i, j - 1, true⟩
  | 3 => ⟨i, j, false⟩
  | 4 => ⟨i, j, true⟩
  | _ => ⟨i - 1, j, false⟩

theorem inMesh_iff (r1 r2 i j k : Nat) (hi : i < r1) (hj : j < r2) (hk : k < 6) :
    inMesh r1 r2 i j k = true ↔
      (triOf i j k).inGrid r1 r2 ∧ (k ≤ 1 → 1 ≤ i ∧ 1 ≤ j) ∧ (k = 2 → 1 ≤ j) ∧
        (k = 5 → 1 ≤ i) := by
  have hk' : k = 0 ∨ k = 1 ∨ k = 2 ∨ k = 3 ∨ k = 4 ∨ k = 5 := by omega
  rcases hk' with rfl | rfl | rfl | rfl | rfl | rfl <;>
    simp [inMesh, inRange, di, dj, tab, tx, ty, triOf, Tri.inGrid] <;> omega

/-- In-mesh table rows address the other two vertices of a grid triangle that contains the
vertex, and the flat offsets agree with the (row, column) offsets. -/
theorem neighbours (r1 r2 i j k : Nat) (hi : i < r1) (hj : j < r2) (hk : k < 6)
    (h : inMesh r1 r2 i j k = true) :
    ∃ i0 j0 i1 j1 : Nat, i0 < r1 ∧ j0 < r2 ∧ i1 < r1 ∧ j1 < r2 ∧
      (i0 : Int) = i + di k 0 ∧ (j0 : Int) = j + dj k 0 ∧
      (i1 : Int) = i + di k 1 ∧ (j1 : Int) = j + dj k 1 ∧
      ((i * r2 + j : Nat) : Int) + offsets r2 k = (i0 * r2 + j0 : Nat) ∧
      ((i * r2 + j : Nat) : Int) + offsets r2 (k + 1) = (i1 * r2 + j1 : Nat) ∧
      (triOf i j k).inGrid r1 r2 ∧
      (triOf i j k).verts.Perm [(i0, j0), (i1, j1), (i, j)] := by
  have hk' : k = 0 ∨ k = 1 ∨ k = 2 ∨ k = 3 ∨ k = 4 ∨ k = 5 := by omega
  obtain ⟨hg, h01, h2, h5⟩ := (inMesh_iff r1 r2 i j k hi hj hk).1 h
  have e1 : ∀ x : Nat, (x + 1) * r2 = x * r2 + r2 := fun x => Nat.succ_mul x r2
  rcases hk' with rfl | rfl | rfl | rfl | rfl | rfl
  · obtain ⟨i, rfl⟩ : ∃ i', i = i' + 1 := ⟨i - 1, by omega⟩
    obtain ⟨j, rfl⟩ : ∃ j', j = j' + 1 := ⟨j - 1, by omega⟩
    refine ⟨i, j + 1, i, j, by omega, by omega, by omega, by omega, ?_, ?_, ?_, ?_, ?_, ?_, hg, ?_⟩
    · simp [di, tab, ty]
    · simp [dj, tab, tx]
    · simp [di, tab, ty]
    · simp [dj, tab, tx]
    · simp [offsets, e1]; omega
    · simp [offsets, e1]; omega
    · exact List.Perm.swap _ _ _
  · obtain ⟨i, rfl⟩ : ∃ i', i = i' + 1 := ⟨i - 1, by omega⟩
    obtain ⟨j, rfl⟩ : ∃ j', j = j' + 1 := ⟨j - 1, by omega⟩
    refine ⟨i, j, i + 1, j, by omega, by omega, by omega, by omega, ?_, ?_, ?_, ?_, ?_, ?_, hg, ?_⟩
    · simp [di, tab, ty]
    · simp [dj, tab, tx]
    · simp [di, tab, ty]
    · simp [dj, tab, tx]
    · simp [offsets, e1]; omega
    · simp [offsets, e1]; omega
    · exact List.Perm.refl _
  · obtain ⟨j, rfl⟩ : ∃ j', j = j' + 1 := ⟨j - 1, by omega⟩
    simp only [Tri.inGrid, triOf] at hg
    refine ⟨i, j, i + 1, j + 1, by omega, by omega, by omega, by omega, ?_, ?_, ?_, ?_, ?_, ?_, hg, ?_⟩
    · simp [di, tab, ty]
    · simp [dj, tab, tx]
    · simp [di, tab, ty]
    · simp [dj, tab, tx]
    · simp [offsets]; omega
    · simp [offsets, e1]; omega
    · exact List.Perm.cons _ (List.Perm.swap _ _ _)
  · simp only [Tri.inGrid, triOf] at hg
    refine ⟨i + 1, j, i + 1, j + 1, by omega, by omega, by omega, by omega, ?_, ?_, ?_, ?_, ?_, ?_,
      hg, ?_⟩
    · simp [di, tab, ty]
    · simp [dj, tab, tx]
    · simp [di, tab, ty]
    · simp [dj, tab, tx]
    · simp [offsets, e1]; omega
    · simp [offsets, e1]; omega
    · exact (List.Perm.swap _ _ _).trans (List.Perm.cons _ (List.Perm.swap _ _ _))
  · simp only [Tri.inGrid, triOf] at hg
    refine ⟨i + 1, j + 1, i, j + 1, by omega, by omega, by omega, by omega, ?_, ?_, ?_, ?_, ?_, ?_,
      hg, ?_⟩
    · simp [di, tab, ty]
    · simp [dj, tab, tx]
    · simp [di, tab, ty]
    · simp [dj, tab, tx]
    · simp [offsets, e1]; omega
    · simp [offsets]; omega
    · exact (List.reverse_perm [(i + 1, j + 1), (i, j + 1), (i, j)])
  · obtain ⟨i, rfl⟩ : ∃ i', i = i' + 1 := ⟨i - 1, by omega⟩
    simp only [Tri.inGrid, triOf] at hg
    refine ⟨i + 1, j + 1, i, j, by omega, by omega, by omega, by omega, ?_, ?_, ?_, ?_, ?_, ?_,
      hg, ?_⟩
    · simp [di, tab, ty]
    · simp [dj, tab, tx]
    · simp [di, tab, ty]
    · simp [dj, tab, tx]
    · simp [offsets, e1]; omega
    · simp [offsets, e1]; omega
    · exact (List.Perm.cons _ (List.Perm.swap _ _ _)).trans (List.Perm.swap _ _ _)

/-- Every grid triangle containing the vertex is addressed by exactly one table row. -/
theorem incident_unique (r1 r2 i j : Nat) (t : Tri) (hi : i < r1) (hj : j < r2)
    (ht : t.inGrid r1 r2) (hv : (i, j) ∈ t.verts) :
    ∃ k, k < 6 ∧ inMesh r1 r2 i j k = true ∧ triOf i j k = t ∧
      ∀ k', k' < 6 → inMesh r1 r2 i j k' = true → triOf i j k' = t → k' = k := by
  obtain ⟨a, b, up⟩ := t
  have hk : ∃ k, k < 6 ∧ inMesh r1 r2 i j k = true ∧ triOf i j k = ⟨a, b, up⟩ := by
    cases up
    · simp only [Tri.verts, Bool.false_eq_true, if_false, List.mem_cons, Prod.mk.injEq,
        List.not_mem_nil, or_false] at hv
      rcases hv with ⟨rfl, rfl⟩ | ⟨rfl, rfl⟩ | ⟨rfl, rfl⟩
      · exact ⟨3, by omega, (inMesh_iff _ _ _ _ _ hi hj (by omega)).2 ⟨ht, by omega, by omega, by omega⟩, rfl⟩
      · exact ⟨5, by omega, (inMesh_iff _ _ _ _ _ hi hj (by omega)).2 ⟨ht, by omega, by omega, by omega⟩, rfl⟩
      · exact ⟨1, by omega, (inMesh_iff _ _ _ _ _ hi hj (by omega)).2 ⟨ht, by omega, by omega, by omega⟩, rfl⟩
    · simp only [Tri.verts, if_true, List.mem_cons, Prod.mk.injEq,
        List.not_mem_nil, or_false] at hv
      rcases hv with ⟨rfl, rfl⟩ | ⟨rfl, rfl⟩ | ⟨rfl, rfl⟩
      · exact ⟨4, by omega, (inMesh_iff _ _ _ _ _ hi hj (by omega)).2 ⟨ht, by omega, by omega, by omega⟩, rfl⟩
      · exact ⟨2, by omega, (inMesh_iff _ _ _ _ _ hi hj (by omega)).2 ⟨ht, by omega, by omega, by omega⟩, rfl⟩
      · exact ⟨0, by omega, (inMesh_iff _ _ _ _ _ hi hj (by omega)).2 ⟨ht, by omega, by omega, by omega⟩, rfl⟩
  obtain ⟨k, h1, h2, h3⟩ := hk
  refine ⟨k, h1, h2, h3, fun k' h1' h2' h3' => ?_⟩
  have h4 := (inMesh_iff _ _ _ _ _ hi hj h1).1 h2
  have h4' := (inMesh_iff _ _ _ _ _ hi hj h1').1 h2'
  rw [← h3] at h3'
  have hk' : k = 0 ∨ k = 1 ∨ k = 2 ∨ k = 3 ∨ k = 4 ∨ k = 5 := by omega
  have hk'' : k' = 0 ∨ k' = 1 ∨ k' = 2 ∨ k' = 3 ∨ k' = 4 ∨ k' = 5 := by omega
  rcases hk' with rfl | rfl | rfl | rfl | rfl | rfl <;>
    rcases hk'' with rfl | rfl | rfl | rfl | rfl | rfl <;>
    first
    | rfl
    | (simp [triOf] at h3' h4 h4'; omega)
    | (simp [triOf] at h3')

/-! ### The loop -/

theorem rd_nat {T : Type} (n : Nat) (f : Nat → T) (q : Nat) (h : q < n) :
    rd n f (q : Int) = some (f q) := by
  have : (0 : Int) ≤ q ∧ (q : Int) < n := by omega
  simp [rd, this]

theorem flat_lt (r1 r2 i j : Nat) (hi : i < r1) (hj : j < r2) : i * r2 + j < r1 * r2 := by
  have : (i + 1) * r2 ≤ r1 * r2 := Nat.mul_le_mul_right r2 hi
  rw [Nat.succ_mul] at this
  omega

/-- One iteration with in-mesh neighbours reads the two neighbours of the triangle. -/
theorem requiredLoop_cons {T D : Type} (r1 r2 : Nat) (minf : D → D → D)
    (derive : Nat → T → T → T → T → T → T → D) (m : Online2D.Field T) (i j k : Nat)
    (ks : List Nat) (req : D) (hi : i < r1) (hj : j < r2) (hk : k < 6) :
    requiredLoop r1 r2 minf derive m (i * r2 + j) (k :: ks) req =
      requiredLoop r1 r2 minf derive m (i * r2 + j) ks
        (if inMesh r1 r2 i j k then
          minf req (derive k
            (m.u (i * r2 + j + offsets r2 k).toNat) (m.u (i * r2 + j + offsets r2 (k + 1)).toNat)
            (m.u (i * r2 + j))
            (m.v (i * r2 + j + offsets r2 k).toNat) (m.v (i * r2 + j + offsets r2 (k + 1)).toNat)
            (m.v (i * r2 + j)))
        else req) := by
  have hdiv : (i * r2 + j) / r2 = i := by
    rw [Nat.mul_comm, Nat.mul_add_div (by omega), Nat.div_eq_of_lt hj]; rfl
  have hmod : (i * r2 + j) % r2 = j := by
    rw [Nat.mul_comm, Nat.mul_add_mod, Nat.mod_eq_of_lt hj]
  rw [requiredLoop, hdiv, hmod]
  by_cases h : inMesh r1 r2 i j k = true
  · obtain ⟨i0, j0, i1, j1, h1, h2, h3, h4, -, -, -, -, h5, h6, -, -⟩ :=
      neighbours r1 r2 i j k hi hj hk h
    have f0 := flat_lt r1 r2 i0 j0 h1 h2
    have f1 := flat_lt r1 r2 i1 j1 h3 h4
    have h5' : (i : Int) * r2 + j + offsets r2 k = ((i0 * r2 + j0 : Nat) : Int) := by
      rw [← h5]; push_cast; ring
    have h6' : (i : Int) * r2 + j + offsets r2 (k + 1) = ((i1 * r2 + j1 : Nat) : Int) := by
      rw [← h6]; push_cast; ring
    simp only [h, if_true, h5, h6, h5', h6', rd_nat _ _ _ f0, rd_nat _ _ _ f1, Int.toNat_natCast]
  · simp only [h, Bool.false_eq_true, if_false]

theorem requiredLoop_defined {T D : Type} (r1 r2 : Nat) (minf : D → D → D)
    (derive : Nat → T → T → T → T → T → T → D) (m : Online2D.Field T) (i j : Nat)
    (ks : List Nat) (hks : ∀ k ∈ ks, k < 6) (req : D) (hi : i < r1) (hj : j < r2) :
    (requiredLoop r1 r2 minf derive m (i * r2 + j) ks req).isSome := by
  induction ks generalizing req with
  | nil => rfl
  | cons k ks ih =>
    rw [requiredLoop_cons r1 r2 minf derive m i j k ks req hi hj (hks k (by simp))]
    exact ih (fun k' hk' => hks k' (by simp [hk'])) _

end Mesh2D
end CpSZ
