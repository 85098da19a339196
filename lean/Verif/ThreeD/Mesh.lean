import Verif.Mesh2D
import Mathlib.Tactic.IntervalCases
/-
The neighbour tables of the 3D compressors (src/sz_compress_cp_preserve_3d.cpp L9-255), the
numbering of cells by `compute_cp` (L1260-1303) and the loop over the tetrahedra around a
vertex (L819-837, L1351-1379).  The copies in the log mode and in the absolute mode only
differ in the body of the loop.  Positions in the code are `(i, j, k)` with `k` fastest; the
tables store them in reversed order `(x, y, z)`.
-/

namespace CpSZ

/-! ### Specification of the mesh -/

/-- A tetrahedron of the subdivision of a grid of cubes along main diagonals: cube `(a, b, c)`
and one of the six monotone paths of three edges from its first to its last corner. -/
structure Tet where
  a : Nat
  b : Nat
  c : Nat
  s : Nat
  deriving DecidableEq

/-- Position `(i, j, k)`. -/
abbrev Pos := Nat × Nat × Nat

def Pos.add (p q : Pos) : Pos := (p.1 + q.1, p.2.1 + q.2.1, p.2.2 + q.2.2)

/-- First and second edge of path `s`. -/
def pathEdges (s : Nat) : Pos × Pos :=
  let x : Pos := (0, 0, 1)
  let y : Pos := (0, 1, 0)
  let z : Pos := (1, 0, 0)
  [(z, y), (y, z), (z, x), (x, z), (y, x), (x, y)].getD s (x, y)

/-- The corners of path `s` in the unit cube. -/
def pathCorners (s : Nat) : List Pos :=
  let e := pathEdges s
  [(0, 0, 0), e.1, Pos.add e.1 e.2, (1, 1, 1)]

/-- The tetrahedron lies in the grid. -/
def Tet.inGrid (r1 r2 r3 : Nat) (t : Tet) : Prop :=
  t.a + 1 < r1 ∧ t.b + 1 < r2 ∧ t.c + 1 < r3 ∧ t.s < 6

/-- The corners. -/
def Tet.corners (t : Tet) : List Pos := (pathCorners t.s).map (Pos.add (t.a, t.b, t.c))

/-- Index in an array of the grid.  (src/sz_compress_cp_preserve_3d.cpp L250-254.) -/
def flat3 (r2 r3 : Nat) (p : Pos) : Nat := p.1 * (r2 * r3) + p.2.1 * r3 + p.2.2

/-- The vertex numbers. -/
def Tet.verts (r2 r3 : Nat) (t : Tet) : List Nat := t.corners.map (flat3 r2 r3)

/-! ### Model -/

namespace Mesh3D
open Mesh2D (inRange rd)

/-- `coordinates` (src/sz_compress_cp_preserve_3d.cpp L9-162), entries `(x, y, z)`. -/
def coordinates : List (List (Nat × Nat × Nat)) :=
  [[(0, 0, 1), (0, 1, 1), (1, 1, 1), (0, 0, 0)],
   [(0, 1, 0), (0, 1, 1), (1, 1, 1), (0, 0, 0)],
   [(0, 0, 1), (1, 0, 1), (1, 1, 1), (0, 0, 0)],
   [(1, 0, 0), (1, 0, 1), (1, 1, 1), (0, 0, 0)],
   [(0, 1, 0), (1, 1, 0), (1, 1, 1), (0, 0, 0)],
   [(1, 0, 0), (1, 1, 0), (1, 1, 1), (0, 0, 0)],
   [(0, 0, 0), (1, 0, 1), (1, 1, 1), (1, 0, 0)],
   [(0, 0, 0), (1, 1, 0), (1, 1, 1), (1, 0, 0)],
   [(0, 0, 0), (0, 1, 1), (1, 1, 1), (0, 1, 0)],
   [(0, 0, 0), (1, 1, 0), (1, 1, 1), (0, 1, 0)],
   [(0, 0, 0), (0, 1, 0), (1, 1, 1), (1, 1, 0)],
   [(0, 0, 0), (1, 0, 0), (1, 1, 1), (1, 1, 0)],
   [(0, 0, 0), (0, 1, 1), (1, 1, 1), (0, 0, 1)],
   [(0, 0, 0), (1, 0, 1), (1, 1, 1), (0, 0, 1)],
   [(0, 0, 0), (0, 0, 1), (1, 1, 1), (1, 0, 1)],
   [(0, 0, 0), (1, 0, 0), (1, 1, 1), (1, 0, 1)],
   [(0, 0, 0), (0, 0, 1), (1, 1, 1), (0, 1, 1)],
   [(0, 0, 0), (0, 1, 0), (1, 1, 1), (0, 1, 1)],
   [(0, 0, 0), (0, 0, 1), (0, 1, 1), (1, 1, 1)],
   [(0, 0, 0), (0, 1, 0), (0, 1, 1), (1, 1, 1)],
   [(0, 0, 0), (0, 0, 1), (1, 0, 1), (1, 1, 1)],
   [(0, 0, 0), (1, 0, 0), (1, 0, 1), (1, 1, 1)],
   [(0, 0, 0), (0, 1, 0), (1, 1, 0), (1, 1, 1)],
   [(0, 0, 0), (1, 0, 0), (1, 1, 0), (1, 1, 1)]]

/-- `coordinates[n][q]`.  (src/sz_compress_cp_preserve_3d.cpp L9-162.) -/
def coord (n q : Nat) : Nat × Nat × Nat := (coordinates.getD n []).getD q (0, 0, 0)

/-- `simplex_offset` (src/sz_compress_cp_preserve_3d.cpp L208-242); `cd0 = (r2-1)*(r3-1)`, `cd1 =
r3-1`. -/
def simplexOffset (cd0 cd1 : Int) : List Int :=
  [0, 1, 2, 3, 4, 5,
   -6 + 3, -6 + 5,
   -6 * cd1 + 1, -6 * cd1 + 4,
   -6 - 6 * cd1 + 4, -6 - 6 * cd1 + 5,
   -6 * cd0 + 0, -6 * cd0 + 2,
   -6 * cd0 - 6 + 2, -6 * cd0 - 6 + 3,
   -6 * cd1 - 6 * cd0 + 0, -6 * cd1 - 6 * cd0 + 1,
   -6 * cd0 - 6 * cd1 - 6 + 0, -6 * cd0 - 6 * cd1 - 6 + 1, -6 * cd0 - 6 * cd1 - 6 + 2,
   -6 * cd0 - 6 * cd1 - 6 + 3, -6 * cd0 - 6 * cd1 - 6 + 4, -6 * cd0 - 6 * cd1 - 6 + 5]

/-- `index_offset[n][q]` (src/sz_compress_cp_preserve_3d.cpp L243-249) as `(x, y, z)`. -/
def indexOffset (n q : Nat) : Int × Int × Int :=
  ((coord n q).1 - (coord n 3).1, (coord n q).2.1 - (coord n 3).2.1,
    (coord n q).2.2 - (coord n 3).2.2)

/-- `offset[n][q]` (src/sz_compress_cp_preserve_3d.cpp L250-254); `d0 = r2*r3`, `d1 = r3`. -/
def offset (d0 d1 : Int) (n q : Nat) : Int :=
  ((coord n q).1 - (coord n 3).1) + ((coord n q).2.1 - (coord n 3).2.1) * d1 +
    ((coord n q).2.2 - (coord n 3).2.2) * d0

/-- `in_mesh` (src/sz_compress_cp_preserve_3d.cpp L822-829). -/
def inMesh (r1 r2 r3 i j k n : Nat) : Bool :=
  (List.range 3).all fun q =>
    inRange (i + (indexOffset n q).2.2) r1 && inRange (j + (indexOffset n q).2.1) r2 &&
      inRange (k + (indexOffset n q).1) r3

/-- `index` (src/sz_compress_cp_preserve_3d.cpp L1365): the number of the cell in the critical
point bitmap.  (The log mode computes another number, L831, which is not used.)  The conversion to
`int` is not modelled. -/
def cellIndex (r2 r3 i j k n : Nat) : Int :=
  (simplexOffset (((r2 : Int) - 1) * (r3 - 1)) (r3 - 1)).getD n 0 +
    6 * (i * ((r2 : Int) - 1) * (r3 - 1) + j * (r3 - 1) + k)

/-- The corners passed to `check_cp` for cell `s` of cube `(i, j, k)`
(src/sz_compress_cp_preserve_3d.cpp L1277-1298). -/
def cpVerts (r2 r3 i j k s : Nat) : List Nat :=
  let at' (i j k : Nat) := i * (r2 * r3) + j * r3 + k
  let v0 := at' i j k
  let v3 := at' (i + 1) (j + 1) (k + 1)
  match s with
  | 0 => [v0, at' (i + 1) j k, at' (i + 1) (j + 1) k, v3]
  | 1 => [v0, at' i (j + 1) k, at' (i + 1) (j + 1) k, v3]
  | 2 => [v0, at' (i + 1) j k, at' (i + 1) j (k + 1), v3]
  | 3 => [v0, at' i j (k + 1), at' (i + 1) j (k + 1), v3]
  | 4 => [v0, at' i (j + 1) k, at' i (j + 1) (k + 1), v3]
  | _ => [v0, at' i j (k + 1), at' i (j + 1) (k + 1), v3]

/-- The assignments `cp_exist[cell_offset + s] = check_cp(v)` of `compute_cp` in order, as
pairs of cell number and corners (src/sz_compress_cp_preserve_3d.cpp L1270-1301). -/
def cpWrites (r1 r2 r3 : Nat) : List (Nat × List Nat) :=
  (List.range (r1 - 1)).flatMap fun i => (List.range (r2 - 1)).flatMap fun j =>
    (List.range (r3 - 1)).flatMap fun k => (List.range 6).map fun s =>
      (6 * (i * ((r2 - 1) * (r3 - 1)) + j * (r3 - 1) + k) + s, cpVerts r2 r3 i j k s)

/-- `compute_cp` for any cell test.  (src/sz_compress_cp_preserve_3d.cpp L1260-1303.) -/
def computeCp (check : List Nat → Bool) (r1 r2 r3 : Nat) : Nat → Bool :=
  (cpWrites r1 r2 r3).foldl (fun f w => fun q => if q = w.1 then check w.2 else f q)
    (fun _ => false)

/-- Read of all components at an index; out of bounds is undefined.
(src/sz_compress_cp_preserve_3d.cpp L831-835.) -/
def rdAll {T : Type} (N : Nat) (f : Nat → Nat → T) (idx : Int) : Option (Nat → T) :=
  if 0 ≤ idx ∧ idx < N then some (fun c => f c idx.toNat) else none

/-- The loop over the 24 tetrahedra (src/sz_compress_cp_preserve_3d.cpp L821-837, L1355-1378).
`body req index a b c d` is the statement inside `if(in_mesh)`: new bound and whether it breaks out
of the loop. -/
def loop3 {T D : Type} (r1 r2 r3 : Nat)
    (body : D → Int → (Nat → T) → (Nat → T) → (Nat → T) → (Nat → T) → D × Bool)
    (f : Nat → Nat → T) (i j k : Nat) : List Nat → D → Option D
  | [], req => some req
  | n :: ns, req =>
    if inMesh r1 r2 r3 i j k n then
      let p : Int := i * (r2 * r3) + j * r3 + k
      let off := offset (r2 * r3) r3 n
      match rdAll (r1 * r2 * r3) f (p + off 0), rdAll (r1 * r2 * r3) f (p + off 1),
        rdAll (r1 * r2 * r3) f (p + off 2), rdAll (r1 * r2 * r3) f p with
      | some a, some b, some c, some d =>
        match body req (cellIndex r2 r3 i j k n) a b c d with
        | (req', true) => some req'
        | (req', false) => loop3 r1 r2 r3 body f i j k ns req'
      | _, _, _, _ => none
    else loop3 r1 r2 r3 body f i j k ns req

/-- `required_eb` of vertex `p`, starting from `req`. 
(src/sz_compress_cp_preserve_3d.cpp L819-837.) -/
def required3 {T D : Type} (r1 r2 r3 : Nat)
    (body : D → Int → (Nat → T) → (Nat → T) → (Nat → T) → (Nat → T) → D × Bool)
    (f : Nat → Nat → T) (p : Nat) (req : D) : Option D :=
  loop3 r1 r2 r3 body f (p / (r2 * r3)) (p / r3 % r2) (p % r3) (List.range 24) req

/-! ### Facts about the tables -/

/-- The path of table row `n`. -/
def rowPath (n : Nat) : Nat :=
  [0, 1, 2, 3, 4, 5, 3, 5, 1, 4, 4, 5, 0, 2, 2, 3, 0, 1, 0, 1, 2, 3, 4, 5].getD n 0

/-- `coordinates[n][q]` as a position. -/
def pt (n q : Nat) : Pos := ((coord n q).2.2, (coord n q).2.1, (coord n q).1)

theorem row_perm : ∀ n, n < 24 →
    ([pt n 0, pt n 1, pt n 2, pt n 3].isPerm (pathCorners (rowPath n))) = true := by decide +kernel

theorem row_exists : ∀ s, s < 6 → ∀ v ∈ pathCorners s, ∃ n, n < 24 ∧ rowPath n = s ∧ pt n 3 = v := by
  decide +kernel

theorem row_unique : ∀ n, n < 24 → ∀ m, m < 24 → rowPath n = rowPath m → pt n 3 = pt m 3 → n = m := by
  decide +kernel

theorem row_path_lt : ∀ n, n < 24 → rowPath n < 6 := by decide +kernel

theorem row_le : ∀ n, n < 24 → ∀ q, q < 4 → (pt n q).1 ≤ 1 ∧ (pt n q).2.1 ≤ 1 ∧ (pt n q).2.2 ≤ 1 := by
  decide +kernel

/-- The first and the last corner of the cube are among the corners. -/
theorem row_ends : ∀ n, n < 24 →
    (pt n 3 = (0, 0, 0) ∨ ∃ q, q < 3 ∧ pt n q = (0, 0, 0)) ∧
    (pt n 3 = (1, 1, 1) ∨ ∃ q, q < 3 ∧ pt n q = (1, 1, 1)) := by decide +kernel

theorem corners_le : ∀ s, s < 6 → ∀ v ∈ pathCorners s, v.1 ≤ 1 ∧ v.2.1 ≤ 1 ∧ v.2.2 ≤ 1 := by
  decide +kernel

theorem simplexOffset_eq (cd0 cd1 : Int) : ∀ n, n < 24 →
    (simplexOffset cd0 cd1).getD n 0 =
      rowPath n - 6 * ((pt n 3).1 * cd0 + (pt n 3).2.1 * cd1 + (pt n 3).2.2) := by
  intro n hn
  interval_cases n <;> simp [simplexOffset, rowPath, pt, coord, coordinates] <;> ring

/-- The tetrahedron addressed by table row `n` at `(i, j, k)`. -/
def tetOf (i j k n : Nat) : Tet :=
  ⟨i - (pt n 3).1, j - (pt n 3).2.1, k - (pt n 3).2.2, rowPath n⟩

/-- The position of the vertex allows row `n`. -/
def rowFits (i j k n : Nat) : Prop := (pt n 3).1 ≤ i ∧ (pt n 3).2.1 ≤ j ∧ (pt n 3).2.2 ≤ k

theorem inMesh_iff (r1 r2 r3 i j k n : Nat) (hi : i < r1) (hj : j < r2) (hk : k < r3)
    (hn : n < 24) : inMesh r1 r2 r3 i j k n = true ↔
      rowFits i j k n ∧ (tetOf i j k n).inGrid r1 r2 r3 := by
  have hoff : ∀ q, (indexOffset n q).2.2 = (pt n q).1 - (pt n 3).1 ∧
      (indexOffset n q).2.1 = (pt n q).2.1 - (pt n 3).2.1 ∧
      (indexOffset n q).1 = (pt n q).2.2 - (pt n 3).2.2 := fun q => ⟨rfl, rfl, rfl⟩
  have hm : inMesh r1 r2 r3 i j k n = true ↔ ∀ q, q < 3 →
      (0 ≤ (i : Int) + ((pt n q).1 - (pt n 3).1) ∧ (i : Int) + ((pt n q).1 - (pt n 3).1) < r1) ∧
      (0 ≤ (j : Int) + ((pt n q).2.1 - (pt n 3).2.1) ∧
        (j : Int) + ((pt n q).2.1 - (pt n 3).2.1) < r2) ∧
      (0 ≤ (k : Int) + ((pt n q).2.2 - (pt n 3).2.2) ∧
        (k : Int) + ((pt n q).2.2 - (pt n 3).2.2) < r3) := by
    simp only [inMesh, List.all_eq_true, List.mem_range, Bool.and_eq_true, inRange,
      decide_eq_true_eq, (hoff _).1, (hoff _).2.1, (hoff _).2.2, and_assoc]
  rw [hm]
  have hl3 := row_le n hn 3 (by omega)
  obtain ⟨e0, e1⟩ := row_ends n hn
  have hs := row_path_lt n hn
  unfold rowFits Tet.inGrid tetOf
  simp only
  constructor
  · intro h
    have h0 : (pt n 3).1 ≤ i ∧ (pt n 3).2.1 ≤ j ∧ (pt n 3).2.2 ≤ k := by
      rcases e0 with e0 | ⟨q, hq, e0⟩
      · rw [e0]; exact ⟨Nat.zero_le _, Nat.zero_le _, Nat.zero_le _⟩
      · have := h q hq
        rw [e0] at this
        simp only at this
        omega
    have h1 : i + 1 < r1 + (pt n 3).1 ∧ j + 1 < r2 + (pt n 3).2.1 ∧ k + 1 < r3 + (pt n 3).2.2 := by
      rcases e1 with e1 | ⟨q, hq, e1⟩
      · rw [e1]; simp only; omega
      · have := h q hq
        rw [e1] at this
        simp only at this
        omega
    omega
  · intro h q hq
    have := row_le n hn q (by omega)
    omega

theorem flat3_lt (r1 r2 r3 : Nat) (p : Pos) (h1 : p.1 < r1) (h2 : p.2.1 < r2) (h3 : p.2.2 < r3) :
    flat3 r2 r3 p < r1 * r2 * r3 := by
  unfold flat3
  have a : p.2.1 * r3 + p.2.2 < r2 * r3 := Mesh2D.flat_lt r2 r3 _ _ h2 h3
  have b : (p.1 + 1) * (r2 * r3) ≤ r1 * (r2 * r3) := Nat.mul_le_mul_right _ h1
  rw [Nat.succ_mul] at b
  rw [Nat.mul_assoc]
  omega

/-- Flat offsets agree with position offsets. -/
theorem offset_flat (r2 r3 i j k n q : Nat) (hf : rowFits i j k n) :
    ((flat3 r2 r3 (i, j, k) : Nat) : Int) + offset (r2 * r3) r3 n q =
      (flat3 r2 r3 (Pos.add (i - (pt n 3).1, j - (pt n 3).2.1, k - (pt n 3).2.2) (pt n q)) : Nat) := by
  obtain ⟨h1, h2, h3⟩ := hf
  obtain ⟨a, ha⟩ : ∃ a, i = a + (pt n 3).1 := ⟨i - (pt n 3).1, by omega⟩
  obtain ⟨b, hb⟩ : ∃ b, j = b + (pt n 3).2.1 := ⟨j - (pt n 3).2.1, by omega⟩
  obtain ⟨c, hc⟩ : ∃ c, k = c + (pt n 3).2.2 := ⟨k - (pt n 3).2.2, by omega⟩
  rw [show i - (pt n 3).1 = a by omega, show j - (pt n 3).2.1 = b by omega,
    show k - (pt n 3).2.2 = c by omega, ha, hb, hc]
  simp only [flat3, Pos.add, offset, pt]
  push_cast
  ring

theorem self_flat (i j k n : Nat) (hf : rowFits i j k n) :
    Pos.add (i - (pt n 3).1, j - (pt n 3).2.1, k - (pt n 3).2.2) (pt n 3) = (i, j, k) := by
  obtain ⟨h1, h2, h3⟩ := hf
  simp only [Pos.add, Nat.sub_add_cancel h1, Nat.sub_add_cancel h2, Nat.sub_add_cancel h3]

/-- The corner `q` of row `n` seen from `(i, j, k)`. -/
def nb (i j k n q : Nat) : Pos :=
  Pos.add (i - (pt n 3).1, j - (pt n 3).2.1, k - (pt n 3).2.2) (pt n q)

/-- In-mesh rows address the corners of a tetrahedron of the grid. -/
theorem neighbours (r1 r2 r3 i j k n : Nat) (hi : i < r1) (hj : j < r2) (hk : k < r3)
    (hn : n < 24) (h : inMesh r1 r2 r3 i j k n = true) :
    (tetOf i j k n).inGrid r1 r2 r3 ∧
    (tetOf i j k n).corners.Perm [nb i j k n 0, nb i j k n 1, nb i j k n 2, (i, j, k)] ∧
    (∀ q, q < 3 → ((flat3 r2 r3 (i, j, k) : Nat) : Int) + offset (r2 * r3) r3 n q =
      (flat3 r2 r3 (nb i j k n q) : Nat) ∧ flat3 r2 r3 (nb i j k n q) < r1 * r2 * r3 ∧
      (nb i j k n q).1 < r1 ∧ (nb i j k n q).2.1 < r2 ∧ (nb i j k n q).2.2 < r3) := by
  obtain ⟨hf, hg⟩ := (inMesh_iff r1 r2 r3 i j k n hi hj hk hn).1 h
  refine ⟨hg, ?_, fun q hq => ?_⟩
  · have hp := (List.isPerm_iff.1 (row_perm n hn)).map
      (Pos.add (i - (pt n 3).1, j - (pt n 3).2.1, k - (pt n 3).2.2))
    simp only [List.map_cons, List.map_nil, self_flat i j k n hf] at hp
    exact hp.symm
  · have hl := row_le n hn q (by omega)
    have hb : (nb i j k n q).1 < r1 ∧ (nb i j k n q).2.1 < r2 ∧ (nb i j k n q).2.2 < r3 := by
      obtain ⟨g1, g2, g3, -⟩ := hg
      simp only [tetOf] at g1 g2 g3
      simp only [nb, Pos.add]
      omega
    exact ⟨offset_flat r2 r3 i j k n q hf, flat3_lt r1 r2 r3 _ hb.1 hb.2.1 hb.2.2, hb⟩

/-- Every tetrahedron of the grid containing the vertex is addressed by exactly one row. -/
theorem incident_unique (r1 r2 r3 i j k : Nat) (t : Tet) (hi : i < r1) (hj : j < r2) (hk : k < r3)
    (ht : t.inGrid r1 r2 r3) (hv : (i, j, k) ∈ t.corners) :
    ∃ n, n < 24 ∧ inMesh r1 r2 r3 i j k n = true ∧ tetOf i j k n = t ∧
      ∀ m, m < 24 → inMesh r1 r2 r3 i j k m = true → tetOf i j k m = t → m = n := by
  obtain ⟨v, hv, he⟩ := List.mem_map.1 hv
  obtain ⟨n, hn, h1, h2⟩ := row_exists t.s ht.2.2.2 v hv
  simp only [Pos.add, Prod.mk.injEq] at he
  obtain ⟨e1, e2, e3⟩ := he
  have hf : rowFits i j k n := by
    unfold rowFits; rw [h2]; omega
  have htet : tetOf i j k n = t := by
    unfold tetOf
    rw [h2, h1, ← e1, ← e2, ← e3]
    simp
  refine ⟨n, hn, (inMesh_iff r1 r2 r3 i j k n hi hj hk hn).2 ⟨hf, by rw [htet]; exact ht⟩, htet, ?_⟩
  intro m hm hmm hmt
  obtain ⟨hf', -⟩ := (inMesh_iff r1 r2 r3 i j k m hi hj hk hm).1 hmm
  rw [← htet] at hmt
  simp only [tetOf, Tet.mk.injEq] at hmt
  obtain ⟨a1, a2, a3, a4⟩ := hmt
  obtain ⟨b1, b2, b3⟩ := hf
  obtain ⟨c1, c2, c3⟩ := hf'
  refine row_unique m hm n hn a4 (Prod.ext (by omega) (Prod.ext ?_ ?_))
  · show (pt m 3).2.1 = (pt n 3).2.1; omega
  · show (pt m 3).2.2 = (pt n 3).2.2; omega

/-! ### Cell numbers -/

/-- The number which `compute_cp` gives to a cell (src/sz_compress_cp_preserve_3d.cpp L1275). -/
def cellNo (r2 r3 : Nat) (t : Tet) : Nat :=
  6 * (t.a * ((r2 - 1) * (r3 - 1)) + t.b * (r3 - 1) + t.c) + t.s

theorem cpVerts_eq (r2 r3 i j k s : Nat) (hs : s < 6) :
    cpVerts r2 r3 i j k s = (⟨i, j, k, s⟩ : Tet).verts r2 r3 := by
  interval_cases s <;>
    simp [cpVerts, Tet.verts, Tet.corners, pathCorners, pathEdges, Pos.add, flat3]

theorem cellNo_lt (r1 r2 r3 : Nat) (t : Tet) (ht : t.inGrid r1 r2 r3) :
    cellNo r2 r3 t < 6 * ((r1 - 1) * (r2 - 1) * (r3 - 1)) := by
  obtain ⟨h1, h2, h3, h4⟩ := ht
  have := flat3_lt (r1 - 1) (r2 - 1) (r3 - 1) (t.a, t.b, t.c) (by simp only; omega)
    (by simp only; omega) (by simp only; omega)
  simp only [flat3] at this
  unfold cellNo
  omega

theorem flat3_inj {r2 r3 : Nat} {p q : Pos} (h2 : p.2.1 < r2) (h3 : p.2.2 < r3) (h2' : q.2.1 < r2)
    (h3' : q.2.2 < r3) (h : flat3 r2 r3 p = flat3 r2 r3 q) : p = q := by
  obtain ⟨i, j, k⟩ := p
  obtain ⟨i', j', k'⟩ := q
  simp only at h2 h3 h2' h3'
  simp only [flat3] at h
  have a : j * r3 + k < r2 * r3 := Mesh2D.flat_lt r2 r3 _ _ h2 h3
  have a' : j' * r3 + k' < r2 * r3 := Mesh2D.flat_lt r2 r3 _ _ h2' h3'
  have hpos : 0 < r2 * r3 := by omega
  have hi : i = i' := by
    have e : ∀ x y : Nat, y < r2 * r3 → (x * (r2 * r3) + y) / (r2 * r3) = x := by
      intro x y hy
      rw [Nat.mul_comm x, Nat.mul_add_div hpos, Nat.div_eq_of_lt hy]; rfl
    have := congrArg (· / (r2 * r3)) h
    simp only [Nat.add_assoc] at this
    rwa [e i _ a, e i' _ a'] at this
  subst hi
  have h : j * r3 + k = j' * r3 + k' := by omega
  have hpos3 : 0 < r3 := by omega
  have hj : j = j' := by
    have e : ∀ x y : Nat, y < r3 → (x * r3 + y) / r3 = x := by
      intro x y hy
      rw [Nat.mul_comm x, Nat.mul_add_div hpos3, Nat.div_eq_of_lt hy]; rfl
    have : (j * r3 + k) / r3 = (j' * r3 + k') / r3 := congrArg (· / r3) h
    rwa [e j _ h3, e j' _ h3'] at this
  subst hj
  have : k = k' := by omega
  rw [this]

theorem cellNo_inj {r1 r2 r3 : Nat} {t u : Tet} (ht : t.inGrid r1 r2 r3) (hu : u.inGrid r1 r2 r3)
    (h : cellNo r2 r3 t = cellNo r2 r3 u) : t = u := by
  obtain ⟨a1, a2, a3, a4⟩ := ht
  obtain ⟨b1, b2, b3, b4⟩ := hu
  unfold cellNo at h
  have hs : t.s = u.s := by omega
  have hf : flat3 (r2 - 1) (r3 - 1) (t.a, t.b, t.c) = flat3 (r2 - 1) (r3 - 1) (u.a, u.b, u.c) := by
    simp only [flat3]; omega
  have := flat3_inj (by simp only; omega) (by simp only; omega) (by simp only; omega)
    (by simp only; omega) hf
  simp only [Prod.mk.injEq] at this
  obtain ⟨ta, tb, tc, ts⟩ := t
  obtain ⟨ua, ub, uc, us⟩ := u
  simp only at this hs
  simp [this, hs]

theorem foldl_update {β : Type} (g : β → Nat) (v : β → Bool) (l : List β) (f : Nat → Bool) (q : Nat)
    (b : Bool) (hmem : ∀ w ∈ l, g w = q → v w = b) (h0 : (∃ w ∈ l, g w = q) ∨ f q = b) :
    l.foldl (fun f w => fun q => if q = g w then v w else f q) f q = b := by
  induction l generalizing f with
  | nil =>
    rcases h0 with ⟨w, hw, -⟩ | h
    · cases hw
    · exact h
  | cons w l ih =>
    rw [List.foldl_cons]
    apply ih
    · exact fun w' hw' => hmem w' (List.mem_cons_of_mem _ hw')
    · by_cases hq : q = g w
      · right; simp only [hq, if_true]; exact hmem w (List.mem_cons_self ..) hq.symm
      · rcases h0 with ⟨w', hw', hg⟩ | h
        · rcases List.mem_cons.1 hw' with rfl | hw'
          · exact absurd hg.symm hq
          · exact Or.inl ⟨w', hw', hg⟩
        · right; simp only [hq, if_false]; exact h

theorem mem_cpWrites {r1 r2 r3 : Nat} {w : Nat × List Nat} : w ∈ cpWrites r1 r2 r3 ↔
    ∃ t : Tet, t.inGrid r1 r2 r3 ∧ w = (cellNo r2 r3 t, t.verts r2 r3) := by
  simp only [cpWrites, List.mem_flatMap, List.mem_range, List.mem_map]
  constructor
  · rintro ⟨i, hi, j, hj, k, hk, s, hs, rfl⟩
    exact ⟨⟨i, j, k, s⟩, ⟨by simp only; omega, by simp only; omega, by simp only; omega, hs⟩,
      by rw [cpVerts_eq r2 r3 i j k s hs]; rfl⟩
  · rintro ⟨⟨i, j, k, s⟩, ⟨h1, h2, h3, h4⟩, rfl⟩
    simp only at h1 h2 h3 h4
    exact ⟨i, by omega, j, by omega, k, by omega, s, h4, by
      rw [cpVerts_eq r2 r3 i j k s h4]; rfl⟩

/-- The bitmap holds for each cell the result of the test on its corners. -/
theorem computeCp_cell (check : List Nat → Bool) (r1 r2 r3 : Nat) (t : Tet)
    (ht : t.inGrid r1 r2 r3) :
    computeCp check r1 r2 r3 (cellNo r2 r3 t) = check (t.verts r2 r3) := by
  unfold computeCp
  apply foldl_update (fun w : Nat × List Nat => w.1) (fun w => check w.2)
  · intro w hw hq
    obtain ⟨u, hu, rfl⟩ := mem_cpWrites.1 hw
    rw [cellNo_inj hu ht hq]
  · exact Or.inl ⟨_, mem_cpWrites.2 ⟨t, ht, rfl⟩, rfl⟩

theorem cellIndex_eq (r1 r2 r3 i j k n : Nat) (hn : n < 24) (hf : rowFits i j k n)
    (hg : (tetOf i j k n).inGrid r1 r2 r3) :
    cellIndex r2 r3 i j k n = (cellNo r2 r3 (tetOf i j k n) : Nat) := by
  obtain ⟨g1, g2, g3, -⟩ := hg
  simp only [tetOf] at g1 g2 g3
  obtain ⟨h1, h2, h3⟩ := hf
  unfold cellIndex cellNo tetOf
  rw [simplexOffset_eq _ _ n hn]
  simp only
  have e2 : ((r2 - 1 : Nat) : Int) = (r2 : Int) - 1 := by omega
  have e3 : ((r3 - 1 : Nat) : Int) = (r3 : Int) - 1 := by omega
  push_cast [Nat.cast_sub h1, Nat.cast_sub h2, Nat.cast_sub h3]
  rw [e2, e3]
  ring

/-! ### The loop -/

theorem split3 {r1 r2 r3 p : Nat} (hp : p < r1 * r2 * r3) :
    p / (r2 * r3) < r1 ∧ p / r3 % r2 < r2 ∧ p % r3 < r3 ∧
      flat3 r2 r3 (p / (r2 * r3), p / r3 % r2, p % r3) = p := by
  have hpos : 0 < r1 * r2 * r3 := by omega
  have h3 : 0 < r3 := Nat.pos_of_mul_pos_left hpos
  have h12 : 0 < r1 * r2 := Nat.pos_of_mul_pos_right hpos
  have h2 : 0 < r2 := Nat.pos_of_mul_pos_left h12
  refine ⟨?_, Nat.mod_lt _ h2, Nat.mod_lt _ h3, ?_⟩
  · rw [Nat.div_lt_iff_lt_mul (Nat.mul_pos h2 h3), ← Nat.mul_assoc]; exact hp
  · simp only [flat3]
    have e1 : p / (r2 * r3) = p / r3 / r2 := by rw [Nat.mul_comm, Nat.div_div_eq_div_mul]
    have e2 : p / r3 / r2 * r2 + p / r3 % r2 = p / r3 := Nat.div_add_mod' _ _
    have e3 : p / r3 * r3 + p % r3 = p := Nat.div_add_mod' _ _
    calc p / (r2 * r3) * (r2 * r3) + p / r3 % r2 * r3 + p % r3
        = (p / r3 / r2 * r2 + p / r3 % r2) * r3 + p % r3 := by rw [e1]; ring
      _ = p := by rw [e2, e3]

theorem rdAll_nat {T : Type} {N : Nat} {f : Nat → Nat → T} {q : Nat} (h : q < N) :
    rdAll N f (q : Int) = some (fun c => f c q) := by
  have : (0 : Int) ≤ q ∧ (q : Int) < N := by omega
  simp [rdAll, this]

section loop
variable {T D : Type} {r1 r2 r3 : Nat}
  {body : D → Int → (Nat → T) → (Nat → T) → (Nat → T) → (Nat → T) → D × Bool}
  {f : Nat → Nat → T} {i j k : Nat}

/-- One iteration reads the corners of the tetrahedron and its cell number. -/
theorem loop3_cons (hi : i < r1) (hj : j < r2) (hk : k < r3) {n : Nat} (hn : n < 24)
    (ns : List Nat) (req : D) (h : inMesh r1 r2 r3 i j k n = true) :
    loop3 r1 r2 r3 body f i j k (n :: ns) req =
      match body req (cellNo r2 r3 (tetOf i j k n) : Nat)
        (fun c => f c (flat3 r2 r3 (nb i j k n 0))) (fun c => f c (flat3 r2 r3 (nb i j k n 1)))
        (fun c => f c (flat3 r2 r3 (nb i j k n 2))) (fun c => f c (flat3 r2 r3 (i, j, k))) with
      | (req', true) => some req'
      | (req', false) => loop3 r1 r2 r3 body f i j k ns req' := by
  obtain ⟨hf, hg⟩ := (inMesh_iff r1 r2 r3 i j k n hi hj hk hn).1 h
  obtain ⟨-, -, hq⟩ := neighbours r1 r2 r3 i j k n hi hj hk hn h
  have hp : (i : Int) * (r2 * r3) + j * r3 + k = (flat3 r2 r3 (i, j, k) : Nat) := by
    simp only [flat3]; push_cast; ring
  rw [loop3, if_pos h]
  simp only [hp, (hq 0 (by omega)).1, (hq 1 (by omega)).1, (hq 2 (by omega)).1,
    rdAll_nat (hq 0 (by omega)).2.1, rdAll_nat (hq 1 (by omega)).2.1,
    rdAll_nat (hq 2 (by omega)).2.1,
    rdAll_nat (flat3_lt r1 r2 r3 (i, j, k) hi hj hk), cellIndex_eq r1 r2 r3 i j k n hn hf hg]

theorem loop3_defined (hi : i < r1) (hj : j < r2) (hk : k < r3) (ns : List Nat)
    (hns : ∀ n ∈ ns, n < 24) (req : D) : (loop3 r1 r2 r3 body f i j k ns req).isSome := by
  induction ns generalizing req with
  | nil => rfl
  | cons n ns ih =>
    have ih := ih (fun m hm => hns m (List.mem_cons_of_mem _ hm))
    by_cases h : inMesh r1 r2 r3 i j k n = true
    · rw [loop3_cons hi hj hk (hns n (List.mem_cons_self ..)) ns req h]
      split
      · rfl
      · exact ih _
    · rw [loop3, if_neg h]; exact ih _

theorem required3_defined {p : Nat} (hp : p < r1 * r2 * r3) (req : D) :
    (required3 r1 r2 r3 body f p req).isSome := by
  obtain ⟨h1, h2, h3, -⟩ := split3 hp
  exact loop3_defined h1 h2 h3 _ (fun n hn => List.mem_range.1 hn) req

end loop

end Mesh3D
end CpSZ
