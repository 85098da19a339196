import Verif.ThreeD.Grid
/-
Property C26 (tetrahedra around a vertex).
-/

namespace CpSZ.Mesh3D

/-- C26.  For every grid and every vertex, the in-mesh rows of the table of 24 stand for
tetrahedra of the six-tetrahedra subdivision (`τ`): the addresses `p + offset[n][q]` are the
array positions of the other three corners, inside the arrays; the number used for the bitmap
is inside the bitmap and the bitmap computation has stored the test of that cell there; and
every tetrahedron that contains the vertex is the value of exactly one in-mesh row. -/
theorem C26_incident_tetrahedra (r1 r2 r3 i j k : Nat) (hi : i < r1) (hj : j < r2) (hk : k < r3) :
    ∃ τ : Nat → Tet,
      (∀ n, n < 24 → inMesh r1 r2 r3 i j k n = true →
        (τ n).inGrid r1 r2 r3 ∧
        (∃ v0 v1 v2 : Pos, (τ n).corners.Perm [v0, v1, v2, (i, j, k)] ∧
          (flat3 r2 r3 (i, j, k) : Int) + offset (r2 * r3) r3 n 0 = flat3 r2 r3 v0 ∧
          (flat3 r2 r3 (i, j, k) : Int) + offset (r2 * r3) r3 n 1 = flat3 r2 r3 v1 ∧
          (flat3 r2 r3 (i, j, k) : Int) + offset (r2 * r3) r3 n 2 = flat3 r2 r3 v2 ∧
          flat3 r2 r3 v0 < r1 * r2 * r3 ∧ flat3 r2 r3 v1 < r1 * r2 * r3 ∧
          flat3 r2 r3 v2 < r1 * r2 * r3) ∧
        (∃ no : Nat, cellIndex r2 r3 i j k n = no ∧ no < 6 * ((r1 - 1) * (r2 - 1) * (r3 - 1)) ∧
          ∀ check, computeCp check r1 r2 r3 no = check ((τ n).verts r2 r3))) ∧
      (∀ t : Tet, t.inGrid r1 r2 r3 → (i, j, k) ∈ t.corners →
        ∃! n, n < 24 ∧ inMesh r1 r2 r3 i j k n = true ∧ τ n = t) := by
  refine ⟨tetOf i j k, fun n hn h => ?_, fun t ht hm => ?_⟩
  · obtain ⟨h1, h2, h3⟩ := neighbours r1 r2 r3 i j k n hi hj hk hn h
    obtain ⟨hf, -⟩ := (inMesh_iff r1 r2 r3 i j k n hi hj hk hn).1 h
    refine ⟨h1, ⟨_, _, _, h2, (h3 0 (by omega)).1, (h3 1 (by omega)).1, (h3 2 (by omega)).1,
      (h3 0 (by omega)).2.1, (h3 1 (by omega)).2.1, (h3 2 (by omega)).2.1⟩,
      _, cellIndex_eq r1 r2 r3 i j k n hn hf h1, cellNo_lt r1 r2 r3 _ h1,
      fun check => computeCp_cell check r1 r2 r3 _ h1⟩
  · obtain ⟨n, hn, h1, h2, h3⟩ := incident_unique r1 r2 r3 i j k t hi hj hk ht hm
    exact ⟨n, ⟨hn, h1, h2⟩, fun m ⟨hm1, hm2, hm3⟩ => h3 m hm1 hm2 hm3⟩

/-- C26, second part.  The loop over the table never reads outside the arrays, whatever is
computed from the values read (`none` stands for a read outside). -/
theorem C26_loop_in_bounds {T D : Type} (r1 r2 r3 p : Nat) (hp : p < r1 * r2 * r3)
    (body : D → Int → (Nat → T) → (Nat → T) → (Nat → T) → (Nat → T) → D × Bool)
    (f : Nat → Nat → T) (req : D) : (required3 r1 r2 r3 body f p req).isSome :=
  required3_defined hp req

/-- C26, third part.  Different cells have different numbers in the bitmap. -/
theorem C26_cell_numbers_distinct (r1 r2 r3 : Nat) (check : List Nat → Bool) (t u : Tet)
    (ht : t.inGrid r1 r2 r3) (hu : u.inGrid r1 r2 r3) (htu : t ≠ u) :
    ∃ a b : Nat, a ≠ b ∧ computeCp check r1 r2 r3 a = check (t.verts r2 r3) ∧
      computeCp check r1 r2 r3 b = check (u.verts r2 r3) :=
  ⟨cellNo r2 r3 t, cellNo r2 r3 u, fun h => htu (cellNo_inj ht hu h),
    computeCp_cell check r1 r2 r3 t ht, computeCp_cell check r1 r2 r3 u hu⟩

/-- C26, fourth part.  The reads of the 3D predictor are inside the arrays. -/
theorem C26_predictor_in_bounds (r1 r2 r3 p : Nat) (hp : p < r1 * r2 * r3) :
    (p / (r2 * r3) ≠ 0 → r2 * r3 ≤ p) ∧ (p / r3 % r2 ≠ 0 → r3 ≤ p) ∧ (p % r3 ≠ 0 → 1 ≤ p) ∧
    (p / (r2 * r3) ≠ 0 → p / r3 % r2 ≠ 0 → r2 * r3 + r3 ≤ p) ∧
    (p / (r2 * r3) ≠ 0 → p % r3 ≠ 0 → r2 * r3 + 1 ≤ p) ∧
    (p / r3 % r2 ≠ 0 → p % r3 ≠ 0 → r3 + 1 ≤ p) ∧
    (p / (r2 * r3) ≠ 0 → p / r3 % r2 ≠ 0 → p % r3 ≠ 0 → r2 * r3 + r3 + 1 ≤ p) :=
  ThreeD.lorenzo3_inBounds hp

/-- On a 2 by 2 by 2 grid the first vertex is in all six tetrahedra, on a 3 by 3 by 3 grid the
middle vertex is in 24. -/
example : ((List.range 24).filter (inMesh 2 2 2 0 0 0)).length = 6 ∧
    ((List.range 24).filter (inMesh 3 3 3 1 1 1)).length = 24 ∧
    (⟨0, 0, 0, 3⟩ : Tet).inGrid 2 2 2 ∧ ((0, 0, 0) : Pos) ∈ (⟨0, 0, 0, 3⟩ : Tet).corners := by
  refine ⟨by decide +kernel, by decide +kernel, ⟨by decide, by decide, by decide, by decide⟩, ?_⟩
  simp [Tet.corners, pathCorners, Pos.add]

end CpSZ.Mesh3D
