import Verif.Bound2D
import Verif.Online2D.Lockstep
/-
The 2D online modes in exact arithmetic: from the bound of a single triangle to the whole
mesh, and from one vertex update to the whole sweep.
-/

namespace CpSZ
namespace Mesh2D

/-- `get_adjugate_matrix_for_position` (src/sz_compress_cp_preserve_2d.cpp L52-61) applied to row
`k` of the tables (L591-594): the constants `inv_C[k][0..3]`. -/
noncomputable def invC (k q : Nat) : ℝ :=
  let x := fun i => ((tab tx k i : Int) : ℝ)
  let y := fun i => ((tab ty k i : Int) : ℝ)
  let det := (x 0 - x 2) * (y 1 - y 2) - (x 1 - x 2) * (y 0 - y 2)
  match q with
  | 0 => (y 1 - y 2) / det
  | 1 => -(y 0 - y 2) / det
  | 2 => -(x 1 - x 2) / det
  | _ => (x 0 - x 2) / det

/-- The six determinants are not zero. -/
def detK (k : Nat) : ℝ := (dj k 0 : ℝ) * di k 1 - (dj k 1 : ℝ) * di k 0

theorem detK_ne (k : Nat) (hk : k < 6) : detK k ≠ 0 := by
  have hk' : k = 0 ∨ k = 1 ∨ k = 2 ∨ k = 3 ∨ k = 4 ∨ k = 5 := by omega
  rcases hk' with rfl | rfl | rfl | rfl | rfl | rfl <;>
    norm_num [detK, dj, di, tab, tx, ty]

theorem invC_eq (k : Nat) :
    invC k 0 = di k 1 / detK k ∧ invC k 1 = -di k 0 / detK k ∧
    invC k 2 = -dj k 1 / detK k ∧ invC k 3 = dj k 0 / detK k := by
  simp only [invC, detK, di, dj]
  push_cast
  exact ⟨rfl, rfl, rfl, rfl⟩

theorem invC_m_ne (k : Nat) (hk : k < 6) : invC k 1 * invC k 2 - invC k 0 * invC k 3 ≠ 0 := by
  obtain ⟨h0, h1, h2, h3⟩ := invC_eq k
  have hd := detK_ne k hk
  have : invC k 1 * invC k 2 - invC k 0 * invC k 3 = -1 / detK k := by
    rw [h0, h1, h2, h3]
    field_simp
    unfold detK; ring
  rw [this]
  exact div_ne_zero (by norm_num) hd

theorem invC_sum_ne (k : Nat) (hk : k < 6) :
    invC k 0 + invC k 1 ≠ 0 ∨ invC k 2 + invC k 3 ≠ 0 := by
  have hk' : k = 0 ∨ k = 1 ∨ k = 2 ∨ k = 3 ∨ k = 4 ∨ k = 5 := by omega
  rcases hk' with rfl | rfl | rfl | rfl | rfl | rfl <;>
    norm_num [invC, tab, tx, ty]

/-- Index of the neighbours of vertex `p` in table row `k`. -/
def nbr (r2 p k : Nat) : Nat := ((p : Int) + offsets r2 k).toNat

theorem flat_inj {r2 i j a b : Nat} (hj : j < r2) (hb : b < r2)
    (h : i * r2 + j = a * r2 + b) : i = a ∧ j = b := by
  have h1 : (i * r2 + j) / r2 = i := by
    rw [Nat.mul_comm, Nat.mul_add_div (by omega), Nat.div_eq_of_lt hj]; rfl
  have h2 : (a * r2 + b) / r2 = a := by
    rw [Nat.mul_comm, Nat.mul_add_div (by omega), Nat.div_eq_of_lt hb]; rfl
  have h3 : (i * r2 + j) % r2 = j := by
    rw [Nat.mul_comm, Nat.mul_add_mod, Nat.mod_eq_of_lt hj]
  have h4 : (a * r2 + b) % r2 = b := by
    rw [Nat.mul_comm, Nat.mul_add_mod, Nat.mod_eq_of_lt hb]
  rw [h] at h1 h3
  exact ⟨h1.symm.trans h2, h3.symm.trans h4⟩

/-- `J` solves the two edge equations used by table row `k` (flat form). -/
def JacEq (k : Nat) (u0 u1 u2 v0 v1 v2 : ℝ) (J : Jac) : Prop :=
  u0 - u2 = J.ux * dj k 0 + J.uy * di k 0 ∧ u1 - u2 = J.ux * dj k 1 + J.uy * di k 1 ∧
  v0 - v2 = J.vx * dj k 0 + J.vy * di k 0 ∧ v1 - v2 = J.vx * dj k 1 + J.vy * di k 1

theorem JacEq.trC {k : Nat} (hk : k < 6) {u0 u1 u2 v0 v1 v2 : ℝ} {J : Jac}
    (h : JacEq k u0 u1 u2 v0 v1 v2 J) :
    J.tr = CpSZ.trC (invC k 0) (invC k 1) (invC k 2) (invC k 3) u0 u1 u2 v0 v1 v2 ∧
    J.det = detC (invC k 0) (invC k 1) (invC k 2) (invC k 3) u0 u1 u2 v0 v1 v2 := by
  obtain ⟨h1, h2, h3, h4⟩ := h
  obtain ⟨e0, e1, e2, e3⟩ := invC_eq k
  have hd := detK_ne k hk
  constructor
  · unfold CpSZ.trC Jac.tr
    rw [e0, e1, e2, e3, h1, h2, h3, h4]
    field_simp
    unfold detK; ring
  · unfold detC Jac.det
    have hM : (u2 * v0 - u0 * v2) + (u1 * v2 - u2 * v1) + (u0 * v1 - u1 * v0) =
        (u0 - u2) * (v1 - v2) - (u1 - u2) * (v0 - v2) := by ring
    rw [hM, h1, h2, h3, h4, e0, e1, e2, e3]
    field_simp
    unfold detK; ring

theorem JacEq.exists {k : Nat} (hk : k < 6) (u0 u1 u2 v0 v1 v2 : ℝ) :
    ∃ J, JacEq k u0 u1 u2 v0 v1 v2 J := by
  have hd := detK_ne k hk
  refine ⟨⟨((u0 - u2) * di k 1 - (u1 - u2) * di k 0) / detK k,
    ((u1 - u2) * dj k 0 - (u0 - u2) * dj k 1) / detK k,
    ((v0 - v2) * di k 1 - (v1 - v2) * di k 0) / detK k,
    ((v1 - v2) * dj k 0 - (v0 - v2) * dj k 1) / detK k⟩, ?_, ?_, ?_, ?_⟩ <;>
  · simp only
    field_simp
    unfold detK; ring

/-- What a triangle addressed by row `k` is, in terms of flat indices. -/
theorem tri_flat (r1 r2 i j k : Nat) (hi : i < r1) (hj : j < r2) (hk : k < 6)
    (h : inMesh r1 r2 i j k = true) :
    nbr r2 (i * r2 + j) k < r1 * r2 ∧ nbr r2 (i * r2 + j) (k + 1) < r1 * r2 ∧
    nbr r2 (i * r2 + j) k ≠ i * r2 + j ∧ nbr r2 (i * r2 + j) (k + 1) ≠ i * r2 + j ∧
    (∀ f : Online2D.Field ℝ, (triOf i j k).hasCP r2 f ↔
      HasCP (f.u (nbr r2 (i * r2 + j) k), f.v (nbr r2 (i * r2 + j) k))
        (f.u (nbr r2 (i * r2 + j) (k + 1)), f.v (nbr r2 (i * r2 + j) (k + 1)))
        (f.u (i * r2 + j), f.v (i * r2 + j))) ∧
    (∀ (f : Online2D.Field ℝ) (J : Jac), (triOf i j k).isJac r2 f J ↔
      JacEq k (f.u (nbr r2 (i * r2 + j) k)) (f.u (nbr r2 (i * r2 + j) (k + 1)))
        (f.u (i * r2 + j)) (f.v (nbr r2 (i * r2 + j) k)) (f.v (nbr r2 (i * r2 + j) (k + 1)))
        (f.v (i * r2 + j)) J) := by
  obtain ⟨i0, j0, i1, j1, h1, h2, h3, h4, a1, a2, a3, a4, h5, h6, hg, hp⟩ :=
    neighbours r1 r2 i j k hi hj hk h
  have n0 : nbr r2 (i * r2 + j) k = i0 * r2 + j0 := by unfold nbr; rw [h5]; rfl
  have n1 : nbr r2 (i * r2 + j) (k + 1) = i1 * r2 + j1 := by unfold nbr; rw [h6]; rfl
  have hne : (i0, j0) ≠ (i, j) ∧ (i1, j1) ≠ (i, j) := by
    have hk' : k = 0 ∨ k = 1 ∨ k = 2 ∨ k = 3 ∨ k = 4 ∨ k = 5 := by omega
    simp only [ne_eq, Prod.mk.injEq]
    rcases hk' with rfl | rfl | rfl | rfl | rfl | rfl <;>
      simp [di, dj, tab, tx, ty] at a1 a2 a3 a4 <;> omega
  rw [n0, n1]
  refine ⟨flat_lt _ _ _ _ h1 h2, flat_lt _ _ _ _ h3 h4, ?_, ?_, ?_, ?_⟩
  · intro he
    obtain ⟨e1, e2⟩ := flat_inj h2 hj he
    exact hne.1 (by rw [e1, e2])
  · intro he
    obtain ⟨e1, e2⟩ := flat_inj h4 hj he
    exact hne.2 (by rw [e1, e2])
  · intro f
    obtain ⟨V0, V1, V2, hV⟩ : ∃ V0 V1 V2, (triOf i j k).verts = [V0, V1, V2] := by
      unfold Tri.verts; split <;> exact ⟨_, _, _, rfl⟩
    have hp' := (hV ▸ hp).map (fun P => (gridVal r2 f.u P, gridVal r2 f.v P))
    simp only [List.map_cons, List.map_nil] at hp'
    unfold Tri.hasCP Tri.vec
    rw [hV]
    exact ⟨HasCP.perm hp', HasCP.perm hp'.symm⟩
  · intro f J
    unfold Tri.isJac IsJac JacEq
    have d0 : (dj k 0 : ℝ) = (j0 : ℝ) - j ∧ (di k 0 : ℝ) = (i0 : ℝ) - i ∧
        (dj k 1 : ℝ) = (j1 : ℝ) - j ∧ (di k 1 : ℝ) = (i1 : ℝ) - i := by
      have c1 : ((i0 : Int) : ℝ) = ((i + di k 0 : Int) : ℝ) := by rw [a1]
      have c2 : ((j0 : Int) : ℝ) = ((j + dj k 0 : Int) : ℝ) := by rw [a2]
      have c3 : ((i1 : Int) : ℝ) = ((i + di k 1 : Int) : ℝ) := by rw [a3]
      have c4 : ((j1 : Int) : ℝ) = ((j + dj k 1 : Int) : ℝ) := by rw [a4]
      push_cast at c1 c2 c3 c4
      refine ⟨?_, ?_, ?_, ?_⟩ <;> linarith
    obtain ⟨d1, d2, d3, d4⟩ := d0
    rw [d1, d2, d3, d4]
    have hmem : ∀ P, P ∈ (triOf i j k).verts ↔ P = (i0, j0) ∨ P = (i1, j1) ∨ P = (i, j) := by
      intro P; rw [hp.mem_iff]; simp
    constructor
    · intro hJ
      have q0 := hJ (i0, j0) ((hmem _).2 (Or.inl rfl)) (i, j) ((hmem _).2 (Or.inr (Or.inr rfl)))
      have q1 := hJ (i1, j1) ((hmem _).2 (Or.inr (Or.inl rfl))) (i, j)
        ((hmem _).2 (Or.inr (Or.inr rfl)))
      exact ⟨q0.1, q1.1, q0.2, q1.2⟩
    · rintro ⟨q1, q2, q3, q4⟩ P hP Q hQ
      rcases (hmem P).1 hP with rfl | rfl | rfl <;> rcases (hmem Q).1 hQ with rfl | rfl | rfl <;>
        simp only [gridVal] <;> constructor <;> linarith

/-- A triangle is either addressed by a table row of the vertex or does not contain it. -/
theorem tri_cases (r1 r2 i j : Nat) (hi : i < r1) (hj : j < r2) (t : Tri)
    (ht : t.inGrid r1 r2) :
    (∃ k, k < 6 ∧ inMesh r1 r2 i j k = true ∧ t = triOf i j k) ∨
    (∀ f g : Online2D.Field ℝ, (∀ q, q ≠ i * r2 + j → f.u q = g.u q ∧ f.v q = g.v q) →
      (t.hasCP r2 f ↔ t.hasCP r2 g) ∧ ∀ J, t.isJac r2 f J ↔ t.isJac r2 g J) := by
  by_cases hv : (i, j) ∈ t.verts
  · obtain ⟨k, h1, h2, h3, -⟩ := incident_unique r1 r2 i j t hi hj ht hv
    exact Or.inl ⟨k, h1, h2, h3.symm⟩
  · right
    intro f g hfg
    have hcol : ∀ P ∈ t.verts, P.2 < r2 := by
      intro P hP
      unfold Tri.inGrid at ht
      unfold Tri.verts at hP
      split at hP <;> simp only [List.mem_cons, List.not_mem_nil, or_false] at hP <;>
        rcases hP with rfl | rfl | rfl <;> simp only <;> omega
    have hval : ∀ P ∈ t.verts, gridVal r2 f.u P = gridVal r2 g.u P ∧
        gridVal r2 f.v P = gridVal r2 g.v P := by
      intro P hP
      apply hfg
      intro he
      obtain ⟨e1, e2⟩ := flat_inj (hcol P hP) hj he
      apply hv
      have : P = (i, j) := Prod.ext e1 e2
      rwa [← this]
    constructor
    · obtain ⟨V0, V1, V2, hV⟩ : ∃ V0 V1 V2, t.verts = [V0, V1, V2] := by
        unfold Tri.verts; split <;> exact ⟨_, _, _, rfl⟩
      rw [hV] at hval
      have k0 := hval V0 (by simp)
      have k1 := hval V1 (by simp)
      have k2 := hval V2 (by simp)
      unfold Tri.hasCP Tri.vec
      rw [hV]
      simp only [List.getD_cons_zero, List.getD_cons_succ]
      rw [k0.1, k0.2, k1.1, k1.2, k2.1, k2.2]
    · intro J
      unfold Tri.isJac IsJac
      constructor
      · intro h P hP Q hQ
        rw [← (hval P hP).1, ← (hval P hP).2, ← (hval Q hQ).1, ← (hval Q hQ).2]
        exact h P hP Q hQ
      · intro h P hP Q hQ
        rw [(hval P hP).1, (hval P hP).2, (hval Q hQ).1, (hval Q hQ).2]
        exact h P hP Q hQ

theorem exists_isJac (r1 r2 : Nat) (t : Tri) (ht : t.inGrid r1 r2) (f : Online2D.Field ℝ) :
    ∃ J, t.isJac r2 f J := by
  have hi : t.a < r1 := by unfold Tri.inGrid at ht; omega
  have hj : t.b < r2 := by unfold Tri.inGrid at ht; omega
  have hv : (t.a, t.b) ∈ t.verts := by unfold Tri.verts; split <;> simp
  obtain ⟨k, h1, h2, h3, -⟩ := incident_unique r1 r2 t.a t.b t hi hj ht hv
  obtain ⟨-, -, -, -, -, h⟩ := tri_flat r1 r2 t.a t.b k hi hj h1 h2
  rw [h3] at h
  obtain ⟨J, hJ⟩ := JacEq.exists h1 (f.u (nbr r2 (t.a * r2 + t.b) k))
    (f.u (nbr r2 (t.a * r2 + t.b) (k + 1))) (f.u (t.a * r2 + t.b))
    (f.v (nbr r2 (t.a * r2 + t.b) k)) (f.v (nbr r2 (t.a * r2 + t.b) (k + 1)))
    (f.v (t.a * r2 + t.b))
  exact ⟨J, (h f J).2 hJ⟩

/-! ### The bound of a vertex is below the bound of each incident triangle -/

theorem requiredLoop_le (r1 r2 : Nat) (derive : Nat → ℝ → ℝ → ℝ → ℝ → ℝ → ℝ → Option ℝ)
    (m : Online2D.Field ℝ) (i j : Nat) (hi : i < r1) (hj : j < r2) (ks : List Nat)
    (hks : ∀ k ∈ ks, k < 6) (req : ℝ)
    (hdef : ∀ k ∈ ks, inMesh r1 r2 i j k = true →
      derive k (m.u (nbr r2 (i * r2 + j) k)) (m.u (nbr r2 (i * r2 + j) (k + 1)))
        (m.u (i * r2 + j)) (m.v (nbr r2 (i * r2 + j) k)) (m.v (nbr r2 (i * r2 + j) (k + 1)))
        (m.v (i * r2 + j)) ≠ none) :
    ∃ E, requiredLoop r1 r2 minfX derive m (i * r2 + j) ks (some req) = some (some E) ∧
      E ≤ req ∧ ∀ k ∈ ks, inMesh r1 r2 i j k = true → ∃ E',
        derive k (m.u (nbr r2 (i * r2 + j) k)) (m.u (nbr r2 (i * r2 + j) (k + 1)))
          (m.u (i * r2 + j)) (m.v (nbr r2 (i * r2 + j) k)) (m.v (nbr r2 (i * r2 + j) (k + 1)))
          (m.v (i * r2 + j)) = some E' ∧ E ≤ E' := by
  induction ks generalizing req with
  | nil => exact ⟨req, rfl, le_refl _, by simp⟩
  | cons k ks ih =>
    rw [requiredLoop_cons r1 r2 minfX derive m i j k ks _ hi hj (hks k (by simp))]
    have ecast : ((i : Int) * r2 + j) = ((i * r2 + j : Nat) : Int) := by push_cast; ring
    have ih' := fun req => ih (fun k' h => hks k' (by simp [h])) req
      (fun k' h => hdef k' (by simp [h]))
    by_cases hm : inMesh r1 r2 i j k = true
    · have hd := hdef k (by simp) hm
      rw [if_pos hm, ecast]
      change ∃ E, requiredLoop r1 r2 minfX derive m (i * r2 + j) ks (minfX (some req)
        (derive k (m.u (nbr r2 (i * r2 + j) k)) (m.u (nbr r2 (i * r2 + j) (k + 1)))
        (m.u (i * r2 + j)) (m.v (nbr r2 (i * r2 + j) k)) (m.v (nbr r2 (i * r2 + j) (k + 1)))
        (m.v (i * r2 + j)))) = _ ∧ _
      obtain ⟨y, hy⟩ := Option.ne_none_iff_exists'.1 hd
      obtain ⟨z, hz⟩ : ∃ z, minfX (some req) (some y) = some z := by
        simp only [minfX]; split <;> exact ⟨_, rfl⟩
      obtain ⟨⟨a, ha, hza⟩, ⟨b, hb, hzb⟩⟩ := minfX_some (e := z) (by simp) (by simp) hz (le_refl z)
      cases ha; cases hb
      rw [hy, hz]
      obtain ⟨E, hE1, hE2, hE3⟩ := ih' z
      refine ⟨E, hE1, hE2.trans hza, ?_⟩
      intro k' hk' hm'
      rcases List.mem_cons.1 hk' with rfl | hk'
      · exact ⟨y, hy, hE2.trans hzb⟩
      · exact hE3 k' hk' hm'
    · rw [if_neg hm]
      obtain ⟨E, hE1, hE2, hE3⟩ := ih' req
      refine ⟨E, hE1, hE2, ?_⟩
      intro k' hk' hm'
      rcases List.mem_cons.1 hk' with rfl | hk'
      · exact absurd hm' hm
      · exact hE3 k' hk' hm'

end Mesh2D

namespace Online2D
open Mesh2D

/-- Per-triangle bound of the online modes: `derive_cp_eb_for_positions_online` with
`inv_C[k]` (src/sz_compress_cp_preserve_2d.cpp L620-623). -/
noncomputable def deriveK (k : Nat) (u0 u1 u2 v0 v1 v2 : ℝ) : Option ℝ :=
  deriveOnline u0 u1 u2 v0 v1 v2 (invC k 0) (invC k 1) (invC k 2) (invC k 3)

/-- `required_eb` of a vertex (src/sz_compress_cp_preserve_2d.cpp L609-624).  A NaN result is
represented by `0`: both fail the test `required_eb > 0` (L625). -/
noncomputable def boundOnline (r1 r2 : Nat) (maxEb : ℝ) (m : Field ℝ) (p : Nat) : Option ℝ :=
  (requiredEb r1 r2 (some maxEb) minfX deriveK m p).map (·.getD 0)

/-- Parameters of the relative mode (src/sz_compress_cp_preserve_2d.cpp L558-561, L602): base 4,
threshold `DBL_EPSILON`, capacity 65536, radius 32768. -/
noncomputable def parOnline : Par ℝ where
  base := 4
  logBase := Real.logb 2 4
  thr := 1 / 2 ^ 52
  capacity := 65536
  radius := 32768

/-- `abs_eb = fabs(cur_data) * required_eb` (src/sz_compress_cp_preserve_2d.cpp L632). -/
noncomputable def absRel (req cur : ℝ) : ℝ := |cur| * req

/-- The whole 2D online compressor in exact arithmetic. 
(src/sz_compress_cp_preserve_2d.cpp L545-714.) -/
noncomputable def compressRel (r1 r2 : Nat) (maxEb : ℝ) (m : Field ℝ) :
    Option (Field ℝ × Streams ℝ) :=
  compress realOps parOnline r1 r2 absRel (boundOnline r1 r2 maxEb) m

/-- The decompressor in exact arithmetic (src/sz_decompress_cp_preserve_2d.cpp L109-165). -/
noncomputable def decompressRel (r1 r2 : Nat) (m0 : Field ℝ) (s : Streams ℝ) :
    Option (Field ℝ) :=
  decompress realOps parOnline r1 r2 m0 s

/-- An accepted component is strictly within the requested absolute bound. -/
theorem encComp_real {P : Par ℝ} (hb : 2 ≤ P.base) (hlb : P.logBase = Real.logb 2 P.base)
    (ht : 0 < P.thr) {r2 : Nat} {f : Nat → ℝ} {p : Nat} {a : ℝ} {id q : Int} {x : ℝ}
    (h : encComp realOps P r2 f p a = some (id, q, x)) : |x - f p| < a := by
  obtain ⟨h1, h2, -, -, h5⟩ := encComp_some realOps P r2 f p a id q x h
  have hs := ebQuant_spec P.base hb P.thr a ht
  rw [← hlb] at hs
  simp only at hs
  obtain ⟨-, -, s3, s4⟩ := hs
  change _ at h2
  rcases le_or_gt a P.thr with hle | hgt
  · have := s4 hle
    have h2' : id = (ebQuant realD P.base P.logBase P.thr a).2 := h2
    rw [this] at h2'
    simp only at h2'
    omega
  · have h3 := (s3 hgt).2.1
    have h5' : ¬ (ebQuant realD P.base P.logBase P.thr a).1 ≤ |x - f p| := by
      intro hc
      have : realOps.le (ebQuant realOps.toDOps P.base P.logBase P.thr a).1
        (realOps.abs (realOps.toD (realOps.subT x (f p)))) = true := decide_eq_true hc
      rw [this] at h5
      cases h5
    push Not at h5'
    exact lt_of_lt_of_le h5' h3

theorem parOnline_ok : 2 ≤ parOnline.base ∧ parOnline.logBase = Real.logb 2 parOnline.base ∧
    0 < parOnline.thr := by
  refine ⟨by norm_num [parOnline], by norm_num [parOnline], by norm_num [parOnline]⟩

/-- The step of the relative mode in terms of the bound: both components change by a
relative error below it. -/
theorem step_rel {r1 r2 : Nat} {maxEb : ℝ} {f : Field ℝ} {p : Nat} {x y : ℝ}
    (h : Step realOps parOnline r2 absRel (boundOnline r1 r2 maxEb) f p x y) :
    ∃ req, boundOnline r1 r2 maxEb f p = some req ∧ 0 < req ∧
      |x - f.u p| < |f.u p| * req ∧ |y - f.v p| < |f.v p| * req := by
  obtain ⟨req, e0, q0, e1, q1, hb, hlt, h0, h1⟩ := h
  obtain ⟨p1, p2, p3⟩ := parOnline_ok
  refine ⟨req, hb, ?_, encComp_real p1 p2 p3 h0, encComp_real p1 p2 p3 h1⟩
  have : (realOps.ofInt 0 : ℝ) < req := of_decide_eq_true hlt
  simpa [realOps, realD] using this

/-- No triangle bound is NaN at a vertex whose components are both not zero. -/
theorem deriveK_ne_none {k : Nat} (hk : k < 6) {u0 u1 u2 v0 v1 v2 : ℝ} (hu : u2 ≠ 0)
    (hv : v2 ≠ 0) : deriveK k u0 u1 u2 v0 v1 v2 ≠ none ∧
      keepType u0 u1 u2 v0 v1 v2 (invC k 0) (invC k 1) (invC k 2) (invC k 3) ≠ none := by
  have h2 : keepType u0 u1 u2 v0 v1 v2 (invC k 0) (invC k 1) (invC k 2) (invC k 3) ≠ none := by
    intro h
    obtain ⟨h1, h2⟩ := keepType_none h
    rcases invC_sum_ne k hk with hc | hc
    · exact (mul_ne_zero hc hu) h1
    · exact (mul_ne_zero hc hv) h2
  exact ⟨fun h => h2 (deriveOnline_none h), h2⟩

theorem bound_le {r1 r2 : Nat} {maxEb : ℝ} {f : Field ℝ} {i j : Nat} (hi : i < r1) (hj : j < r2)
    {req : ℝ} (h : boundOnline r1 r2 maxEb f (i * r2 + j) = some req)
    (hu : f.u (i * r2 + j) ≠ 0) (hv : f.v (i * r2 + j) ≠ 0) :
    req ≤ maxEb ∧ ∀ k, k < 6 → inMesh r1 r2 i j k = true → ∃ E,
      deriveK k (f.u (nbr r2 (i * r2 + j) k)) (f.u (nbr r2 (i * r2 + j) (k + 1)))
        (f.u (i * r2 + j)) (f.v (nbr r2 (i * r2 + j) k)) (f.v (nbr r2 (i * r2 + j) (k + 1)))
        (f.v (i * r2 + j)) = some E ∧ req ≤ E := by
  have hks : ∀ k ∈ [0, 1, 2, 3, 4, 5], k < 6 := by simp
  obtain ⟨E, hE, hle, hall⟩ := requiredLoop_le r1 r2 deriveK f i j hi hj [0, 1, 2, 3, 4, 5]
    hks maxEb (fun k hk _ => (deriveK_ne_none (hks k hk) hu hv).1)
  unfold boundOnline requiredEb at h
  rw [hE] at h
  simp only [Option.map_some, Option.getD_some, Option.some.injEq] at h
  subst h
  refine ⟨hle, fun k hk hm => hall k ?_ hm⟩
  simp; omega

/-- Agreement of Jacobians in everything that decides the type of a critical point. -/
def SameType (J J' : Jac) : Prop :=
  SignType.sign J.det = SignType.sign J'.det ∧ SignType.sign J.disc = SignType.sign J'.disc ∧
  (0 < J.det → SignType.sign J.tr = SignType.sign J'.tr) ∧ cpType J = cpType J'

theorem SameType.trans {J J' J'' : Jac} (h : SameType J J') (h' : SameType J' J'') :
    SameType J J'' := by
  refine ⟨h.1.trans h'.1, h.2.1.trans h'.2.1, fun hp => (h.2.2.1 hp).trans (h'.2.2.1 ?_),
    h.2.2.2.trans h'.2.2.2⟩
  have := h.1
  rw [sign_pos hp] at this
  exact sign_eq_one_iff.1 this.symm

theorem sign_eq_of_mul_pos {a b : ℝ} (h : 0 < a * b) : SignType.sign a = SignType.sign b := by
  rcases pos_cases h with ⟨x, y⟩ | ⟨x, y⟩
  · rw [sign_pos x, sign_pos y]
  · rw [sign_neg x, sign_neg y]

theorem isJac_unique {r1 r2 : Nat} {t : Tri} (ht : t.inGrid r1 r2) {f : Field ℝ} {J J' : Jac}
    (h : t.isJac r2 f J) (h' : t.isJac r2 f J') : J = J' := by
  obtain ⟨a, b, up⟩ := t
  unfold Tri.isJac IsJac at h h'
  have key : ∀ K : Jac, (⟨a, b, up⟩ : Tri).isJac r2 f K →
      K.ux = (if up then gridVal r2 f.u (a, b + 1) - gridVal r2 f.u (a, b)
        else gridVal r2 f.u (a + 1, b + 1) - gridVal r2 f.u (a + 1, b)) ∧
      K.uy = (if up then gridVal r2 f.u (a + 1, b + 1) - gridVal r2 f.u (a, b + 1)
        else gridVal r2 f.u (a + 1, b) - gridVal r2 f.u (a, b)) ∧
      K.vx = (if up then gridVal r2 f.v (a, b + 1) - gridVal r2 f.v (a, b)
        else gridVal r2 f.v (a + 1, b + 1) - gridVal r2 f.v (a + 1, b)) ∧
      K.vy = (if up then gridVal r2 f.v (a + 1, b + 1) - gridVal r2 f.v (a, b + 1)
        else gridVal r2 f.v (a + 1, b) - gridVal r2 f.v (a, b)) := by
    intro K hK
    unfold Tri.isJac IsJac Tri.verts at hK
    cases up
    · simp only [Bool.false_eq_true, if_false] at hK ⊢
      have e1 := hK (a + 1, b + 1) (by simp) (a + 1, b) (by simp)
      have e2 := hK (a + 1, b) (by simp) (a, b) (by simp)
      push_cast at e1 e2
      refine ⟨?_, ?_, ?_, ?_⟩ <;> linarith [e1.1, e1.2, e2.1, e2.2]
    · simp only [if_true] at hK ⊢
      have e1 := hK (a, b + 1) (by simp) (a, b) (by simp)
      have e2 := hK (a + 1, b + 1) (by simp) (a, b + 1) (by simp)
      push_cast at e1 e2
      refine ⟨?_, ?_, ?_, ?_⟩ <;> linarith [e1.1, e1.2, e2.1, e2.2]
  have k1 := key J h
  have k2 := key J' h'
  cases J; cases J'
  simp only at k1 k2
  obtain ⟨a1, a2, a3, a4⟩ := k1
  obtain ⟨b1, b2, b3, b4⟩ := k2
  subst a1 a2 a3 a4 b1 b2 b3 b4
  rfl

/-- An update by relative errors below the bound of the vertex keeps, in every triangle of the
grid, the existence of a critical point and its type. -/
theorem step_tri_of {r1 r2 : Nat} {maxEb : ℝ} {f : Field ℝ} {p : Nat} {x y : ℝ}
    (hp : p < r1 * r2)
    (h : ∃ req, boundOnline r1 r2 maxEb f p = some req ∧ 0 < req ∧
      |x - f.u p| < |f.u p| * req ∧ |y - f.v p| < |f.v p| * req)
    (t : Tri) (ht : t.inGrid r1 r2) :
    (t.hasCP r2 f ↔ t.hasCP r2 (f.set p x y)) ∧
    (t.hasCP r2 f → ∀ J J', t.isJac r2 f J → t.isJac r2 (f.set p x y) J' → SameType J J') := by
  have hr2 : 0 < r2 := by
    rcases Nat.eq_zero_or_pos r2 with h0 | h0
    · subst h0; omega
    · exact h0
  have hi : p / r2 < r1 := by rw [Nat.div_lt_iff_lt_mul hr2]; exact hp
  have hj : p % r2 < r2 := Nat.mod_lt _ hr2
  obtain ⟨req, hbnd, hpos, hx, hy⟩ := h
  have hpe : p / r2 * r2 + p % r2 = p := by
    have := Nat.div_add_mod p r2
    rw [Nat.mul_comm] at this; exact this
  have hu0 : f.u p ≠ 0 := by
    intro h0; rw [h0] at hx; simp at hx; exact absurd hx (not_lt.2 (abs_nonneg _))
  have hv0 : f.v p ≠ 0 := by
    intro h0; rw [h0] at hy; simp at hy; exact absurd hy (not_lt.2 (abs_nonneg _))
  rcases tri_cases r1 r2 (p / r2) (p % r2) hi hj t ht with ⟨k, hk, hm, rfl⟩ | hsame
  · obtain ⟨-, -, hn0, hn1, hcp, hjac⟩ := tri_flat r1 r2 (p / r2) (p % r2) k hi hj hk hm
    obtain ⟨-, hall⟩ := bound_le hi hj (by rw [hpe]; exact hbnd) (by rw [hpe]; exact hu0)
      (by rw [hpe]; exact hv0)
    obtain ⟨E, hE, hle⟩ := hall k hk hm
    rw [hpe] at hn0 hn1 hcp hjac hE
    have hstep := deriveOnline_step hpos (invC_m_ne k hk)
      (deriveK_ne_none hk hu0 hv0).2 hE hle hx hy
    have g0 : (f.set p x y).u (nbr r2 p k) = f.u (nbr r2 p k) := setAt_ne _ _ _ _ hn0
    have g1 : (f.set p x y).u (nbr r2 p (k + 1)) = f.u (nbr r2 p (k + 1)) := setAt_ne _ _ _ _ hn1
    have g2 : (f.set p x y).v (nbr r2 p k) = f.v (nbr r2 p k) := setAt_ne _ _ _ _ hn0
    have g3 : (f.set p x y).v (nbr r2 p (k + 1)) = f.v (nbr r2 p (k + 1)) := setAt_ne _ _ _ _ hn1
    have g4 : (f.set p x y).u p = x := setAt_same _ _ _
    have g5 : (f.set p x y).v p = y := setAt_same _ _ _
    have hcp' := hcp (f.set p x y)
    have hjac' := hjac (f.set p x y)
    rw [g0, g1, g2, g3, g4, g5] at hcp'
    refine ⟨by rw [hcp f, hcp']; exact hstep.1, ?_⟩
    intro hc J J' hJ hJ'
    have hJ' := (hjac' J').1 hJ'
    rw [g0, g1, g2, g3, g4, g5] at hJ'
    have hJ := (hjac f J).1 hJ
    obtain ⟨t1, d1⟩ := hJ.trC hk
    obtain ⟨t2, d2⟩ := hJ'.trC hk
    obtain ⟨s1, s2, s3⟩ := hstep.2 ((hcp f).1 hc)
    rw [← t1, ← t2, ← d1, ← d2] at s2
    rw [← d1, ← d2] at s1
    rw [← t1, ← t2, ← d1] at s3
    exact ⟨sign_eq_of_mul_pos s1, sign_eq_of_mul_pos s2, fun hd => sign_eq_of_mul_pos (s3 hd),
      cpType_eq s1 s2 (fun hd => sign_eq_of_mul_pos (s3 hd))⟩
  · obtain ⟨s1, s2⟩ := hsame f (f.set p x y) (fun q hq => by
      rw [hpe] at hq
      exact ⟨(setAt_ne _ _ _ _ hq).symm, (setAt_ne _ _ _ _ hq).symm⟩)
    refine ⟨s1, fun _ J J' hJ hJ' => ?_⟩
    have := isJac_unique ht hJ ((s2 J').2 hJ')
    subst this
    exact ⟨rfl, rfl, fun _ => rfl, rfl⟩

/-- One update of the relative mode keeps, in every triangle of the grid, the existence of a
critical point and its type. -/
theorem step_tri {r1 r2 : Nat} {maxEb : ℝ} {f : Field ℝ} {p : Nat} {x y : ℝ}
    (hp : p < r1 * r2)
    (h : Step realOps parOnline r2 absRel (boundOnline r1 r2 maxEb) f p x y)
    (t : Tri) (ht : t.inGrid r1 r2) :
    (t.hasCP r2 f ↔ t.hasCP r2 (f.set p x y)) ∧
    (t.hasCP r2 f → ∀ J J', t.isJac r2 f J → t.isJac r2 (f.set p x y) J' → SameType J J') :=
  step_tri_of hp (step_rel h) t ht

end Online2D
end CpSZ
