import Verif.Extract.Two
import Verif.Props.Abs2D
import Verif.Props.Log2D
import Verif.Props.Relax
import Mathlib.Tactic.IntervalCases
/-
Properties C51 and C52 (2D extraction tool).
-/

namespace CpSZ.Extract
open Online2D.Relax VMode

/-! ### C51 -/

/-- C51.  In exact arithmetic the extraction reports, for every field: one entry per triangle of
an inner cell whose interpolant has an invertible Jacobian, a zero in the triangle, and no zero at
the vertices; with the number of the triangle, the position of the zero and the type of the
Jacobian.  Different triangles have different numbers, which fit the `int` key if the grid has
at most 2^30 vertices. -/
theorem C51_extract (r1 r2 : Nat) (f : Online2D.Field ℝ) :
    (∀ id c, (id, c) ∈ extract r1 r2 f ↔
      ∃ t, interior r1 r2 t ∧ id = triNo r2 t ∧ IsPoint r2 f t c) ∧
    (∀ t t', interior r1 r2 t → interior r1 r2 t' → triNo r2 t = triNo r2 t' → t = t') ∧
    ((extract r1 r2 f).map (·.1)).Nodup ∧
    (r1 * r2 ≤ 2 ^ 30 → ∀ t, interior r1 r2 t → triNo r2 t < 2 ^ 31) := by
  refine ⟨fun id c => ?_, fun t t' h h' he => ?_, ?_, fun hr t ht => ?_⟩
  · rw [mem_extract]
    constructor
    · rintro ⟨t, h1, h2, h3⟩
      exact ⟨t, h1, h2, (checkTri_iff r1 r2 f t h1.inGrid c).1 h3⟩
    · rintro ⟨t, h1, h2, h3⟩
      exact ⟨t, h1, h2, (checkTri_iff r1 r2 f t h1.inGrid c).2 h3⟩
  · have h1 := h.inGrid
    have h2 := h'.inGrid
    unfold Tri.inGrid at h1 h2
    exact triNo_inj h1.2 h2.2 he
  · rw [extract_eq]
    exact keys_nodup r1 r2 f
  · unfold interior at ht
    have h1 : t.a * (r2 - 1) + t.b < r1 * r2 := by
      have : t.a * (r2 - 1) ≤ t.a * r2 := Nat.mul_le_mul_left _ (by omega)
      have := Mesh2D.flat_lt r1 r2 t.a t.b (by omega) (by omega)
      omega
    unfold triNo
    have : t.up.toNat ≤ 1 := by cases t.up <;> simp
    omega

/-- C51, second part.  The four counters partition the original points and the decompressed
points, whatever the order of iteration. -/
theorem C51_counters (r1 r2 : Nat) (f g : Online2D.Field ℝ) (l0 l1 : List (Nat × CP2))
    (h0 : l0.Perm (extract r1 r2 f)) (h1 : l1.Perm (extract r1 r2 g)) :
    (report CP2.type l0 l1).tp + (report CP2.type l0 l1).ft + (report CP2.type l0 l1).fn =
      (extract r1 r2 f).length ∧
    (report CP2.type l0 l1).tp + (report CP2.type l0 l1).ft + (report CP2.type l0 l1).fp =
      (extract r1 r2 g).length := by
  have n0 : (l0.map (·.1)).Nodup := (h0.map _).nodup_iff.2 (C51_extract r1 r2 f).2.2.1
  have n1 : (l1.map (·.1)).Nodup := (h1.map _).nodup_iff.2 (C51_extract r1 r2 g).2.2.1
  rw [← h0.length_eq, ← h1.length_eq]
  exact ⟨report_origin _ _ _, report_decompressed _ _ _ n0 n1⟩

/-- The 3 by 3 field `(j - 1/4, i - 1/8)`: one inner zero, in the cell (0, 0). -/
noncomputable def exBorder : Online2D.Field ℝ :=
  ⟨fun q => ((q % 3 : Nat) : ℝ) - 1 / 4, fun q => ((q / 3 : Nat) : ℝ) - 1 / 8⟩

/-- C51, third part: "every critical point of the field is reported" is false.  The cells at the
border are not looked at: here a triangle with an invertible Jacobian and a zero in its interior
(three positive weights) is missed. -/
theorem C51_border_missed : extract 3 3 exBorder = [] ∧
    (⟨0, 0, true⟩ : Tri).inGrid 3 3 ∧
    (∃ J, (⟨0, 0, true⟩ : Tri).isJac 3 exBorder J ∧ J.det ≠ 0) ∧
    ∃ a b c : ℝ, 0 < a ∧ 0 < b ∧ 0 < c ∧ a + b + c = 1 ∧
      a * (Tri.vec 3 exBorder ⟨0, 0, true⟩ 0).1 + b * (Tri.vec 3 exBorder ⟨0, 0, true⟩ 1).1 +
        c * (Tri.vec 3 exBorder ⟨0, 0, true⟩ 2).1 = 0 ∧
      a * (Tri.vec 3 exBorder ⟨0, 0, true⟩ 0).2 + b * (Tri.vec 3 exBorder ⟨0, 0, true⟩ 1).2 +
        c * (Tri.vec 3 exBorder ⟨0, 0, true⟩ 2).2 = 0 := by
  refine ⟨rfl, by simp [Tri.inGrid], ⟨⟨1, 0, 0, 1⟩, ?_, by norm_num [Jac.det]⟩, 3 / 4, 1 / 8, 1 / 8, ?_⟩
  · unfold Tri.isJac IsJac
    intro P hP Q hQ
    simp only [Tri.verts, if_true, List.mem_cons, List.not_mem_nil, or_false] at hP hQ
    rcases hP with rfl | rfl | rfl <;> rcases hQ with rfl | rfl | rfl <;>
      norm_num [gridVal, exBorder]
  · norm_num [Tri.vec, Tri.verts, gridVal, exBorder]

/-! ### C52 -/

/-- A triangle has the same entry in both fields up to the position. -/
def SameTri (r2 : Nat) (f g : Online2D.Field ℝ) (t : Tri) : Prop :=
  (checkTri r2 f t).map CP2.type = (checkTri r2 g t).map CP2.type

theorem perfect_of_same (r1 r2 : Nat) (f g : Online2D.Field ℝ)
    (h : ∀ t, interior r1 r2 t → SameTri r2 f g t) (l0 l1 : List (Nat × CP2))
    (h0 : l0.Perm (extract r1 r2 f)) (h1 : l1.Perm (extract r1 r2 g)) :
    report CP2.type l0 l1 = ⟨(extract r1 r2 f).length, 0, 0, 0⟩ := by
  rw [← h0.length_eq]
  refine report_perfect _ _ _ ((h1.map _).nodup_iff.2 (C51_extract r1 r2 g).2.2.1) ?_ ?_
  · intro id c hc
    obtain ⟨t, ht, hid, he⟩ := mem_extract.1 (h0.mem_iff.1 hc)
    have hs := h t ht
    unfold SameTri at hs
    rw [he] at hs
    obtain ⟨c', hc', hty⟩ := Option.map_eq_some_iff.1 hs.symm
    exact ⟨c', h1.mem_iff.2 (mem_extract.2 ⟨t, ht, hid, hc'⟩), hty.symm⟩
  · intro id c hc
    obtain ⟨t, ht, hid, he⟩ := mem_extract.1 (h1.mem_iff.1 hc)
    have hs := h t ht
    unfold SameTri at hs
    rw [he] at hs
    obtain ⟨c', hc', hty⟩ := Option.map_eq_some_iff.1 hs
    exact ⟨c', h0.mem_iff.2 (mem_extract.2 ⟨t, ht, hid, hc'⟩)⟩

theorem hvec_of {r2 : Nat} {f g : Online2D.Field ℝ} {t : Tri}
    (h : ∀ P ∈ t.verts, gridVal r2 g.u P = gridVal r2 f.u P ∧ gridVal r2 g.v P = gridVal r2 f.v P)
    (q : Nat) (hq : q < 3) : t.vec r2 g q = t.vec r2 f q := by
  have hm : t.verts.getD q (0, 0) ∈ t.verts := by
    rw [verts_three t]
    interval_cases q <;> simp
  obtain ⟨a, b⟩ := h _ hm
  simp only [Tri.vec, a, b]

theorem same_of_exact {r2 : Nat} {f g : Online2D.Field ℝ} {t : Tri}
    (hcp : HasRegularCP r2 g t → HasRegularCP r2 f t)
    (hex : HasRegularCP r2 f t → ∀ P ∈ t.verts,
      gridVal r2 g.u P = gridVal r2 f.u P ∧ gridVal r2 g.v P = gridVal r2 f.v P) :
    SameTri r2 f g t := by
  have hvec : HasRegularCP r2 f t → ∀ q, q < 3 → t.vec r2 g q = t.vec r2 f q :=
    fun h q hq => hvec_of (hex h) q hq
  have hno : ∀ k : Online2D.Field ℝ, ¬ HasRegularCP r2 k t → checkTri r2 k t = none := by
    intro k hk
    cases hc : checkTri r2 k t with
    | none => rfl
    | some c =>
      have := ((checkTri_some r2 k t c).1 hc).2.1
      exact absurd ((checkCP_iff _ _ _).1 this) hk
  unfold SameTri
  by_cases h : HasRegularCP r2 f t
  · have e0 := hvec h 0 (by omega)
    have e1 := hvec h 1 (by omega)
    have e2 := hvec h 2 (by omega)
    simp only [checkTri, e0, e1, e2]
  · rw [hno f h, hno g (fun hg => h (hcp hg))]

theorem same_of_types {r1 r2 : Nat} {f g : Online2D.Field ℝ} {t : Tri} (ht : t.inGrid r1 r2)
    (hcp : t.hasCP r2 g ↔ t.hasCP r2 f)
    (hty : t.hasCP r2 f → ∃ J J', t.isJac r2 f J ∧ t.isJac r2 g J' ∧ cpType J = cpType J' ∧
      SignType.sign J.det = SignType.sign J'.det)
    (hz : ∀ q, t.vec r2 g q = (0, 0) ↔ t.vec r2 f q = (0, 0)) : SameTri r2 f g t := by
  have key : ∀ a b : Online2D.Field ℝ, (t.hasCP r2 a → t.hasCP r2 b) →
      (t.hasCP r2 a → ∃ J J', t.isJac r2 a J ∧ t.isJac r2 b J' ∧ cpType J = cpType J' ∧
      SignType.sign J.det = SignType.sign J'.det) →
      (∀ q, t.vec r2 b q = (0, 0) → t.vec r2 a q = (0, 0)) → ∀ c, checkTri r2 a t = some c →
      ∃ c', checkTri r2 b t = some c' ∧ c'.type = c.type := by
    intro a b h1 h2 h3 c hc
    obtain ⟨⟨z0, z1, z2⟩, hck, hct, -⟩ := (checkTri_some r2 a t c).1 hc
    obtain ⟨hreg, hca⟩ := (checkCP_iff _ _ _).1 hck
    obtain ⟨J, J', hJ, hJ', e1, e2⟩ := h2 hca
    have u1 := Online2D.isJac_unique ht hJ (jacobian_isJac r2 a t)
    have u2 := Online2D.isJac_unique ht hJ' (jacobian_isJac r2 b t)
    have hd : J.det ≠ 0 := by rw [u1]; exact (jacobian_det r2 a t).2 hreg
    have hd' : J'.det ≠ 0 := by
      rw [← sign_ne_zero, ← e2, sign_ne_zero]; exact hd
    have hreg' : Regular (t.vec r2 b 0) (t.vec r2 b 1) (t.vec r2 b 2) := by
      rw [← jacobian_det, ← u2]; exact hd'
    refine ⟨⟨_, c.type⟩, (checkTri_some r2 b t _).2 ⟨⟨fun e => z0 (h3 0 e), fun e => z1 (h3 1 e),
      fun e => z2 (h3 2 e)⟩, (checkCP_iff _ _ _).2 ⟨hreg', h1 hca⟩, ?_, rfl⟩, rfl⟩
    rw [hct, ← u1, ← u2, e1]
  unfold SameTri
  cases hf : checkTri r2 f t with
  | some c =>
    obtain ⟨c', h1, h2⟩ := key f g hcp.2 hty (fun q h => (hz q).1 h) c hf
    rw [h1]
    simp [h2]
  | none =>
    cases hg : checkTri r2 g t with
    | none => rfl
    | some c =>
      obtain ⟨c', h1, -⟩ := key g f hcp.1 (fun h => by
        obtain ⟨J, J', a, b, c, d⟩ := hty (hcp.1 h)
        exact ⟨J', J, b, a, c.symm, d.symm⟩) (fun q h => (hz q).2 h) c hg
      rw [hf] at h1
      cases h1

theorem vert_lt {r1 r2 : Nat} {t : Tri} (ht : t.inGrid r1 r2) {P : Nat × Nat} (hP : P ∈ t.verts) :
    P.1 * r2 + P.2 < r1 * r2 := by
  unfold Tri.inGrid at ht
  have : P.1 < r1 ∧ P.2 < r2 := by
    unfold Tri.verts at hP
    split at hP <;> simp only [List.mem_cons, List.not_mem_nil, or_false] at hP <;>
      rcases hP with rfl | rfl | rfl <;> simp only <;> omega
  exact Mesh2D.flat_lt _ _ _ _ this.1 this.2

theorem vec_zero_iff {r1 r2 : Nat} {f g : Online2D.Field ℝ} {t : Tri} (ht : t.inGrid r1 r2)
    (h : ∀ q, q < r1 * r2 → (g.u q = 0 ↔ f.u q = 0) ∧ (g.v q = 0 ↔ f.v q = 0)) (q : Nat) :
    t.vec r2 g q = (0, 0) ↔ t.vec r2 f q = (0, 0) := by
  have hm : (t.verts.getD q (0, 0)).1 * r2 + (t.verts.getD q (0, 0)).2 < r1 * r2 := by
    by_cases hq : q < 3
    · apply vert_lt ht
      rw [verts_three t]
      interval_cases q <;> simp
    · have : t.verts.getD q (0, 0) = (0, 0) := by
        rw [verts_three t, List.getD_eq_getElem?_getD, List.getElem?_eq_none (by simpa using hq)]
        rfl
      rw [this]
      unfold Tri.inGrid at ht
      exact Mesh2D.flat_lt _ _ 0 0 (by omega) (by omega)
  obtain ⟨a, b⟩ := h _ hm
  simp only [Tri.vec, gridVal, Prod.mk.injEq, a, b]

theorem zero_iff_of_close {x y e : ℝ} (he : e ≤ 1) (h : x = y ∨ |x - y| < |y| * e) :
    x = 0 ↔ y = 0 := by
  rcases h with rfl | h
  · rfl
  · constructor
    · intro hx
      rw [hx, zero_sub, abs_neg] at h
      by_contra hy
      have := abs_pos.2 hy
      nlinarith
    · intro hy
      rw [hy] at h
      simp at h
      exact absurd h (not_lt.2 (abs_nonneg x))

/-- C52, relative mode.  In exact arithmetic and with a relative bound of at most 1, the
extraction tool compares the decompressed field with the original one and reports all critical
points as matches: no new ones, no lost ones, no changed types. -/
theorem C52_relative (r1 r2 : Nat) (maxEb : ℝ) (h1 : maxEb ≤ 1) (m m' m0 d : Online2D.Field ℝ)
    (s : Online2D.Streams ℝ) (h : Online2D.compressRel r1 r2 maxEb m = some (m', s))
    (hd : Online2D.decompressRel r1 r2 m0 s = some d) (l0 l1 : List (Nat × CP2))
    (p0 : l0.Perm (extract r1 r2 m)) (p1 : l1.Perm (extract r1 r2 d)) :
    report CP2.type l0 l1 = ⟨(extract r1 r2 m).length, 0, 0, 0⟩ := by
  refine perfect_of_same r1 r2 m d (fun t ht => ?_) l0 l1 p0 p1
  refine same_of_types ht.inGrid
    (Online2D.C15_critical_points_preserved r1 r2 maxEb m m' m0 d s h hd t ht.inGrid) (fun hcp => ?_)
    (vec_zero_iff ht.inGrid fun q hq => ?_)
  · obtain ⟨J, J', a, b, c, e, -⟩ :=
      Online2D.C16_critical_point_types_preserved r1 r2 maxEb m m' m0 d s h hd t ht.inGrid hcp
    exact ⟨J, J', a, b, c, e⟩
  · obtain ⟨a, b⟩ := Online2D.C14_relative_error r1 r2 maxEb m m' m0 d s h hd q hq
    exact ⟨zero_iff_of_close h1 a, zero_iff_of_close h1 b⟩

/-- C52, log mode (values that are zero or at least 2^-98 in magnitude). -/
theorem C52_log (r1 r2 : Nat) (maxEb : ℝ) (h0 : 0 ≤ maxEb) (h1 : maxEb ≤ 1)
    (m : Online2D.Field ℝ) (s' : State ℝ) (str : Streams ℝ) (m0 d : Arr ℝ)
    (h : compressLog r1 r2 maxEb m = some (s', str))
    (hm : ∀ q, q < r1 * r2 → (m.u q = 0 ∨ (2 : ℝ) ^ (-98 : ℤ) ≤ |m.u q|) ∧
      (m.v q = 0 ∨ (2 : ℝ) ^ (-98 : ℤ) ≤ |m.v q|))
    (hd : decompressLog r1 r2 (signMaps realL 2 (r1 * r2) (arr2 m)) m0 str = some d)
    (l0 l1 : List (Nat × CP2)) (p0 : l0.Perm (extract r1 r2 m))
    (p1 : l1.Perm (extract r1 r2 ⟨d 0, d 1⟩)) :
    report CP2.type l0 l1 = ⟨(extract r1 r2 m).length, 0, 0, 0⟩ := by
  refine perfect_of_same r1 r2 m ⟨d 0, d 1⟩ (fun t ht => ?_) l0 l1 p0 p1
  obtain ⟨a, b⟩ := C19_critical_points_and_types r1 r2 maxEb h0 h1 m s' str m0 d h hm hd t ht.inGrid
  refine same_of_types ht.inGrid a (fun hcp => ?_) (vec_zero_iff ht.inGrid fun q hq => ?_)
  · obtain ⟨J, J', a, b, c, e, -⟩ := b hcp
    exact ⟨J, J', a, b, c, e⟩
  · obtain ⟨⟨a, -⟩, b, -⟩ := C19_sign_and_error r1 r2 maxEb h0 h1 m s' str m0 d h hm hd q hq
    constructor
    · rw [← sign_eq_zero_iff, a, sign_eq_zero_iff]
    · rw [← sign_eq_zero_iff, b, sign_eq_zero_iff]

/-- C52, absolute mode: any bound. -/
theorem C52_absolute (r1 r2 : Nat) (maxEb : ℝ) (m m' m0 d : Online2D.Field ℝ)
    (s : Online2D.Streams ℝ) (h : Online2D.compressAbs r1 r2 maxEb m = some (m', s))
    (hd : Online2D.decompressRel r1 r2 m0 s = some d) (l0 l1 : List (Nat × CP2))
    (p0 : l0.Perm (extract r1 r2 m)) (p1 : l1.Perm (extract r1 r2 d)) :
    report CP2.type l0 l1 = ⟨(extract r1 r2 m).length, 0, 0, 0⟩ := by
  refine perfect_of_same r1 r2 m d (fun t ht => ?_) l0 l1 p0 p1
  have hex := Online2D.C20_critical_triangles_exact r1 r2 maxEb m m' m0 d s h hd t ht.inGrid
  have hcp := Online2D.C20_critical_points_preserved r1 r2 maxEb m m' m0 d s h hd t ht.inGrid
  refine same_of_exact (fun hg => ⟨?_, hcp.1 hg.2⟩) (fun hf => hex hf.2)
  have hvec := hvec_of (hex (hcp.1 hg.2))
  rw [← hvec 0 (by omega), ← hvec 1 (by omega), ← hvec 2 (by omega)]
  exact hg.1

/-- C52, relaxed mode, for the bounds with which the stream can be decoded (C21): at least 16
thresholds, or at most one. -/
theorem C52_relaxed (r1 r2 : Nat) (maxEb : ℝ)
    (hb : 16 * Online2D.parOnline.thr ≤ maxEb ∨ maxEb ≤ Online2D.parOnline.thr)
    (m m' m0 d : Online2D.Field ℝ) (s : Online2D.Streams ℝ)
    (h : compress Online2D.Relax.realR Online2D.parOnline maxCount checkCP r1 r2 maxEb m =
      some (m', s))
    (hd : Online2D.decompress realOps Online2D.parOnline r1 r2 m0 s = some d)
    (l0 l1 : List (Nat × CP2))
    (p0 : l0.Perm (extract r1 r2 m)) (p1 : l1.Perm (extract r1 r2 d)) :
    report CP2.type l0 l1 = ⟨(extract r1 r2 m).length, 0, 0, 0⟩ := by
  obtain ⟨p1', p2', p3'⟩ := Online2D.parOnline_ok
  obtain ⟨d', hd', hA⟩ := lockstep realR Online2D.parOnline maxCount checkCP r1 r2 maxEb
    (codesOK_real rfl p2' p3' hb) m m0 m' s h
  obtain rfl : d = d' := Option.some.inj (hd.symm.trans hd')
  refine perfect_of_same r1 r2 m d (fun t ht => ?_) l0 l1 p0 p1
  have hg : ∀ P ∈ t.verts, gridVal r2 d.u P = gridVal r2 m'.u P ∧
      gridVal r2 d.v P = gridVal r2 m'.v P := fun P hP => hA _ (vert_lt ht.inGrid hP)
  obtain ⟨a, b⟩ := (C22_exact_partial r1 r2 maxEb m m' s h).1 t ht.inGrid
  refine same_of_exact (fun hd => a.1 ?_) (fun hf P hP => ?_)
  · have e0 := hvec_of hg 0 (by omega)
    have e1 := hvec_of hg 1 (by omega)
    have e2 := hvec_of hg 2 (by omega)
    obtain ⟨x, y⟩ := hd
    unfold HasRegularCP Tri.hasCP at *
    rw [← e0, ← e1, ← e2]
    exact ⟨x, y⟩
  · obtain ⟨x, y⟩ := hg P hP
    rw [x, y]
    exact b hf P hP

/-! ### Instances -/

/-- A 4 by 4 field with a critical point in the inner cell: `(j - 5/4, i - 11/8)` times 16. -/
noncomputable def exInner : Online2D.Field ℝ :=
  ⟨fun q => 16 * ((q % 4 : Nat) : ℝ) - 20, fun q => 16 * ((q / 4 : Nat) : ℝ) - 22⟩

theorem exInner_point : IsPoint 4 exInner ⟨1, 1, false⟩ ⟨(5 / 4, 11 / 8), .repelling⟩ := by
  refine ⟨⟨⟨16, 0, 0, 16⟩, ?_, by norm_num [Jac.det], ?_⟩, ?_, ?_⟩
  · unfold Tri.isJac IsJac
    intro P hP Q hQ
    simp only [Tri.verts, Bool.false_eq_true, if_false, List.mem_cons, List.not_mem_nil,
      or_false] at hP hQ
    rcases hP with rfl | rfl | rfl <;> rcases hQ with rfl | rfl | rfl <;>
      norm_num [gridVal, exInner]
  · have hD : Jac.disc ⟨16, 0, 0, 16⟩ = 0 := by norm_num [Jac.disc, Jac.tr, Jac.det]
    have ht : Jac.tr ⟨16, 0, 0, 16⟩ = 32 := by norm_num [Jac.tr]
    simp only [cpType, hD, ht]
    norm_num
  · intro P hP
    simp only [Tri.verts, Bool.false_eq_true, if_false, List.mem_cons, List.not_mem_nil,
      or_false] at hP
    rcases hP with rfl | rfl | rfl <;> norm_num [gridVal, exInner]
  · refine ⟨fun P => if P = (1, 1) then 5 / 8 else if P = (2, 1) then 1 / 8 else 1 / 4, ?_, ?_⟩
    · intro P hP
      simp only
      split <;> [norm_num; split <;> norm_num]
    · norm_num [Tri.verts, gridVal, exInner]

theorem exInner_mem : (8, (⟨(5 / 4, 11 / 8), .repelling⟩ : CP2)) ∈ extract 4 4 exInner :=
  ((C51_extract 4 4 exInner).1 _ _).2 ⟨⟨1, 1, false⟩, by simp [interior], by simp [triNo],
    exInner_point⟩

/-- C52 (and C51) at work: the run exists, and the tool reports at least one match. -/
example : ∃ m' s d, Online2D.compressRel 4 4 (1 / 100) exInner = some (m', s) ∧
    Online2D.decompressRel 4 4 ⟨fun _ => 9, fun _ => 9⟩ s = some d ∧
    (report CP2.type (extract 4 4 exInner) (extract 4 4 d)).fn = 0 ∧
    0 < (report CP2.type (extract 4 4 exInner) (extract 4 4 d)).tp := by
  obtain ⟨m', s, d, h, hd⟩ := Online2D.compressRel_defined 4 4 (1 / 100) exInner
    ⟨fun _ => 9, fun _ => 9⟩
  refine ⟨m', s, d, h, hd, ?_⟩
  rw [C52_relative 4 4 (1 / 100) (by norm_num) exInner m' _ d s h hd _ _ (.refl _) (.refl _)]
  exact ⟨rfl, List.length_pos_of_mem exInner_mem⟩

/-- The same for the absolute mode, with the lists in any order. -/
example : ∃ m' s d, Online2D.compressAbs 4 4 1 exInner = some (m', s) ∧
    Online2D.decompressRel 4 4 ⟨fun _ => 9, fun _ => 9⟩ s = some d ∧
    (report CP2.type (extract 4 4 exInner).reverse (extract 4 4 d)).ft = 0 ∧
    0 < (report CP2.type (extract 4 4 exInner).reverse (extract 4 4 d)).tp := by
  obtain ⟨m', s, d, h, hd⟩ := Online2D.compressAbs_defined 4 4 1 exInner ⟨fun _ => 9, fun _ => 9⟩
  refine ⟨m', s, d, h, hd, ?_⟩
  rw [C52_absolute 4 4 1 exInner m' _ d s h hd _ _ (List.reverse_perm _) (.refl _)]
  exact ⟨rfl, List.length_pos_of_mem exInner_mem⟩

/-- The hypotheses of the log mode. -/
example : ∃ s' str d, compressLog 4 4 (1 / 100) exInner = some (s', str) ∧
    decompressLog 4 4 (signMaps realL 2 (4 * 4) (arr2 exInner)) (fun _ _ => 9) str = some d ∧
    0 < (report CP2.type (extract 4 4 exInner) (extract 4 4 ⟨d 0, d 1⟩)).tp := by
  have hbig : ∀ q : Nat, (2 : ℝ) ^ (-98 : ℤ) ≤ |16 * ((q : ℕ) : ℝ) - 20| ∧
      (2 : ℝ) ^ (-98 : ℤ) ≤ |16 * ((q : ℕ) : ℝ) - 22| := by
    intro q
    have h1 : (2 : ℝ) ^ (-98 : ℤ) ≤ 1 := zpow_le_one_of_nonpos₀ (by norm_num) (by norm_num)
    rcases Nat.lt_or_ge q 2 with h | h
    · have : (q : ℝ) ≤ 1 := by exact_mod_cast (by omega : q ≤ 1)
      rw [abs_of_neg (by linarith), abs_of_neg (by linarith)]
      constructor <;> linarith
    · have : (2 : ℝ) ≤ q := by exact_mod_cast h
      rw [abs_of_pos (by linarith), abs_of_pos (by linarith)]
      constructor <;> linarith
  obtain ⟨s', str, h⟩ := compressLog_defined 4 4 (1 / 100) exInner
  have hm : ∀ q, q < 4 * 4 → (exInner.u q = 0 ∨ (2 : ℝ) ^ (-98 : ℤ) ≤ |exInner.u q|) ∧
      (exInner.v q = 0 ∨ (2 : ℝ) ^ (-98 : ℤ) ≤ |exInner.v q|) :=
    fun q _ => ⟨.inr (hbig _).1, .inr (hbig _).2⟩
  obtain ⟨d, hd, -⟩ := decompressLog_eq 4 4 (1 / 100) (by norm_num) (by norm_num) exInner s' str
    (fun _ _ => 9) h (fun c q hc hq => by interval_cases c <;> [exact (hm q hq).1; exact (hm q hq).2])
  refine ⟨s', str, d, h, hd, ?_⟩
  rw [C52_log 4 4 (1 / 100) (by norm_num) (by norm_num) exInner s' str _ d h hm hd _ _ (.refl _)
    (.refl _)]
  exact List.length_pos_of_mem exInner_mem

/-- The hypotheses of the relaxed mode. -/
example : ∃ m' s d, compress Online2D.Relax.realR Online2D.parOnline maxCount checkCP 4 4 (1 / 4)
      exInner = some (m', s) ∧
    Online2D.decompress realOps Online2D.parOnline 4 4 ⟨fun _ => 9, fun _ => 9⟩ s = some d ∧
    0 < (report CP2.type (extract 4 4 exInner) (extract 4 4 d)).tp := by
  have hb : 16 * Online2D.parOnline.thr ≤ (1 / 4 : ℝ) := by norm_num [Online2D.parOnline]
  obtain ⟨m', s, d, h, hd, -⟩ := C21_exact_partial checkCP 4 4 (1 / 4) (by norm_num) (.inl hb)
    exInner ⟨fun _ => 9, fun _ => 9⟩
  refine ⟨m', s, d, h, hd, ?_⟩
  rw [C52_relaxed 4 4 (1 / 4) (.inl hb) exInner m' _ d s h hd _ _ (.refl _) (.refl _)]
  exact List.length_pos_of_mem exInner_mem

end CpSZ.Extract
