import Verif.Ieee.Run
import Verif.Online2D.Real
import Verif.Props.Online2D
/-
Critical points of the 2D online absolute mode (src/sz_compress_cp_preserve_2d.cpp L732-771,
L989-1242) in IEEE-754 arithmetic: the bound of a triangle with a critical point is computed as
zero (rounding is monotone, so the minors keep their signs or become zero), and the vertices of
such a triangle are stored verbatim.
-/

namespace CpSZ.Ieee
open CpSZ.Online2D

/-- Rounding is monotone on finite results. -/
theorem round_mono {F : Fmt} (hF : F.Ok) {x y a b : ℚ} (h : x ≤ y) (hx : round F x = .fin a)
    (hy : round F y = .fin b) : a ≤ b := by
  obtain ⟨x1, -, x3, x4⟩ := round_fin hx
  obtain ⟨y1, -, y3, y4⟩ := round_fin hy
  rcases le_total 0 x with h0 | h0
  · have h0' := h0.trans h
    rw [abs_of_nonneg (x3 h0), abs_of_nonneg h0] at x1
    rw [abs_of_nonneg (y3 h0'), abs_of_nonneg h0'] at y1
    rw [x1, y1]
    exact rmag_mono hF h0 h
  · rcases le_total 0 y with h1 | h1
    · exact (x4 h0).trans (y3 h1)
    · rw [abs_of_nonpos (x4 h0), abs_of_nonpos h0] at x1
      rw [abs_of_nonpos (y4 h1), abs_of_nonpos h1] at y1
      have := rmag_mono hF (show 0 ≤ -y by linarith) (neg_le_neg h)
      rw [← x1, ← y1] at this
      linarith

section
variable {T D : Type} {O : Ops T D} {F : Fmt} {vT : T → Fp ℚ} {vD : D → Fp ℚ} {eps : ℚ}
  {E : EOps T D}

section bounded
variable (hO : IsIeee O F vT vD eps) (hE : IsIeeeE E F vT vD) (hF : F.Ok)
include hO hF hE

/-- A computed determinant has the sign of the exact one, or is zero. -/
theorem det_sign {k : Int} (h1 : F.umin ≤ k + k) (h2 : k + k + 1 ≤ F.emax) {a b c d : T}
    {x y z w t : ℚ} (ha : vT a = .fin x) (hb : vT b = .fin y) (hc : vT c = .fin z)
    (hd : vT d = .fin w) (hx : |x| ≤ p2 k) (hy : |y| ≤ p2 k) (hz : |z| ≤ p2 k) (hw : |w| ≤ p2 k)
    (ht : vT (O.subT (E.mulT a b) (E.mulT c d)) = .fin t) :
    (0 ≤ x * y - z * w → 0 ≤ t) ∧ (x * y - z * w ≤ 0 → t ≤ 0) := by
  obtain ⟨s1, e1, -⟩ := bd_mul hE hF h1 (by omega) ⟨x, ha, hx⟩ ⟨y, hb, hy⟩
  obtain ⟨s2, e2, -⟩ := bd_mul hE hF h1 (by omega) ⟨z, hc, hz⟩ ⟨w, hd, hw⟩
  rw [hO.subT, e1, e2, sub_fin] at ht
  have r1 : round F (x * y) = .fin s1 := by rw [← e1, hE.mulT, ha, hb]; rfl
  have r2 : round F (z * w) = .fin s2 := by rw [← e2, hE.mulT, hc, hd]; rfl
  obtain ⟨-, -, t3, t4⟩ := round_fin ht
  refine ⟨fun h => t3 ?_, fun h => t4 ?_⟩
  · have := round_mono hF (show z * w ≤ x * y by linarith) r2 r1
    linarith
  · have := round_mono hF (show x * y ≤ z * w by linarith) r1 r2
    linarith

/-- The computed bound of a triangle with a critical point is zero. -/
theorem derive_cp (hp : F.p ≤ binary64.p) (hu : binary64.umin ≤ F.umin)
    (he : F.emax ≤ binary64.emax) {k : Int} (h0 : 0 ≤ k) (h2 : k + k + 3 ≤ F.emax)
    {u0 u1 u2 v0 v1 v2 : T} {xu0 xu1 xu2 xv0 xv1 xv2 : ℚ}
    (u0v : vT u0 = .fin xu0) (u1v : vT u1 = .fin xu1) (u2v : vT u2 = .fin xu2)
    (v0v : vT v0 = .fin xv0) (v1v : vT v1 = .fin xv1) (v2v : vT v2 = .fin xv2)
    (u0b : |xu0| ≤ p2 k) (u1b : |xu1| ≤ p2 k) (u2b : |xu2| ≤ p2 k)
    (v0b : |xv0| ≤ p2 k) (v1b : |xv1| ≤ p2 k) (v2b : |xv2| ≤ p2 k)
    (hs : (0 ≤ xu2 * xv0 - xu0 * xv2 ∧ 0 ≤ xu1 * xv2 - xu2 * xv1 ∧ 0 ≤ xu0 * xv1 - xu1 * xv0) ∨
      (xu2 * xv0 - xu0 * xv2 ≤ 0 ∧ xu1 * xv2 - xu2 * xv1 ≤ 0 ∧ xu0 * xv1 - xu1 * xv0 ≤ 0)) :
    vD (deriveAbsT O E u0 u1 u2 v0 v1 v2) = .fin 0 := by
  have hum := (emin_le hF).2.1
  have hum64 := (emin_le ok64).2.1
  obtain ⟨m0, m0v, m0b⟩ := det_val hO hE hF (k := k) (by omega) (by omega) ⟨_, u2v, u2b⟩
    ⟨_, v0v, v0b⟩ ⟨_, u0v, u0b⟩ ⟨_, v2v, v2b⟩
  obtain ⟨m1, m1v, m1b⟩ := det_val hO hE hF (k := k) (by omega) (by omega) ⟨_, u1v, u1b⟩
    ⟨_, v2v, v2b⟩ ⟨_, u2v, u2b⟩ ⟨_, v1v, v1b⟩
  obtain ⟨m2, m2v, m2b⟩ := det_val hO hE hF (k := k) (by omega) (by omega) ⟨_, u0v, u0b⟩
    ⟨_, v1v, v1b⟩ ⟨_, u1v, u1b⟩ ⟨_, v0v, v0b⟩
  have g0 := det_sign hO hE hF (k := k) (by omega) (by omega) u2v v0v u0v v2v u2b v0b u0b v2b m0v
  have g1 := det_sign hO hE hF (k := k) (by omega) (by omega) u1v v2v u2v v1v u1b v2b u2b v1b m1v
  have g2 := det_sign hO hE hF (k := k) (by omega) (by omega) u0v v1v u1v v0v u0b v1b u1b v0b m2v
  have hsig : (0 ≤ m0 ∧ 0 ≤ m1 ∧ 0 ≤ m2) ∨ (m0 ≤ 0 ∧ m1 ≤ 0 ∧ m2 ≤ 0) := by
    rcases hs with ⟨a, b, c⟩ | ⟨a, b, c⟩
    · exact Or.inl ⟨g0.1 a, g1.1 b, g2.1 c⟩
    · exact Or.inr ⟨g0.2 a, g1.2 b, g2.2 c⟩
  have radd : ∀ {x : ℚ} {a : T}, vT a = .fin x → round binary64 x = .fin x :=
    fun h => round_rep ok64 ((hO.repT _ _ h).widen hp hu he)
  obtain ⟨s, sv, sb⟩ := round_bounded ok64 (rep_p2 (F := binary64) (k := k + k + 1 + 1)
    (by omega) (by omega)) (x := m0 + m1) (by
      have := abs_add_le m0 m1
      rw [p2_succ]; linarith)
  obtain ⟨M, Mv, -⟩ := round_bounded ok64 (rep_p2 (F := binary64) (k := k + k + 1 + 1 + 1)
    (by omega) (by omega)) (x := s + m2) (by
      have h3 := abs_add_le s m2
      have h4 : p2 (k + k + 1) ≤ p2 (k + k + 1 + 1) := p2_le (by omega)
      rw [p2_succ]; linarith)
  have z64 : round binary64 0 = .fin 0 := round_zero ok64
  have hM : vD (O.add (O.add (O.toD (O.subT (E.mulT u2 v0) (E.mulT u0 v2)))
      (O.toD (O.subT (E.mulT u1 v2) (E.mulT u2 v1))))
      (O.toD (O.subT (E.mulT u0 v1) (E.mulT u1 v0)))) = .fin M := by
    rw [hO.add, hO.add, hO.toD, hO.toD, hO.toD, m0v, m1v, m2v]
    change Fp.add (round binary64) (round binary64 (m0 + m1)) (.fin m2) = _
    rw [sv]; exact Mv
  -- the sum is beyond each of the three
  have big : ∀ x, x = m0 ∨ x = m1 ∨ x = m2 → (0 ≤ x ∧ x ≤ M) ∨ (x ≤ 0 ∧ M ≤ x) := by
    rcases hsig with ⟨p0, p1, p2⟩ | ⟨p0, p1, p2⟩
    · have s0 := round_mono ok64 (show m0 ≤ m0 + m1 by linarith) (radd m0v) sv
      have s1 := round_mono ok64 (show m1 ≤ m0 + m1 by linarith) (radd m1v) sv
      have t0 := round_mono ok64 (show m0 ≤ s + m2 by linarith) (radd m0v) Mv
      have t1 := round_mono ok64 (show m1 ≤ s + m2 by linarith) (radd m1v) Mv
      have t2 := round_mono ok64 (show m2 ≤ s + m2 by linarith) (radd m2v) Mv
      rintro x (rfl | rfl | rfl)
      · exact Or.inl ⟨p0, t0⟩
      · exact Or.inl ⟨p1, t1⟩
      · exact Or.inl ⟨p2, t2⟩
    · have s0 := round_mono ok64 (show m0 + m1 ≤ m0 by linarith) sv (radd m0v)
      have s1 := round_mono ok64 (show m0 + m1 ≤ m1 by linarith) sv (radd m1v)
      have t0 := round_mono ok64 (show s + m2 ≤ m0 by linarith) Mv (radd m0v)
      have t1 := round_mono ok64 (show s + m2 ≤ m1 by linarith) Mv (radd m1v)
      have t2 := round_mono ok64 (show s + m2 ≤ m2 by linarith) Mv (radd m2v)
      rintro x (rfl | rfl | rfl)
      · exact Or.inr ⟨p0, t0⟩
      · exact Or.inr ⟨p1, t1⟩
      · exact Or.inr ⟨p2, t2⟩
  have one64 : round binary64 1 = .fin 1 := by
    simpa [p2_zero] using round_rep ok64 (rep_p2 (F := binary64) (k := 0) (by decide) (by decide))
  have flag : ∀ {A : T} {x : ℚ}, vT A = .fin x → x = m0 ∨ x = m1 ∨ x = m2 → ∀ S, vD S = .fin M →
      (eq0G O.toDOps (O.toD A) || O.le (O.ofInt 1) (O.div S (O.toD A))) = true := by
    intro A x hA hx S hS
    have hA' : vD (O.toD A) = .fin x := by rw [hO.toD, hA]
    by_cases hx0 : x = 0
    · rw [hO.eq0_fin hA']; simp [hx0]
    have hq : 1 ≤ M / x := by
      rcases big x hx with ⟨a, b⟩ | ⟨a, b⟩
      · rw [le_div_iff₀ (lt_of_le_of_ne a (Ne.symm hx0))]; linarith
      · rw [le_div_iff_of_neg (lt_of_le_of_ne a hx0)]; linarith
    rw [Bool.or_eq_true]
    right
    rw [hO.le, hO.one, hO.div _ _ (by rw [hA']; simpa using hx0), hS, hA']
    simp only [Fp.div, hx0, if_false]
    cases hr : round binary64 (M / x) with
    | nan => exact absurd hr (round_not_nan _)
    | inf b =>
      have : b = false := by
        unfold round at hr
        split at hr
        · cases hr
        · simp only [Fp.inf.injEq] at hr
          rw [← hr]; simp; linarith
      rw [this]; rfl
    | fin y =>
      have := round_mono ok64 hq one64 hr
      simpa [Fp.le] using this
  unfold deriveAbsT
  simp only
  rw [hO.eq0_fin hM, flag m0v (Or.inl rfl) _ hM, flag m1v (Or.inr (Or.inl rfl)) _ hM,
    flag m2v (Or.inr (Or.inr rfl)) _ hM]
  simp only [Bool.and_self, if_true, ite_self]
  exact hO.zero

end bounded

/-- The number that a value stands for; `0` if there is none. -/
noncomputable def valR : Fp ℚ → ℝ
  | .fin x => (x : ℝ)
  | _ => 0

/-- The field of the numbers that the elements stand for. -/
noncomputable def realField (v : T → Fp ℚ) (f : Online2D.Field T) : Online2D.Field ℝ :=
  ⟨fun q => valR (v (f.u q)), fun q => valR (v (f.v q))⟩

/-- The minors of a triangle with a critical point have one sign. -/
theorem minors_of_cp {u0 u1 u2 v0 v1 v2 : ℝ} (h : HasCP (u0, v0) (u1, v1) (u2, v2)) :
    (0 ≤ u2 * v0 - u0 * v2 ∧ 0 ≤ u1 * v2 - u2 * v1 ∧ 0 ≤ u0 * v1 - u1 * v0) ∨
      (u2 * v0 - u0 * v2 ≤ 0 ∧ u1 * v2 - u2 * v1 ≤ 0 ∧ u0 * v1 - u1 * v0 ≤ 0) := by
  obtain ⟨a, b, c, ha, hb, hc, hs, e1, e2⟩ := h
  simp only at e1 e2
  set M := (u2 * v0 - u0 * v2) + (u1 * v2 - u2 * v1) + (u0 * v1 - u1 * v0) with hM
  have hc' : c = 1 - a - b := by linarith
  have k0 : u2 * v0 - u0 * v2 = b * M := by
    rw [hM]; subst hc'
    linear_combination (-(v2 - v0)) * e1 + (u2 - u0) * e2
  have k1 : u1 * v2 - u2 * v1 = a * M := by
    rw [hM]; subst hc'
    linear_combination (v2 - v1) * e1 - (u2 - u1) * e2
  have k2 : u0 * v1 - u1 * v0 = c * M := by
    rw [hM] at k0 k1 ⊢; subst hc'
    linear_combination (-1 : ℝ) * k0 - k1
  rw [k0, k1, k2]
  rcases le_total 0 M with h | h
  · exact Or.inl ⟨mul_nonneg hb h, mul_nonneg ha h, mul_nonneg hc h⟩
  · exact Or.inr ⟨mul_nonpos_of_nonneg_of_nonpos hb h, mul_nonpos_of_nonneg_of_nonpos ha h,
      mul_nonpos_of_nonneg_of_nonpos hc h⟩

theorem minf_zero (hO : IsIeee O F vT vD eps) {a b : D} (ha : vD a ≠ .nan)
    (hb : vD b = .fin 0) : LeV 0 (vD (minfG O.toDOps a b)) := by
  unfold minfG
  split
  · rename_i h
    rw [hO.lt, hb] at h
    cases hd : vD a with
    | nan => exact absurd hd ha
    | inf s => rw [hd] at h; cases s <;> simp [Fp.lt, LeV] at h ⊢
    | fin y => rw [hd] at h; exact Or.inr ⟨y, rfl, by simp [Fp.lt] at h; exact h.le⟩
  · exact Or.inr ⟨0, hb, le_refl 0⟩

/-- Once a triangle has the bound zero, the bound of the vertex is not positive. -/
theorem requiredLoop_zero (hO : IsIeee O F vT vD eps) {r1 r2 : Nat}
    {derive : Nat → T → T → T → T → T → T → D} {f : Online2D.Field T} {Q : T → Prop}
    (hd : ∀ k u0 u1 u2 v0 v1 v2, Q u0 → Q u1 → Q u2 → Q v0 → Q v1 → Q v2 →
      vD (derive k u0 u1 u2 v0 v1 v2) ≠ .nan)
    (hf : ∀ q, q < r1 * r2 → Q (f.u q) ∧ Q (f.v q)) {i j : Nat} (hi : i < r1) (hj : j < r2)
    {e : ℚ} {ks : List Nat} (hks : ∀ k ∈ ks, k < 6) {req r : D} (hr : LeV e (vD req)) {k : Nat}
    (hk : k ∈ ks) (hm : Mesh2D.inMesh r1 r2 i j k = true)
    (hz : vD (derive k (f.u (Mesh2D.nbr r2 (i * r2 + j) k))
      (f.u (Mesh2D.nbr r2 (i * r2 + j) (k + 1))) (f.u (i * r2 + j))
      (f.v (Mesh2D.nbr r2 (i * r2 + j) k)) (f.v (Mesh2D.nbr r2 (i * r2 + j) (k + 1)))
      (f.v (i * r2 + j))) = .fin 0)
    (h : Mesh2D.requiredLoop r1 r2 (minfG O.toDOps) derive f (i * r2 + j) ks req = some r) :
    LeV 0 (vD r) := by
  have hp : i * r2 + j < r1 * r2 := Mesh2D.flat_lt _ _ _ _ hi hj
  induction ks generalizing req with
  | nil => simp at hk
  | cons k' ks ih =>
    have hk6 := hks k' (by simp)
    rw [Mesh2D.requiredLoop_cons r1 r2 _ derive f i j k' ks req hi hj hk6] at h
    have nn : vD req ≠ .nan := by
      rcases hr with hr | ⟨x, hr, -⟩ <;> rw [hr] <;> simp
    by_cases hkk : k' = k
    · subst hkk
      rw [if_pos hm] at h
      exact requiredLoop_ieee hO hd hf hp (minf_zero hO nn hz) h
    · have hk' : k ∈ ks := by
        rcases List.mem_cons.1 hk with h1 | h1
        · exact absurd h1.symm hkk
        · exact h1
      refine ih (fun q hq => hks q (by simp [hq])) (req := _) ?_ hk' h
      split
      · rename_i hin
        obtain ⟨n0, n1, -⟩ := Mesh2D.tri_flat r1 r2 i j k' hi hj hk6 hin
        exact minf_le hO hr (hd _ _ _ _ _ _ _ (hf _ n0).1 (hf _ n1).1 (hf _ hp).1 (hf _ n0).2
          (hf _ n1).2 (hf _ hp).2)
      · exact hr

/-- A vertex of a triangle with a critical point is stored. -/
theorem boundAbsT_cp (hO : IsIeee O F vT vD eps) (hE : IsIeeeE E F vT vD) (hF : F.Ok)
    (hp : F.p ≤ binary64.p) (hu : binary64.umin ≤ F.umin)
    (he : F.emax ≤ binary64.emax) {k : Int} (h0 : 0 ≤ k) (h2 : k + k + 3 ≤ F.emax)
    {r1 r2 : Nat} {maxEb : D} {e : ℚ} (hm : vD maxEb = .fin e) {f : Online2D.Field T}
    (hf : ∀ q, q < r1 * r2 → Bd vT k (f.u q) ∧ Bd vT k (f.v q)) {p : Nat} (hpn : p < r1 * r2)
    {t : Tri} (ht : t.inGrid r1 r2) (hv : (p / r2, p % r2) ∈ t.verts)
    (hc : t.hasCP r2 (realField vT f)) {req : D}
    (h : boundAbsT O E r1 r2 maxEb f p = some req) : O.lt (O.ofInt 0) req = false := by
  unfold boundAbsT at h
  rw [hO.lt, hO.zero]
  split at h
  · simp only [Option.some.injEq] at h
    rw [← h, hO.zero]
    simp [Fp.lt]
  · obtain ⟨hi, hj, hpe⟩ := flat_split hpn
    obtain ⟨κ, hk, hin, htk, -⟩ := Mesh2D.incident_unique r1 r2 _ _ t hi hj ht hv
    obtain ⟨n0, n1, -, -, hcp, -⟩ := Mesh2D.tri_flat r1 r2 (p / r2) (p % r2) κ hi hj hk hin
    rw [hpe, htk] at hcp
    rw [hpe] at n0 n1
    have hcp := (hcp _).1 hc
    have := requiredLoop_zero hO (Q := Bd vT k) (derive := fun _ => deriveAbsT O E)
      (fun _ u0 u1 u2 v0 v1 v2 b0 b1 b2 c0 c1 c2 =>
        derive_not_nan hO hE hF hp hu he h0 h2 b0 b1 b2 c0 c1 c2) hf hi hj
      (ks := [0, 1, 2, 3, 4, 5]) (by simp) (Or.inr ⟨e, hm, le_refl e⟩) (k := κ)
      (by simp; omega) hin (by
        rw [hpe]
        obtain ⟨⟨a0, a0v, a0b⟩, ⟨c0, c0v, c0b⟩⟩ := hf _ n0
        obtain ⟨⟨a1, a1v, a1b⟩, ⟨c1, c1v, c1b⟩⟩ := hf _ n1
        obtain ⟨⟨a2, a2v, a2b⟩, ⟨c2, c2v, c2b⟩⟩ := hf _ hpn
        refine derive_cp hO hE hF hp hu he h0 h2 a0v a1v a2v c0v c1v c2v a0b a1b a2b c0b c1b c2b ?_
        have := minors_of_cp hcp
        simp only [realField, a0v, a1v, a2v, c0v, c1v, c2v, valR] at this
        exact_mod_cast this) (by rw [hpe]; exact h)
    rcases this with h3 | ⟨x, h3, h4⟩ <;> rw [h3]
    · simp [Fp.lt]
    · simp [Fp.lt, h4]

/-- The vertices of a triangle with a critical point are not changed. -/
theorem abs2_keep (hO : IsIeee O F vT vD eps) (hE : IsIeeeE E F vT vD) (hF : F.Ok)
    (hp : F.p ≤ binary64.p) (hu : binary64.umin ≤ F.umin) (he : F.emax ≤ binary64.emax)
    (hemin : F.emin ≤ -52) (he0 : 0 ≤ eps) (he1 : eps ≤ p2 (-30)) {P : Par D}
    (hbase : P.base = 4)
    (hlb : vD P.logBase = .fin 2) (hthr : vD P.thr = .fin (p2 (-52)))
    {r : Int} (h0 : 0 ≤ r) (h1 : r ≤ 400) (h2 : r + r + 7 ≤ F.emax) {r1 r2 : Nat} {maxEb : D}
    {e : ℚ} (hm : vD maxEb = .fin e) (hep : 0 ≤ e) (her : e ≤ p2 r) {m m' : Online2D.Field T}
    {s : Streams T} (hf : ∀ q, q < r1 * r2 → Bd vT r (m.u q) ∧ Bd vT r (m.v q))
    (h : compress O P r1 r2 (fun a _ => a) (boundAbsT O E r1 r2 maxEb) m = some (m', s))
    {t : Tri} (ht : t.inGrid r1 r2) (hc : t.hasCP r2 (realField vT m)) :
    ∀ P ∈ t.verts, m'.u (P.1 * r2 + P.2) = m.u (P.1 * r2 + P.2) ∧
      m'.v (P.1 * r2 + P.2) = m.v (P.1 * r2 + P.2) := by
  have hs2 := slack_le F he1
  have he2 : eps ≤ 1 := he1.trans (by rw [← p2_zero]; exact p2_le (by norm_num))
  have hs : 0 ≤ slack F eps := by
    have : p2 (-((F.p : Int) + 1)) ≤ p2 0 := p2_le (by omega)
    rw [p2_zero] at this
    have h5 := p2_pos (-53)
    exact mul_nonneg (by linarith) (mul_nonneg (by linarith) (by linarith))
  have wide : ∀ {x c : T}, Bd vT r c → Cl vT (slack F eps * e) x c → Bd vT (r + 1 + 1) x := by
    intro x c hc hx
    rcases hx with rfl | ⟨X, C, x1, x2, x3⟩
    · exact hc.mono (by omega)
    · obtain ⟨y, y1, y2⟩ := hc
      rw [x2] at y1
      cases y1
      refine ⟨X, x1, ?_⟩
      have h3 := abs_sub_abs_le_abs_sub X C
      have h4 : slack F eps * e ≤ 2 * e := mul_le_mul_of_nonneg_right hs2 hep
      have h5 := p2_pos r
      rw [p2_succ, p2_succ]
      linarith
  have hcol : ∀ P ∈ t.verts, P.2 < r2 := by
    intro P hP
    unfold Tri.inGrid at ht
    unfold Tri.verts at hP
    split at hP <;> simp only [List.mem_cons, List.not_mem_nil, or_false] at hP <;>
      rcases hP with rfl | rfl | rfl <;> simp only <;> omega
  have same : ∀ f : Online2D.Field T, (∀ P ∈ t.verts, f.u (P.1 * r2 + P.2) = m.u (P.1 * r2 + P.2) ∧
      f.v (P.1 * r2 + P.2) = m.v (P.1 * r2 + P.2)) → t.hasCP r2 (realField vT f) := by
    intro f hf
    have hq : ∀ q, q < 3 → t.vec r2 (realField vT f) q = t.vec r2 (realField vT m) q := by
      intro q hq
      have hmem : t.verts.getD q (0, 0) ∈ t.verts := by
        unfold Tri.verts
        have : q = 0 ∨ q = 1 ∨ q = 2 := by omega
        split <;> rcases this with rfl | rfl | rfl <;> simp
      obtain ⟨e1, e2⟩ := hf _ hmem
      unfold Tri.vec
      simp only [gridVal, realField]
      rw [e1, e2]
    unfold Tri.hasCP at hc ⊢
    rw [hq 0 (by norm_num), hq 1 (by norm_num), hq 2 (by norm_num)]
    exact hc
  have inv := compress_inv _ _ _ _ _ _ m m' s h
    (fun p f => (∀ q, p ≤ q → f.u q = m.u q ∧ f.v q = m.v q) ∧ (∀ q, q < r1 * r2 →
      Cl vT (slack F eps * e) (f.u q) (m.u q) ∧ Cl vT (slack F eps * e) (f.v q) (m.v q)) ∧
      ∀ P ∈ t.verts, f.u (P.1 * r2 + P.2) = m.u (P.1 * r2 + P.2) ∧
        f.v (P.1 * r2 + P.2) = m.v (P.1 * r2 + P.2))
    ⟨fun _ _ => ⟨rfl, rfl⟩, fun _ _ => ⟨Or.inl rfl, Or.inl rfl⟩, fun _ _ => ⟨rfl, rfl⟩⟩
    (fun p f _ hI => ⟨fun q hq => hI.1 q (by omega), hI.2⟩)
    (fun p f x y hpn hI hS => by
      obtain ⟨req, e0, q0, e1, q1, hb, hlt, c0, c1⟩ := hS
      obtain ⟨eu, ev⟩ := hI.1 p (le_refl p)
      obtain ⟨⟨cu, hcu, -⟩, ⟨cv, hcv, -⟩⟩ := hf p hpn
      have hw : ∀ q, q < r1 * r2 → Bd vT (r + 1 + 1) (f.u q) ∧ Bd vT (r + 1 + 1) (f.v q) :=
        fun q hq => ⟨wide (hf q hq).1 (hI.2.1 q hq).1, wide (hf q hq).2 (hI.2.1 q hq).2⟩
      obtain ⟨A, a1, a2, a3⟩ := boundAbsT_le hO hE hF hp hu he (k := r + 1 + 1) (by omega)
        (by omega) hm hw hpn hb hlt
      have hA : A ≤ p2 400 := (a3.trans her).trans (p2_le h1)
      obtain ⟨X, x1, x2, -⟩ := encComp_ieee hO hF hemin he0 he2 hbase hlb hthr a1 hA c0
        (by rw [eu]; exact hcu)
      obtain ⟨Y, y1, y2, -⟩ := encComp_ieee hO hF hemin he0 he2 hbase hlb hthr a1 hA c1
        (by rw [ev]; exact hcv)
      have hAe := mul_le_mul_of_nonneg_left a3 hs
      refine ⟨fun q hq => ?_, fun q hq => ?_, fun P hP => ?_⟩
      · have hne : q ≠ p := by omega
        simp only [Field.set, setAt, if_neg hne]
        exact hI.1 q (by omega)
      · by_cases hqp : q = p
        · subst hqp
          simp only [Field.set, setAt, if_true]
          exact ⟨Or.inr ⟨X, cu, x1, hcu, x2.trans hAe⟩, Or.inr ⟨Y, cv, y1, hcv, y2.trans hAe⟩⟩
        · simp only [Field.set, setAt, if_neg hqp]
          exact hI.2.1 q hq
      · by_cases hPp : P.1 * r2 + P.2 = p
        · exfalso
          obtain ⟨hi, hj, hpe⟩ := flat_split hpn
          obtain ⟨f1, f2⟩ := Mesh2D.flat_inj (hcol P hP) hj (hPp.trans hpe.symm)
          have hv : (p / r2, p % r2) ∈ t.verts := by rw [← f1, ← f2]; exact hP
          have := boundAbsT_cp hO hE hF hp hu he (k := r + 1 + 1) (by omega) (by omega) hm hw hpn
            ht hv (same f hI.2.2) hb
          rw [this] at hlt
          cases hlt
        · simp only [Field.set, setAt, if_neg hPp]
          exact hI.2.2 P hP)
  exact inv.2.2

end

end CpSZ.Ieee
