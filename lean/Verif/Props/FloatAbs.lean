import Verif.AbsRounded
import Verif.Props.FloatCP
import Verif.Props.Abs2D
/-
Property C71: critical points in floating point arithmetic (2D absolute mode).

One half holds without any assumption on the data (`C71_never_lost_float`,
`C71_never_lost_double`): the vertices of a triangle with a critical point come back exactly, so no
critical point is lost.  Monotone rounding keeps the signs of the minors, and with minors of one
sign all three flags are computed as `true`.

The other half fails (`C71_critical_point_created`): the bound of a triangle without critical point
is computed from differences that cancel, and critical points may be created.
`C71_kept_float_partial` and `C71_kept_double_partial` say that this is the only cause.
-/

namespace CpSZ.Rounded
open CpSZ CpSZ.Online2D CpSZ.Mesh2D

/-! ### The arithmetic -/

/-- Every number of `p` bits is a number of 53 bits. -/
theorem fl_sub_le {rnd rnd' : ℝ → ℤ} (hr : IsIntRounding rnd) (hr' : IsIntRounding rnd') {p : ℕ}
    (hp : 1 ≤ p) (hp' : p < 53) (x : ℝ) : fl rnd' 53 (fl rnd p x) = fl rnd p x := by
  have key : ∀ y : ℝ, 0 < y → fl rnd' 53 (flPos rnd p y) = flPos rnd p y := by
    intro y hy
    have h2 := (flPos_range hr (p := p) hp hy).2
    have h0 := flPos_nonneg hr (p := p) hy.le
    have he : (0 : ℝ) < (2 : ℝ) ^ ulpExp p y := zpow_pos (by norm_num) _
    have e : (2 : ℝ) ^ (Int.log 2 y + 1) = 2 ^ p * (2 : ℝ) ^ ulpExp p y := by
      rw [← zpow_natCast, ← zpow_add₀ (by norm_num : (2 : ℝ) ≠ 0), ulpExp]
      congr 1; ring
    rw [e] at h2
    have k2 : (rnd (y / (2 : ℝ) ^ ulpExp p y) : ℝ) ≤ 2 ^ p := le_of_mul_le_mul_right h2 he
    have k0 : (0 : ℝ) ≤ (rnd (y / (2 : ℝ) ^ ulpExp p y) : ℝ) :=
      le_of_mul_le_mul_right (by rw [zero_mul]; exact h0) he
    have k2' : rnd (y / (2 : ℝ) ^ ulpExp p y) ≤ 2 ^ p := by exact_mod_cast k2
    have k0' : 0 ≤ rnd (y / (2 : ℝ) ^ ulpExp p y) := by exact_mod_cast k0
    refine fl_exact hr' (n := rnd (y / (2 : ℝ) ^ ulpExp p y)) (e := ulpExp p y) rfl ?_
    rw [abs_of_nonneg k0']
    exact lt_of_le_of_lt k2' (pow_lt_pow_right₀ (by norm_num) hp')
  rcases lt_trichotomy x 0 with h | rfl | h
  · have : fl rnd p x = -flPos rnd p (-x) := by unfold fl; rw [if_neg (by linarith)]
    rw [this, fl_neg hr', key (-x) (by linarith)]
  · have : fl rnd p 0 = 0 := by simp [fl, flPos_zero hr]
    rw [this]; simp [fl, flPos_zero hr']
  · have : fl rnd p x = flPos rnd p x := by unfold fl; rw [if_pos h.le]
    rw [this, key x h]

/-- Rounding twice to the same format. -/
theorem fl_idem {rnd : ℝ → ℤ} (hr : IsIntRounding rnd) {p : ℕ} (hp' : 24 ≤ p) (x : ℝ) :
    fl rnd p (fl rnd p x) = fl rnd p x := by
  have hp : 1 ≤ p := by omega
  have hF := fl_isFloat hr hp'
  have key : ∀ y : ℝ, 0 < y → fl rnd p (flPos rnd p y) = flPos rnd p y := by
    intro y hy
    have h2 := (flPos_range hr (p := p) hp hy).2
    have h0 := flPos_nonneg hr (p := p) hy.le
    have he : (0 : ℝ) < (2 : ℝ) ^ ulpExp p y := zpow_pos (by norm_num) _
    have e : (2 : ℝ) ^ (Int.log 2 y + 1) = 2 ^ p * (2 : ℝ) ^ ulpExp p y := by
      rw [← zpow_natCast, ← zpow_add₀ (by norm_num : (2 : ℝ) ≠ 0), ulpExp]
      congr 1; ring
    rcases eq_or_lt_of_le h2 with h3 | h3
    · rw [h3]; exact hF.pow2all _
    rw [e] at h3
    have k2 : (rnd (y / (2 : ℝ) ^ ulpExp p y) : ℝ) < 2 ^ p := lt_of_mul_lt_mul_right h3 he.le
    have k0 : (0 : ℝ) ≤ (rnd (y / (2 : ℝ) ^ ulpExp p y) : ℝ) :=
      le_of_mul_le_mul_right (by rw [zero_mul]; exact h0) he
    have k2' : rnd (y / (2 : ℝ) ^ ulpExp p y) < 2 ^ p := by exact_mod_cast k2
    have k0' : 0 ≤ rnd (y / (2 : ℝ) ^ ulpExp p y) := by exact_mod_cast k0
    refine fl_exact hr (n := rnd (y / (2 : ℝ) ^ ulpExp p y)) (e := ulpExp p y) rfl ?_
    rw [abs_of_nonneg k0']
    exact k2'
  rcases lt_trichotomy x 0 with h | rfl | h
  · have : fl rnd p x = -flPos rnd p (-x) := by unfold fl; rw [if_neg (by linarith)]
    rw [this, fl_neg hr, key (-x) (by linarith)]
  · have : fl rnd p 0 = 0 := by simp [fl, flPos_zero hr]
    rw [this, this]
  · have : fl rnd p x = flPos rnd p x := by unfold fl; rw [if_pos h.le]
    rw [this, key x h]

theorem _root_.CpSZ.IsFloat.eq_zero {r : ℝ → ℝ} {u : ℝ} (h : IsFloat r u) (hu : u < 1) (x : ℝ) :
    r x = 0 ↔ x = 0 := by
  constructor
  · intro h0
    have := h.rel x
    rw [h0, zero_sub, abs_neg] at this
    by_contra hx
    have := abs_pos.2 hx
    nlinarith
  · rintro rfl
    simpa using h.int 0 (by norm_num)

/-- `float` data: `float` to nearest or in any other direction, `double` in any direction. -/
theorem monoRounding_float {rnd rnd' : ℝ → ℤ} (hr : IsIntRounding rnd) (hr' : IsIntRounding rnd')
    {rF : ℝ → ℝ} {uF : ℝ} (hF : IsFloat rF uF) (hu : uF < 1) :
    MonoRounding (fl rnd 24) rF (fl rnd' 53) where
  monoT := (fl_isFloat hr (p := 24) (by norm_num)).mono
  zeroT := (fl_isFloat hr (p := 24) (by norm_num)).eq_zero (by norm_num)
  zeroF := hF.eq_zero hu
  monoD := (fl_isFloat hr' (p := 53) (by norm_num)).mono
  zeroD := by simpa using (fl_isFloat hr' (p := 53) (by norm_num)).int 0 (by norm_num)
  oneD := by simpa using (fl_isFloat hr' (p := 53) (by norm_num)).int 1 (by norm_num)
  sub := fl_sub_le hr hr' (by norm_num) (by norm_num)

/-- `double` data. -/
theorem monoRounding_double {rnd : ℝ → ℤ} (hr : IsIntRounding rnd) :
    MonoRounding (fl rnd 53) (fl rnd 53) (fl rnd 53) where
  monoT := (fl_isFloat hr (p := 53) (by norm_num)).mono
  zeroT := (fl_isFloat hr (p := 53) (by norm_num)).eq_zero (by norm_num)
  zeroF := (fl_isFloat hr (p := 53) (by norm_num)).eq_zero (by norm_num)
  monoD := (fl_isFloat hr (p := 53) (by norm_num)).mono
  zeroD := by simpa using (fl_isFloat hr (p := 53) (by norm_num)).int 0 (by norm_num)
  oneD := by simpa using (fl_isFloat hr (p := 53) (by norm_num)).int 1 (by norm_num)
  sub := fl_idem hr (by norm_num)

/-! ### Critical points are not lost -/

theorem boundAbsR_defined {rT rF rD : ℝ → ℝ} {r1 r2 : Nat} {maxEb : ℝ} (f : Online2D.Field ℝ)
    (q : Nat) (hq : q < r1 * r2) : (boundAbsR rT rF rD r1 r2 maxEb f q).isSome := by
  obtain ⟨hi, hj, hpe⟩ := flat_split hq
  unfold boundAbsR
  split
  · rfl
  · have hb := requiredLoop_defined r1 r2 minfX (fun _ => deriveAbsR rT rF rD) f (q / r2) (q % r2)
      [0, 1, 2, 3, 4, 5] (by simp) (some maxEb) hi hj
    rw [hpe] at hb
    obtain ⟨req, hreq⟩ := Option.isSome_iff_exists.1 hb
    unfold requiredEb; rw [hreq]; rfl

/-- Common part. -/
theorem never_lost {rT rF rD : ℝ → ℝ} (H : MonoRounding rT rF rD) (lg : ℝ → ℝ) {r1 r2 : Nat}
    {maxEb : ℝ} {m m0 : Online2D.Field ℝ} :
    ∃ m' s d, compress (roundedOps rT rD lg) parOnline r1 r2 (fun req _ => req)
        (boundAbsR rT rF rD r1 r2 maxEb) m = some (m', s) ∧
      decompress (roundedOps rT rD lg) parOnline r1 r2 m0 s = some d ∧
      ∀ t : Tri, t.inGrid r1 r2 → t.hasCP r2 m → t.hasCP r2 d ∧ ∀ P ∈ t.verts,
        gridVal r2 d.u P = gridVal r2 m.u P ∧ gridVal r2 d.v P = gridVal r2 m.v P := by
  obtain ⟨m', s, h⟩ := compress_defined2 (roundedOps rT rD lg) parOnline r1 r2 (fun req _ => req)
    (boundAbsR rT rF rD r1 r2 maxEb) m (fun f q hq => boundAbsR_defined f q hq)
  obtain ⟨d, hd, hA⟩ := lockstep _ _ _ _ _ _ m m0 m' s h
  refine ⟨m', s, d, h, hd, fun t ht hc => ?_⟩
  have same : ∀ f : Online2D.Field ℝ, (∀ P ∈ t.verts, gridVal r2 f.u P = gridVal r2 m.u P ∧
      gridVal r2 f.v P = gridVal r2 m.v P) → t.hasCP r2 f := by
    intro f hf
    have hq : ∀ q, q < 3 → t.vec r2 f q = t.vec r2 m q := by
      intro q hq
      have hmem : t.verts.getD q (0, 0) ∈ t.verts := by
        unfold Tri.verts
        have : q = 0 ∨ q = 1 ∨ q = 2 := by omega
        split <;> rcases this with rfl | rfl | rfl <;> simp
      unfold Tri.vec
      exact Prod.ext (hf _ hmem).1 (hf _ hmem).2
    unfold Tri.hasCP at hc ⊢
    rw [hq 0 (by norm_num), hq 1 (by norm_num), hq 2 (by norm_num)]
    exact hc
  have inv := compress_inv _ _ _ _ _ _ m m' s h
    (fun _ f => ∀ P ∈ t.verts, gridVal r2 f.u P = gridVal r2 m.u P ∧
      gridVal r2 f.v P = gridVal r2 m.v P)
    (fun _ _ => ⟨rfl, rfl⟩) (fun _ _ _ hI => hI)
    (fun p f x y hp hI hS P hP => by
      obtain ⟨req, e0, q0, e1, q1, hb, hlt, -, -⟩ := hS
      have hpos : 0 < req := by
        have := of_decide_eq_true hlt
        simpa [roundedOps, H.zeroD] using this
      by_cases hPp : P.1 * r2 + P.2 = p
      · exfalso
        obtain ⟨hi, hj, hpe⟩ := flat_split hp
        have hcol : P.2 < r2 := by
          unfold Tri.inGrid at ht
          unfold Tri.verts at hP
          split at hP <;> simp only [List.mem_cons, List.not_mem_nil, or_false] at hP <;>
            rcases hP with rfl | rfl | rfl <;> simp only <;> omega
        obtain ⟨e1, e2⟩ := flat_inj hcol hj (hPp.trans hpe.symm)
        have hv : (p / r2, p % r2) ∈ t.verts := by rw [← e1, ← e2]; exact hP
        have := boundAbsR_cp H hp ht hv (same f hI) hb
        linarith
      · have := hI P hP
        unfold gridVal at this ⊢
        simp only [Field.set, setAt, hPp, if_false]
        exact this)
  have hdm : ∀ P ∈ t.verts, gridVal r2 d.u P = gridVal r2 m.u P ∧
      gridVal r2 d.v P = gridVal r2 m.v P := by
    intro P hP
    have hlt : P.1 * r2 + P.2 < r1 * r2 := by
      unfold Tri.inGrid at ht
      have : P.1 < r1 ∧ P.2 < r2 := by
        unfold Tri.verts at hP
        split at hP <;> simp only [List.mem_cons, List.not_mem_nil, or_false] at hP <;>
          rcases hP with rfl | rfl | rfl <;> simp only <;> omega
      exact flat_lt _ _ _ _ this.1 this.2
    have := inv P hP
    unfold gridVal at this ⊢
    rw [(hA _ hlt).1, (hA _ hlt).2]
    exact this
  exact ⟨same d hdm, hdm⟩

/-- C71, `float` data: the compressor is defined on every field, and in what the decompressor
returns no critical point is missing and the vertices of triangles with critical points are exact.
`float` and `double` operations round correctly in any direction, `fabs` is that of either type,
`log2` is arbitrary. -/
theorem C71_never_lost_float {rnd rnd' : ℝ → ℤ} (hr : IsIntRounding rnd) (hr' : IsIntRounding rnd')
    {rF : ℝ → ℝ} {uF : ℝ} (hF : IsFloat rF uF) (hu : uF < 1) (lg : ℝ → ℝ) (r1 r2 : Nat)
    (maxEb : ℝ) (m m0 : Online2D.Field ℝ) :
    ∃ m' s d, compress (roundedOps (fl rnd 24) (fl rnd' 53) lg) parOnline r1 r2
        (fun req _ => req) (boundAbsR (fl rnd 24) rF (fl rnd' 53) r1 r2 maxEb) m = some (m', s) ∧
      decompress (roundedOps (fl rnd 24) (fl rnd' 53) lg) parOnline r1 r2 m0 s = some d ∧
      ∀ t : Tri, t.inGrid r1 r2 → t.hasCP r2 m → t.hasCP r2 d ∧ ∀ P ∈ t.verts,
        gridVal r2 d.u P = gridVal r2 m.u P ∧ gridVal r2 d.v P = gridVal r2 m.v P :=
  never_lost (monoRounding_float hr hr' hF hu) lg

/-- C71, `double` data. -/
theorem C71_never_lost_double {rnd : ℝ → ℤ} (hr : IsIntRounding rnd) (lg : ℝ → ℝ) (r1 r2 : Nat)
    (maxEb : ℝ) (m m0 : Online2D.Field ℝ) :
    ∃ m' s d, compress (roundedOps (fl rnd 53) (fl rnd 53) lg) parOnline r1 r2
        (fun req _ => req) (boundAbsR (fl rnd 53) (fl rnd 53) (fl rnd 53) r1 r2 maxEb) m =
          some (m', s) ∧
      decompress (roundedOps (fl rnd 53) (fl rnd 53) lg) parOnline r1 r2 m0 s = some d ∧
      ∀ t : Tri, t.inGrid r1 r2 → t.hasCP r2 m → t.hasCP r2 d ∧ ∀ P ∈ t.verts,
        gridVal r2 d.u P = gridVal r2 m.u P ∧ gridVal r2 d.v P = gridVal r2 m.v P :=
  never_lost (monoRounding_double hr) lg

/-! ### Critical points created: what holds -/

/-- A change of a vertex within its exact bound neither removes nor creates critical points. -/
theorem boundAbs_spec {r1 r2 : Nat} {maxEb : ℝ} {f : Online2D.Field ℝ} {p : Nat} {x y E : ℝ}
    (hp : p < r1 * r2) (hb : boundAbs r1 r2 maxEb f p = some E) (hpos : 0 < E)
    (hx : |x - f.u p| < E) (hy : |y - f.v p| < E) (t : Tri) (ht : t.inGrid r1 r2) :
    t.hasCP r2 f ↔ t.hasCP r2 (f.set p x y) := by
  obtain ⟨hi, hj, hpe⟩ := flat_split hp
  unfold boundAbs at hb
  split at hb
  · simp only [Option.some.injEq] at hb; linarith
  have hks : ∀ k ∈ [0, 1, 2, 3, 4, 5], k < 6 := by simp
  obtain ⟨E', hE, -, hall⟩ := requiredLoop_le r1 r2 (fun _ => deriveAbs) f (p / r2) (p % r2)
    hi hj [0, 1, 2, 3, 4, 5] hks maxEb (fun k hk _ => by
      obtain ⟨E, hE, -⟩ := deriveAbs_cases (u0 := f.u (nbr r2 (p / r2 * r2 + p % r2) k))
        (u1 := f.u (nbr r2 (p / r2 * r2 + p % r2) (k + 1))) (u2 := f.u (p / r2 * r2 + p % r2))
        (v0 := f.v (nbr r2 (p / r2 * r2 + p % r2) k))
        (v1 := f.v (nbr r2 (p / r2 * r2 + p % r2) (k + 1))) (v2 := f.v (p / r2 * r2 + p % r2))
      rw [hE]; simp)
  rw [hpe] at hE hall
  unfold requiredEb at hb
  rw [hE] at hb
  simp only [Option.map_some, Option.getD_some, Option.some.injEq] at hb
  subst hb
  refine set_hasCP hp (fun k hk hm => ?_) t ht
  obtain ⟨E1, hE1, hle⟩ := hall k (by simp; omega) hm
  obtain ⟨E2, hE2, hs⟩ := deriveAbs_cases (u0 := f.u (nbr r2 p k))
    (u1 := f.u (nbr r2 p (k + 1))) (u2 := f.u p) (v0 := f.v (nbr r2 p k))
    (v1 := f.v (nbr r2 p (k + 1))) (v2 := f.v p)
  rw [hE1] at hE2
  cases hE2
  obtain ⟨s1, s2⟩ := hs E' hpos hle
  exact ⟨fun h => absurd h s1, fun h => absurd h (s2 x y hx hy)⟩

/-- Common part: computed bounds that, enlarged by the factor `C` for all other rounding errors,
do not exceed the exact ones. -/
theorem keptAbs {rT rD lg : ℝ → ℝ} {u g δ C : ℝ} (hT : Guard rT g) (hg : g ≤ 1)
    (hD : IsFloat rD u) (hu : u ≤ 1) (hl : IsLog2 rD lg δ)
    (hC0 : 0 < C) (hC : (1 - g) * ((1 + u) * (2 : ℝ) ^ δ) * (1 + u) ≤ C)
    {r1 r2 : Nat} {maxEb maxEb' : ℝ} {bound : Online2D.Field ℝ → Nat → Option ℝ}
    {m m0 m' d : Online2D.Field ℝ} {s : Streams ℝ}
    (hbound : ∀ p f req, p < r1 * r2 →
      Reach (roundedOps rT rD lg) parOnline r2 (fun req _ => req) bound m p f →
      bound f p = some req → 0 < req →
      req ≤ maxEb ∧ ∃ E, boundAbs r1 r2 maxEb' f p = some E ∧ C * req ≤ E)
    (hfit : maxEb ≤ (2 : ℝ) ^ (960 : ℕ))
    (h : compress (roundedOps rT rD lg) parOnline r1 r2 (fun req _ => req) bound m =
      some (m', s))
    (hd : decompress (roundedOps rT rD lg) parOnline r1 r2 m0 s = some d)
    (t : Tri) (ht : t.inGrid r1 r2) :
    t.hasCP r2 d ↔ t.hasCP r2 m := by
  have hu0 := hD.u_nonneg
  obtain ⟨d', hd', hA⟩ := lockstep _ _ _ _ _ _ m m0 m' s h
  have : d' = d := Option.some.inj (hd'.symm.trans hd)
  subst this
  suffices hI : t.hasCP r2 m ↔ t.hasCP r2 m' by
    rw [(tri_congr ht hA).1]; exact hI.symm
  set O := roundedOps rT rD lg
  unfold compress at h
  split at h
  · cases h
  rename_i m1 ws hs
  simp only [Option.some.injEq, Prod.mk.injEq] at h
  obtain ⟨rfl, rfl⟩ := h
  have := scanEnc_inv (encVertex O parOnline r2 (fun req _ => req) bound)
    (fun p f => Reach O parOnline r2 (fun req _ => req) bound m p f ∧
      (t.hasCP r2 m ↔ t.hasCP r2 f))
    (r1 * r2) 0
    (fun q f f' w _ hq hI he => by
      obtain ⟨hR, hcp⟩ := hI
      have hq' : q < r1 * r2 := by omega
      refine ⟨hR.next he, ?_⟩
      rcases encVertex_cases O parOnline r2 _ bound f f' q w he with ⟨rfl, rfl⟩ | hc
      · exact hcp
      obtain ⟨req, e0, q0, x, e1, q1, y, a1, a2, a3, a4, rfl, rfl⟩ := hc
      have hpos : 0 < req := by
        have := of_decide_eq_true a2
        have r0 : rD 0 = 0 := by simpa using hD.int 0 (by norm_num)
        simpa [O, roundedOps, r0] using this
      obtain ⟨hle, E, hE, hCE⟩ := hbound q f req hq' hR a1 hpos
      have key : ∀ (x' : ℝ) {fz : Nat → ℝ} {id qq : Int},
          encComp O parOnline r2 fz q req = some (id, qq, x') → |x' - fz q| < E := by
        intro x' fz id qq hc
        have h2 : (1 + u) * (req * 2 ^ 52) < (2 : ℝ) ^ (1024 : ℕ) := by
          refine lt_of_le_of_lt ?_ (fits hu0 hu (hle.trans hfit) hpos.le)
          exact mul_le_mul_of_nonneg_left (mul_le_mul_of_nonneg_right (by nlinarith)
            (by positivity)) (by linarith)
        refine (encComp_rounded hT hg hD hl h2 hc).trans_le (le_trans ?_ hCE)
        refine mul_le_mul_of_nonneg_right (le_trans ?_ hC) hpos.le
        have hF : 0 ≤ (1 - g) * ((1 + u) * (2 : ℝ) ^ δ) :=
          mul_nonneg (by linarith)
            (mul_nonneg (by linarith) (Real.rpow_pos_of_pos (by norm_num) _).le)
        exact le_mul_of_one_le_right hF (by linarith)
      exact hcp.trans (boundAbs_spec hq' hE (lt_of_lt_of_le (mul_pos hC0 hpos) hCE) (key x a3)
        (key y a4) t ht))
    m m1 ws ⟨.init, Iff.rfl⟩ hs
  exact this.2

/-- C71 for `float` data, critical points created, the part that holds: if the computed bound of
each vertex (from the values current at that moment) does not exceed the exact one, then no
triangle gains or loses a critical point.  All other operations are rounded.  Missing: the computed
bounds do exceed the exact ones (`C71_critical_point_created`). -/
theorem C71_kept_float_partial {rnd rnd' : ℝ → ℤ} (hr : IsNearest rnd) (hr' : IsIntRounding rnd')
    {lg : ℝ → ℝ} {δ : ℝ} (hl : IsLog2 (fl rnd' 53) lg δ) (h0 : 0 ≤ δ) (h1 : δ ≤ 1 / 2 ^ 30)
    (r1 r2 : Nat) (maxEb maxEb' : ℝ) (bound : Online2D.Field ℝ → Nat → Option ℝ)
    (m m0 m' d : Online2D.Field ℝ) (s : Streams ℝ)
    (hbound : ∀ p f req, p < r1 * r2 →
      Reach (roundedOps (fl rnd 24) (fl rnd' 53) lg) parOnline r2 (fun req _ => req) bound m p f →
      bound f p = some req → 0 < req →
      req ≤ maxEb ∧ ∃ E, boundAbs r1 r2 maxEb' f p = some E ∧ req ≤ E)
    (hfit : maxEb ≤ (2 : ℝ) ^ (960 : ℕ))
    (h : compress (roundedOps (fl rnd 24) (fl rnd' 53) lg) parOnline r1 r2 (fun req _ => req)
      bound m = some (m', s))
    (hd : decompress (roundedOps (fl rnd 24) (fl rnd' 53) lg) parOnline r1 r2 m0 s = some d)
    (t : Tri) (ht : t.inGrid r1 r2) :
    t.hasCP r2 d ↔ t.hasCP r2 m := by
  have hD := fl_isFloat hr' (p := 53) (by norm_num)
  exact keptAbs (C := 1) (fl_guard hr (p := 24) (by norm_num)) (by norm_num) hD (by norm_num) hl
    one_pos (factor_float hD.u_nonneg (by norm_num) h0 h1)
    (fun p f req hp hR hb hpos => by rw [one_mul]; exact hbound p f req hp hR hb hpos)
    hfit h hd t ht

/-- C71 for `double` data, the part that holds: as before, with bounds that stay below the exact
ones by the factor `1 + 2^-40`. -/
theorem C71_kept_double_partial {rnd : ℝ → ℤ} (hr : IsIntRounding rnd)
    {lg : ℝ → ℝ} {δ : ℝ} (hl : IsLog2 (fl rnd 53) lg δ) (h0 : 0 ≤ δ) (h1 : δ ≤ 1 / 2 ^ 41)
    (r1 r2 : Nat) (maxEb maxEb' : ℝ) (bound : Online2D.Field ℝ → Nat → Option ℝ)
    (m m0 m' d : Online2D.Field ℝ) (s : Streams ℝ)
    (hbound : ∀ p f req, p < r1 * r2 →
      Reach (roundedOps (fl rnd 53) (fl rnd 53) lg) parOnline r2 (fun req _ => req) bound m p f →
      bound f p = some req → 0 < req →
      req ≤ maxEb ∧ ∃ E, boundAbs r1 r2 maxEb' f p = some E ∧ (1 + 1 / 2 ^ 40) * req ≤ E)
    (hfit : maxEb ≤ (2 : ℝ) ^ (960 : ℕ))
    (h : compress (roundedOps (fl rnd 53) (fl rnd 53) lg) parOnline r1 r2 (fun req _ => req)
      bound m = some (m', s))
    (hd : decompress (roundedOps (fl rnd 53) (fl rnd 53) lg) parOnline r1 r2 m0 s = some d)
    (t : Tri) (ht : t.inGrid r1 r2) :
    t.hasCP r2 d ↔ t.hasCP r2 m := by
  have hD := fl_isFloat hr (p := 53) (by norm_num)
  exact keptAbs hD.guard (by norm_num) hD (by norm_num) hl (by norm_num)
    (factor_double hD.u_nonneg (by norm_num) h0 h1) hbound hfit h hd t ht

/-! ### The witness -/

section eq
variable {rT rF rD : ℝ → ℝ}

theorem deriveAbsR_eq02 (hT : ∀ x, rT (-x) = -rT x) (h0 : rD 0 = 0)
    (hTD : ∀ x, rD (rT x) = rT x) (u0 u1 v0 v1 : ℝ) :
    deriveAbsR rT rF rD u0 u1 u0 v0 v1 v0 = some 0 := by
  have e : rT (rT (u0 * v1) - rT (u1 * v0)) = -rT (rT (u1 * v0) - rT (u0 * v1)) := by
    rw [← hT]; congr 1; ring
  have z : rT 0 = 0 := by have := hT 0; simp at this; linarith
  unfold deriveAbsR
  rw [if_pos]
  rw [sub_self, z, zero_add, e, hTD, add_neg_cancel, h0]

theorem deriveAbsR_eq12 (hT : ∀ x, rT (-x) = -rT x) (h0 : rD 0 = 0)
    (hTD : ∀ x, rD (rT x) = rT x) (u0 u1 v0 v1 : ℝ) :
    deriveAbsR rT rF rD u0 u1 u1 v0 v1 v1 = some 0 := by
  have e : rT (rT (u0 * v1) - rT (u1 * v0)) = -rT (rT (u1 * v0) - rT (u0 * v1)) := by
    rw [← hT]; congr 1; ring
  have z : rT 0 = 0 := by have := hT 0; simp at this; linarith
  unfold deriveAbsR
  rw [if_pos]
  rw [sub_self, z, add_zero, e, hTD, add_neg_cancel, h0]

theorem deriveAbsR_eq01 (hT : ∀ x, rT (-x) = -rT x) (h0 : rD 0 = 0) (u0 u2 v0 v2 : ℝ) :
    deriveAbsR rT rF rD u0 u0 u2 v0 v0 v2 = some 0 := by
  have e : rT (rT (u2 * v0) - rT (u0 * v2)) = -rT (rT (u0 * v2) - rT (u2 * v0)) := by
    rw [← hT]; congr 1; ring
  have z : rT 0 = 0 := by have := hT 0; simp at this; linarith
  unfold deriveAbsR
  rw [if_pos]
  rw [e, neg_add_cancel, h0, sub_self, z, add_zero, h0]

end eq

/-- The bound of the triangle at the vertex of the witness: `2^21`, while the vertex is less than
a hundredth of that away from a critical point. -/
theorem deriveAbs_wit {rnd rnd' : ℝ → ℤ} (hr : IsNearest rnd) (hr' : IsIntRounding rnd')
    {rF : ℝ → ℝ} (hF : IsRounding rF) :
    deriveAbsR (fl rnd 24) rF (fl rnd' 53) 13627137 13627136 (-6590757) 9538996 9538995
      (-6154504) = some 2097152 := by
  obtain ⟨h1, h2, h3, h4, h5, h6⟩ := prods hr
  have hn := hr.toIsIntRounding
  have hD := fl_isFloat hr' (p := 53) (by norm_num)
  have hT := fl_isFloat hn (p := 24) (by norm_num)
  set rT := fl rnd 24 with hrT
  set rD := fl rnd' 53 with hrD
  have m0 : rT (-62869202796544 - -83868270985216) = 20999068188672 := by
    rw [show (-62869202796544 - -83868270985216 : ℝ) = 20999068188672 by norm_num]
    exact fl_exact hn (n := 10013136) (e := 21) (by norm_num) (by norm_num)
  have m1 : rT (-83868262596608 - -62869198602240) = -20999063994368 := by
    rw [show (-83868262596608 - -62869198602240 : ℝ) = -20999063994368 by norm_num]
    exact fl_exact hn (n := -10013134) (e := 21) (by norm_num) (by norm_num)
  have m2 : rT (129989190090752 - 129989198479360) = -8388608 := by
    rw [show (129989190090752 - 129989198479360 : ℝ) = -8388608 by norm_num]
    exact fl_exact hn (n := -1) (e := 23) (by norm_num) (by norm_num)
  have mm : rD (rD (20999068188672 + -20999063994368) + -8388608) = -4194304 := by
    rw [show (20999068188672 + -20999063994368 : ℝ) = ((4194304 : ℤ) : ℝ) by norm_num,
      hD.int _ (by norm_num), show (((4194304 : ℤ) : ℝ) + -8388608) = ((-4194304 : ℤ) : ℝ) by
        norm_num, hD.int _ (by norm_num)]
    norm_num
  have dhalf : rD (1 / 2) = 1 / 2 := by
    have := hD.pow2all (-1); norm_num at this ⊢; exact this
  have f1 : ¬ ((20999068188672 : ℝ) = 0 ∨ 1 ≤ rD (-4194304 / 20999068188672)) := by
    have := hD.mono (show (-4194304 / 20999068188672 : ℝ) ≤ 1 / 2 by norm_num)
    rw [dhalf] at this
    push Not
    exact ⟨by norm_num, by linarith⟩
  have f2 : ¬ ((-20999063994368 : ℝ) = 0 ∨ 1 ≤ rD (-4194304 / -20999063994368)) := by
    have := hD.mono (show (-4194304 / -20999063994368 : ℝ) ≤ 1 / 2 by norm_num)
    rw [dhalf] at this
    push Not
    exact ⟨by norm_num, by linarith⟩
  have f3 : ¬ ((-8388608 : ℝ) = 0 ∨ 1 ≤ rD (-4194304 / -8388608)) := by
    have := hD.mono (show (-4194304 / -8388608 : ℝ) ≤ 1 / 2 by norm_num)
    rw [dhalf] at this
    push Not
    exact ⟨by norm_num, by linarith⟩
  -- the bounds of the first two cases
  have small : ∀ A B C : ℝ, (2 : ℝ) ^ (24 : ℤ) ≤ |A| + |B| → |C| ≤ (2 : ℝ) ^ (45 : ℤ) →
      ∃ e, keepAbsR rF A B C = some e ∧ e ≤ 2097152 := by
    intro A B C hs hd
    have k1 : (2 : ℝ) ^ (24 : ℤ) ≤ rF (|A| + |B|) := by
      have := hF.mono hs
      rwa [hF.pow2 24 (by norm_num) (by norm_num)] at this
    have hp : (0 : ℝ) < rF (|A| + |B|) := lt_of_lt_of_le (by norm_num) k1
    refine ⟨_, by unfold keepAbsR; rw [if_neg hp.ne'], ?_⟩
    have : |C| / rF (|A| + |B|) ≤ (2 : ℝ) ^ (21 : ℤ) := by
      rw [div_le_iff₀ hp]
      have e : (2 : ℝ) ^ (45 : ℤ) = (2 : ℝ) ^ (21 : ℤ) * (2 : ℝ) ^ (24 : ℤ) := by norm_num
      rw [e] at hd
      exact hd.trans (mul_le_mul_of_nonneg_left k1 (by norm_num))
    have := hF.mono this
    rw [hF.pow2 21 (by norm_num) (by norm_num)] at this
    exact this.trans (by norm_num)
  have defd : ∀ A B C : ℝ, (2 : ℝ) ^ (24 : ℤ) ≤ |A| + |B| →
      ∃ e, keepAbsR rF A B C = some e := by
    intro A B C hs
    have k1 : (2 : ℝ) ^ (24 : ℤ) ≤ rF (|A| + |B|) := by
      have := hF.mono hs
      rwa [hF.pow2 24 (by norm_num) (by norm_num)] at this
    have hp : (0 : ℝ) < rF (|A| + |B|) := lt_of_lt_of_le (by norm_num) k1
    exact ⟨_, by unfold keepAbsR; rw [if_neg hp.ne']⟩
  -- the third case
  have a1 : rT (rT (20999068188672 + -83868262596608) - -62869198602240) = 4194304 := by
    rw [show (20999068188672 + -83868262596608 : ℝ) = -62869194407936 by norm_num,
      show rT (-62869194407936) = -62869194407936 from
        fl_exact hn (n := -14989184) (e := 22) (by norm_num) (by norm_num),
      show (-62869194407936 - -62869198602240 : ℝ) = ((4194304 : ℤ) : ℝ) by norm_num,
      hT.int _ (by norm_num)]
    norm_num
  have a2 : rT (9538996 - 9538995) = 1 := by
    rw [show (9538996 - 9538995 : ℝ) = ((1 : ℤ) : ℝ) by norm_num, hT.int _ (by norm_num)]
    norm_num
  have a3 : rT (13627136 - 13627137) = -1 := by
    rw [show (13627136 - 13627137 : ℝ) = ((-1 : ℤ) : ℝ) by norm_num, hT.int _ (by norm_num)]
    norm_num
  have s3 : keepAbsR rF 1 (-1) 4194304 = some 2097152 := by
    have e1 : rF (|(1 : ℝ)| + |(-1 : ℝ)|) = 2 := by
      rw [show (|(1 : ℝ)| + |(-1 : ℝ)|) = ((2 : ℤ) : ℝ) by norm_num [abs_of_pos, abs_of_neg],
        hF.int _ (by norm_num)]
      norm_num
    have e2 : rF (|(4194304 : ℝ)| / 2) = 2097152 := by
      rw [show (|(4194304 : ℝ)| / 2) = ((2097152 : ℤ) : ℝ) by norm_num [abs_of_pos],
        hF.int _ (by norm_num)]
      norm_num
    unfold keepAbsR
    rw [e1, if_neg (by norm_num), e2]
  unfold deriveAbsR
  simp only [h1, h2, h3, h4, h5, h6, m0, m1, m2, mm, a1, a2, a3, s3]
  rw [if_neg (by norm_num), if_neg (fun h => f1 h.1), if_pos f1, if_pos f2, if_pos f3]
  obtain ⟨e1, k1, l1⟩ := small 9538996 (-13627137) 20999068188672
    (by norm_num [abs_of_pos, abs_of_neg]) (by norm_num [abs_of_pos, abs_of_neg])
  obtain ⟨e2, k2, l2⟩ := small (-9538995) 13627136 (-20999063994368)
    (by norm_num [abs_of_pos, abs_of_neg]) (by norm_num [abs_of_pos, abs_of_neg])
  obtain ⟨e3, k3⟩ := defd (-9538995) 13627136
    (rT (rT (-20999063994368 + 129989190090752) - 129989198479360))
    (by norm_num [abs_of_pos, abs_of_neg])
  obtain ⟨e4, k4⟩ := defd 9538996 (-13627137)
    (rT (rT (20999068188672 + 129989190090752) - 129989198479360))
    (by norm_num [abs_of_pos, abs_of_neg])
  rw [k1, k2, k3, k4]
  simp only [optMinf, optMaxf]
  congr 1
  have mx : ∀ a b : ℝ, a ≤ 2097152 → b ≤ 2097152 → maxf a b ≤ 2097152 := by
    intro a b ha hb
    unfold maxf; split <;> assumption
  have r3 := mx _ _ (mx 0 _ (by norm_num) ((minf_le_left e1 e3).trans l1))
    ((minf_le_left e2 e4).trans l2)
  unfold maxf at r3 ⊢
  rw [if_neg (not_lt.2 r3)]

/-- C71, the half that fails.  On a 2 by 2 grid of `float` vectors with integer components below
`2^24`, with an absolute bound of `2^22` and arithmetic that rounds correctly, the upper triangle
has no critical point in the input and has one in the decompressed field. -/
theorem C71_critical_point_created {rnd rnd' : ℝ → ℤ} (hr : IsNearest rnd)
    (hr' : IsIntRounding rnd') {rF lg : ℝ → ℝ} (hF : IsRounding rF) (hl : CoarseLog lg)
    (m0 : Online2D.Field ℝ) :
    ∃ m' s d, compress (roundedOps (fl rnd 24) (fl rnd' 53) lg) parOnline 2 2
        (fun req _ => req)
        (boundAbsR (fl rnd 24) rF (fl rnd' 53) 2 2 4194304) fieldCP = some (m', s) ∧
      decompress (roundedOps (fl rnd 24) (fl rnd' 53) lg) parOnline 2 2 m0 s = some d ∧
      Tri.inGrid 2 2 ⟨0, 0, true⟩ ∧
      ¬ Tri.hasCP 2 fieldCP ⟨0, 0, true⟩ ∧ Tri.hasCP 2 d ⟨0, 0, true⟩ := by
  have hn := hr.toIsIntRounding
  have hD := fl_isFloat hr' (p := 53) (by norm_num)
  have hT := fl_isFloat hn (p := 24) (by norm_num)
  have d0 : fl rnd' 53 0 = 0 := by simpa using hD.int 0 (by norm_num)
  have hTD : ∀ x, fl rnd' 53 (fl rnd 24 x) = fl rnd 24 x := fun x => fl_sub hn hr' x
  have hder := deriveAbs_wit hr hr' hF
  set O := roundedOps (fl rnd 24) (fl rnd' 53) lg with hO
  set ab : ℝ → ℝ → ℝ := fun req _ => req with hab
  set bd := boundAbsR (fl rnd 24) rF (fl rnd' 53) 2 2 4194304 with hbd
  -- vertices whose bound is not positive
  have stay : ∀ f q b, bd f q = some b → b ≤ 0 →
      encVertex O parOnline 2 ab bd f q = some (f, .lossless (f.u q) (f.v q)) := by
    intro f q b hb hle
    unfold encVertex
    rw [hb]
    have : O.lt (O.ofInt 0) b = false := by
      simp only [O, roundedOps, Int.cast_zero, d0]
      exact decide_eq_false (not_lt.2 hle)
    simp only [this]
    simp
  have hbq : ∀ (f : Online2D.Field ℝ) (q : Nat) (z : Option ℝ),
      requiredEb 2 2 (some 4194304) minfX (fun _ => deriveAbsR (fl rnd 24) rF (fl rnd' 53)) f q =
        some z → z.getD 0 ≤ 0 → ∃ b, bd f q = some b ∧ b ≤ 0 := by
    intro f q z hz hle
    rw [hbd]; unfold boundAbsR
    split
    · exact ⟨0, rfl, le_refl _⟩
    · rw [hz]; exact ⟨_, rfl, hle⟩
  have hb0 : ∀ f : Online2D.Field ℝ, f.u 2 = f.u 0 → f.v 2 = f.v 0 → ∃ b, bd f 0 = some b ∧ b ≤ 0 := by
    intro f hu hv
    refine hbq f 0 _ (loops22 _ _ _ _).1 ?_
    rw [show deriveAbsR (fl rnd 24) rF (fl rnd' 53) (f.u 2) (f.u 3) (f.u 0) (f.v 2) (f.v 3)
      (f.v 0) = some 0 by rw [hu, hv]; exact deriveAbsR_eq02 hT.odd d0 hTD ..]
    have e : minfX (some 4194304) (some 0) = some 0 := by simp [minfX]
    rw [e]
    exact minfX_zero_left _
  have hb2 : ∀ f : Online2D.Field ℝ, f.u 2 = f.u 0 → f.v 2 = f.v 0 → ∃ b, bd f 2 = some b ∧ b ≤ 0 := by
    intro f hu hv
    refine hbq f 2 _ (loops22 _ _ _ _).2.2.1 ?_
    rw [show deriveAbsR (fl rnd 24) rF (fl rnd' 53) (f.u 3) (f.u 0) (f.u 2) (f.v 3) (f.v 0)
      (f.v 2) = some 0 by rw [hu, hv]; exact deriveAbsR_eq12 hT.odd d0 hTD ..]
    exact minfX_zero_right _
  have hb3 : ∀ f : Online2D.Field ℝ, f.u 2 = f.u 0 → f.v 2 = f.v 0 → ∃ b, bd f 3 = some b ∧ b ≤ 0 := by
    intro f hu hv
    refine hbq f 3 _ (loops22 _ _ _ _).2.2.2 ?_
    rw [show deriveAbsR (fl rnd 24) rF (fl rnd' 53) (f.u 0) (f.u 2) (f.u 3) (f.v 0) (f.v 2)
      (f.v 3) = some 0 by rw [hu, hv]; exact deriveAbsR_eq01 hT.odd d0 ..]
    exact minfX_zero_right _
  -- the vertex that is changed
  have hb1 : bd fieldCP 1 = some 2097152 := by
    rw [hbd]; unfold boundAbsR
    rw [if_neg (by norm_num [fieldCP]), (loops22 _ _ _ _).2.1]
    have : deriveAbsR (fl rnd 24) rF (fl rnd' 53) (fieldCP.u 0) (fieldCP.u 3) (fieldCP.u 1)
        (fieldCP.v 0) (fieldCP.v 3) (fieldCP.v 1) = some 2097152 := hder
    rw [this]
    simp only [minfX, if_neg (show ¬ (4194304 : ℝ) < 2097152 by norm_num), Option.map_some,
      Option.getD_some]
  have fu1 : fieldCP.u 1 = ((-6590757 : ℤ) : ℝ) := by norm_num [fieldCP]
  have fv1 : fieldCP.v 1 = ((-6154504 : ℤ) : ℝ) := by norm_num [fieldCP]
  have cu : encComp O parOnline 2 fieldCP.u 1 (ab 2097152 (fieldCP.u 1)) =
      some (36, 32768 - 10, ((13627137 - 2 * 10 * 2 ^ 20 : ℤ) : ℝ)) := by
    refine encComp_wit hn hr' hl (by norm_num [hab]) (by norm_num [hab]) fu1 (c := 13627137)
      (N := 20217894) (by norm_num [fieldCP]) (by norm_num) (by norm_num) (by norm_num) ?_
      (by norm_num) (by norm_num) (by norm_num) (by norm_num) (by norm_num)
    exact fl_exact hn (n := 10108947) (e := 1) (by norm_num) (by norm_num)
  have cv : encComp O parOnline 2 fieldCP.v 1 (ab 2097152 (fieldCP.v 1)) =
      some (36, 32768 - 7, ((9538996 - 2 * 7 * 2 ^ 20 : ℤ) : ℝ)) := by
    refine encComp_wit hn hr' hl (by norm_num [hab]) (by norm_num [hab]) fv1 (c := 9538996)
      (N := 15693500) (by norm_num [fieldCP]) (by norm_num) (by norm_num) (by norm_num) ?_
      (by norm_num) (by norm_num) (by norm_num) (by norm_num) (by norm_num)
    exact hT.int 15693500 (by norm_num)
  set f' := fieldCP.set 1 ((13627137 - 2 * 10 * 2 ^ 20 : ℤ) : ℝ)
    ((9538996 - 2 * 7 * 2 ^ 20 : ℤ) : ℝ) with hf'
  have v1 : encVertex O parOnline 2 ab bd fieldCP 1 =
      some (f', .coded 36 36 (32768 - 10) (32768 - 7)) := by
    unfold encVertex
    rw [hb1]
    have : O.lt (O.ofInt 0) 2097152 = true := by
      simp only [O, roundedOps, Int.cast_zero, d0]
      exact decide_eq_true (by norm_num)
    simp only [this, if_true, cu, cv]
    rfl
  obtain ⟨w0, hw0⟩ : ∃ w, encVertex O parOnline 2 ab bd fieldCP 0 = some (fieldCP, w) := by
    obtain ⟨b, e1, e2⟩ := hb0 fieldCP rfl rfl
    exact ⟨_, stay _ _ b e1 e2⟩
  obtain ⟨w2, hw2⟩ : ∃ w, encVertex O parOnline 2 ab bd f' 2 = some (f', w) := by
    obtain ⟨b, e1, e2⟩ := hb2 f' rfl rfl
    exact ⟨_, stay _ _ b e1 e2⟩
  obtain ⟨w3, hw3⟩ : ∃ w, encVertex O parOnline 2 ab bd f' 3 = some (f', w) := by
    obtain ⟨b, e1, e2⟩ := hb3 f' rfl rfl
    exact ⟨_, stay _ _ b e1 e2⟩
  have hc : ∃ s, compress O parOnline 2 2 ab bd fieldCP = some (f', s) := by
    have hs : scanEnc (encVertex O parOnline 2 ab bd) (2 * 2) 0 fieldCP =
        some (f', [w0, .coded 36 36 (32768 - 10) (32768 - 7), w2, w3]) := by
      simp only [scanEnc, Nat.zero_add, Nat.reduceAdd, hw0, v1, hw2, hw3]
    unfold compress
    rw [hs]
    exact ⟨_, rfl⟩
  obtain ⟨s, hc⟩ := hc
  obtain ⟨d, hd, hA⟩ := lockstep _ _ _ _ _ _ fieldCP m0 f' s hc
  have ht : Tri.inGrid 2 2 ⟨0, 0, true⟩ := ⟨by norm_num, by norm_num⟩
  refine ⟨f', s, d, hc, hd, ht, ?_, ?_⟩
  · have : Tri.hasCP 2 fieldCP ⟨0, 0, true⟩ ↔ HasCP (13627137, 9538996) (-6590757, -6154504)
        (13627136, 9538995) := by
      unfold Tri.hasCP Tri.vec Tri.verts gridVal
      simp [fieldCP]
    rw [this, hasCP_iff rfl rfl rfl rfl (by norm_num)]
    norm_num
  · rw [(tri_congr ht hA).1]
    have : Tri.hasCP 2 f' ⟨0, 0, true⟩ ↔ HasCP (13627137, 9538996)
        (((13627137 - 2 * 10 * 2 ^ 20 : ℤ) : ℝ), ((9538996 - 2 * 7 * 2 ^ 20 : ℤ) : ℝ))
        (13627136, 9538995) := by
      unfold Tri.hasCP Tri.vec Tri.verts gridVal
      simp [fieldCP, f', Field.set, setAt]
    rw [this, hasCP_iff rfl rfl rfl rfl (by norm_num)]
    norm_num

/-! ### The assumptions can be met -/

example (m0 : Online2D.Field ℝ) := C71_critical_point_created nearest_isNearest nearest_rounding
  (fl_isFloat nearest_rounding (p := 24) (by norm_num)).toIsRounding coarseLog_rounded m0

/-- A field with a critical point in the lower triangle, with a bound beyond all values: the
triangle comes back exactly. -/
example (m0 : Online2D.Field ℝ) : ∃ m' s d,
    compress (roundedOps (fl nearest 24) (fl nearest 53) (Real.logb 2)) parOnline 2 2
      (fun req _ => req) (boundAbsR (fl nearest 24) (fl nearest 24) (fl nearest 53) 2 2 10)
      ⟨fun q => [1, 5, -1, 0].getD q 0, fun q => [1, 7, 1, -2].getD q 0⟩ = some (m', s) ∧
    decompress (roundedOps (fl nearest 24) (fl nearest 53) (Real.logb 2)) parOnline 2 2 m0 s =
      some d ∧ Tri.hasCP 2 d ⟨0, 0, false⟩ ∧ d.u 3 = 0 ∧ d.v 3 = -2 := by
  obtain ⟨m', s, d, h, hd, ht⟩ := C71_never_lost_float nearest_rounding nearest_rounding
    (fl_isFloat nearest_rounding (p := 24) (by norm_num)) (by norm_num) (Real.logb 2) 2 2 10
    ⟨fun q => [1, 5, -1, 0].getD q 0, fun q => [1, 7, 1, -2].getD q 0⟩ m0
  have hcp : Tri.hasCP 2 ⟨fun q => [1, 5, -1, 0].getD q 0, fun q => [1, 7, 1, -2].getD q 0⟩
      ⟨0, 0, false⟩ := by
    refine ⟨1 / 3, 1 / 3, 1 / 3, ?_⟩
    simp [Tri.vec, Tri.verts, gridVal]
    norm_num
  obtain ⟨h1, h2⟩ := ht ⟨0, 0, false⟩ ⟨by norm_num, by norm_num⟩ hcp
  have h3 := h2 (1, 1) (by simp [Tri.verts])
  simp [gridVal] at h3
  exact ⟨m', s, d, h, hd, h1, h3.1, h3.2⟩

/-- Bounds that satisfy the hypothesis of the partial theorem: half of the exact ones. -/
example : ∃ m' s d, compress (roundedOps (fl nearest 24) (fl nearest 53)
      (fun x => fl nearest 53 (Real.logb 2 x))) parOnline 2 2 (fun req _ => req)
      (fun f p => (boundAbs 2 2 4194304 f p).map fun b => min b 4194304 / 2) fieldCP =
        some (m', s) ∧
    decompress (roundedOps (fl nearest 24) (fl nearest 53)
      (fun x => fl nearest 53 (Real.logb 2 x))) parOnline 2 2 ⟨fun _ => 0, fun _ => 0⟩ s = some d ∧
    ∀ t : Tri, t.inGrid 2 2 → (t.hasCP 2 d ↔ t.hasCP 2 fieldCP) := by
  obtain ⟨m', s, h⟩ := compress_defined2 (roundedOps (fl nearest 24) (fl nearest 53)
    (fun x => fl nearest 53 (Real.logb 2 x))) parOnline 2 2 (fun req _ => req)
    (fun f p => (boundAbs 2 2 4194304 f p).map fun b => min b 4194304 / 2) fieldCP (by
      intro f p hp
      rw [Option.isSome_map, ← boundAbsR_id]
      exact boundAbsR_defined f p hp)
  obtain ⟨d, hd, hA⟩ := lockstep _ _ _ _ _ _ fieldCP ⟨fun _ => 0, fun _ => 0⟩ m' s h
  refine ⟨m', s, d, h, hd, fun t ht => ?_⟩
  refine C71_kept_float_partial nearest_isNearest nearest_rounding
    (IsLog2.rounded nearest_rounding (p := 53) (by norm_num)) (by positivity)
    (log2_double_bound.trans (by norm_num)) 2 2 4194304 4194304 _ fieldCP _ m' d s ?_ ?_ h hd t ht
  · intro p f req hp _ hb hpos
    obtain ⟨E, hE, rfl⟩ := Option.map_eq_some_iff.1 hb
    have h1 := min_le_left E 4194304
    have h2 := min_le_right E 4194304
    exact ⟨by linarith, E, hE, by linarith⟩
  · exact le_trans (show (4194304 : ℝ) ≤ 2 ^ 24 by norm_num)
      (pow_le_pow_right₀ (by norm_num) (by norm_num))

end CpSZ.Rounded
