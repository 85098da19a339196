import Verif.Bound2DRounded
import Verif.Props.Rounded
/-
Property C57: critical points and their types in floating point arithmetic (2D relative mode).

The property fails (`C57_critical_point_created`): the bound formula is evaluated in the element
type, cancellation makes it useless for nearly parallel vectors, and a `float` field of four
vertices without a critical point in a triangle is decompressed to one with a critical point there.

What holds (`C57_kept_float_partial`, `C57_kept_double_partial`): rounding errors anywhere else
(prediction, quantisation, acceptance test, reconstruction) do no harm.  As long as the computed
bounds of the vertices, with the values current at that moment, do not exceed the exact value of
the formula, critical points and types are kept, exactly.
-/

namespace CpSZ.Rounded
open CpSZ CpSZ.Online2D CpSZ.Mesh2D

/-- The mirror arrays that a run of the compressor goes through: `Reach … p f` says that they are
`f` just before vertex `p`. -/
inductive Reach {T D : Type} (O : Ops T D) (P : Par D) (r2 : Nat) (absEb : D → T → D)
    (bound : Online2D.Field T → Nat → Option D) (m : Online2D.Field T) :
    Nat → Online2D.Field T → Prop
  | init : Reach O P r2 absEb bound m 0 m
  | next {p : Nat} {f f' : Online2D.Field T} {w : VCode T} :
      Reach O P r2 absEb bound m p f → encVertex O P r2 absEb bound f p = some (f', w) →
      Reach O P r2 absEb bound m (p + 1) f'

/-- Common part: computed bounds that, enlarged by the factor `C` for all other rounding errors,
do not exceed the exact ones. -/
theorem kept2 {rT rD lg : ℝ → ℝ} {u g δ C : ℝ} (hT : Guard rT g) (hg : g ≤ 1)
    (hD : IsFloat rD u) (hu : u ≤ 1) (hl : IsLog2 rD lg δ)
    (hC0 : 0 < C) (hC : (1 - g) * ((1 + u) * (2 : ℝ) ^ δ) * (1 + u) ≤ C)
    {r1 r2 : Nat} {maxEb maxEb' : ℝ} {bound : Online2D.Field ℝ → Nat → Option ℝ}
    {m m0 m' d : Online2D.Field ℝ} {s : Streams ℝ}
    (hbound : ∀ p f req, p < r1 * r2 →
      Reach (roundedOps rT rD lg) parOnline r2 (fun req x => rD (|x| * req)) bound m p f →
      bound f p = some req → 0 < req →
      req ≤ maxEb ∧ ∃ E, boundOnline r1 r2 maxEb' f p = some E ∧ C * req ≤ E)
    (hfit : ∀ q, q < r1 * r2 → |m.u q| * maxEb ≤ (2 : ℝ) ^ (960 : ℕ) ∧
      |m.v q| * maxEb ≤ (2 : ℝ) ^ (960 : ℕ))
    (h : compress (roundedOps rT rD lg) parOnline r1 r2 (fun req x => rD (|x| * req)) bound m =
      some (m', s))
    (hd : decompress (roundedOps rT rD lg) parOnline r1 r2 m0 s = some d)
    (t : Tri) (ht : t.inGrid r1 r2) :
    (t.hasCP r2 d ↔ t.hasCP r2 m) ∧
    (t.hasCP r2 m → ∀ J J', t.isJac r2 m J → t.isJac r2 d J' → SameType J J') := by
  have hu0 := hD.u_nonneg
  obtain ⟨d', hd', hA⟩ := lockstep _ _ _ _ _ _ m m0 m' s h
  have : d' = d := Option.some.inj (hd'.symm.trans hd)
  subst this
  suffices hI : (t.hasCP r2 m ↔ t.hasCP r2 m') ∧
      (t.hasCP r2 m → ∀ J J', t.isJac r2 m J → t.isJac r2 m' J' → SameType J J') by
    refine ⟨by rw [(tri_congr ht hA).1]; exact hI.1.symm, fun hc J J' hJ hJ' => ?_⟩
    exact hI.2 hc J J' hJ (((tri_congr ht hA).2 J').1 hJ')
  set O := roundedOps rT rD lg
  set ab : ℝ → ℝ → ℝ := fun req x => rD (|x| * req) with hab
  unfold compress at h
  split at h
  · cases h
  rename_i m1 ws hs
  simp only [Option.some.injEq, Prod.mk.injEq] at h
  obtain ⟨rfl, rfl⟩ := h
  have := scanEnc_inv (encVertex O parOnline r2 ab bound)
    (fun p f => Reach O parOnline r2 ab bound m p f ∧
      (∀ q, p ≤ q → f.u q = m.u q ∧ f.v q = m.v q) ∧ (t.hasCP r2 m ↔ t.hasCP r2 f) ∧
      (t.hasCP r2 m → ∀ J J', t.isJac r2 m J → t.isJac r2 f J' → SameType J J'))
    (r1 * r2) 0
    (fun q f f' w _ hq hI he => by
      obtain ⟨hR, hlater, hcp, hty⟩ := hI
      have hq' : q < r1 * r2 := by omega
      refine ⟨hR.next he, ?_⟩
      rcases encVertex_cases O parOnline r2 ab bound f f' q w he with ⟨rfl, rfl⟩ | hc
      · exact ⟨fun x hx => hlater x (by omega), hcp, hty⟩
      obtain ⟨req, e0, q0, x, e1, q1, y, a1, a2, a3, a4, rfl, rfl⟩ := hc
      have hpos : 0 < req := by
        have := of_decide_eq_true a2
        have r0 : rD 0 = 0 := by simpa using hD.int 0 (by norm_num)
        simpa [O, roundedOps, r0] using this
      obtain ⟨hle, E, hE, hCE⟩ := hbound q f req hq' hR a1 hpos
      obtain ⟨eu, ev⟩ := hlater q (le_refl q)
      have key : ∀ z x' : ℝ, |z| * maxEb ≤ (2 : ℝ) ^ (960 : ℕ) →
          ∀ {fz : Nat → ℝ} {id qq : Int}, fz q = z →
          encComp O parOnline r2 fz q (ab req (fz q)) = some (id, qq, x') →
          |x' - z| < |z| * E := by
        intro z x' hz fz id qq hfz hc
        have h1 : ab req (fz q) ≤ (1 + u) * (|z| * req) := by
          rw [hfz]; exact hD.le (mul_nonneg (abs_nonneg z) hpos.le)
        have h2 : (1 + u) * (ab req (fz q) * 2 ^ 52) < (2 : ℝ) ^ (1024 : ℕ) := by
          refine lt_of_le_of_lt ?_ (fits hu0 hu (a := |z| * req) ((mul_le_mul_of_nonneg_left hle
            (abs_nonneg z)).trans hz) (mul_nonneg (abs_nonneg z) hpos.le))
          exact mul_le_mul_of_nonneg_left (mul_le_mul_of_nonneg_right h1 (by positivity))
            (by linarith)
        have h3 := encComp_rounded hT hg hD hl h2 hc
        rw [hfz] at h3
        refine h3.trans_le ?_
        have hF : 0 ≤ (1 - g) * ((1 + u) * (2 : ℝ) ^ δ) :=
          mul_nonneg (by linarith)
            (mul_nonneg (by linarith) (Real.rpow_pos_of_pos (by norm_num) _).le)
        rw [hfz] at h1
        calc (1 - g) * ((1 + u) * (2 : ℝ) ^ δ) * ab req z
            ≤ (1 - g) * ((1 + u) * (2 : ℝ) ^ δ) * ((1 + u) * (|z| * req)) :=
              mul_le_mul_of_nonneg_left h1 hF
          _ = (1 - g) * ((1 + u) * (2 : ℝ) ^ δ) * (1 + u) * (|z| * req) := by ring
          _ ≤ C * (|z| * req) :=
              mul_le_mul_of_nonneg_right hC (mul_nonneg (abs_nonneg z) hpos.le)
          _ = |z| * (C * req) := by ring
          _ ≤ |z| * E := mul_le_mul_of_nonneg_left hCE (abs_nonneg z)
      have kx := key (f.u q) x (by rw [eu]; exact (hfit q hq').1) rfl a3
      have ky := key (f.v q) y (by rw [ev]; exact (hfit q hq').2) rfl a4
      have hE0 : 0 < E := lt_of_lt_of_le (mul_pos hC0 hpos) hCE
      obtain ⟨s1, s2⟩ := step_tri_of hq' ⟨E, hE, hE0, kx, ky⟩ t ht
      refine ⟨fun z hz => ?_, hcp.trans s1, fun hc J J' hJ hJ' => ?_⟩
      · have hne : z ≠ q := by omega
        simp only [Field.set, setAt, if_neg hne]
        exact hlater z (by omega)
      · obtain ⟨J1, hJ1⟩ := exists_isJac r1 r2 t ht f
        exact (hty hc J J1 hJ hJ1).trans (s2 (hcp.1 hc) J1 J' hJ1 hJ'))
    m m1 ws ⟨.init, fun _ _ => ⟨rfl, rfl⟩, Iff.rfl, fun _ J J' hJ hJ' => by
      rw [isJac_unique ht hJ hJ']; exact ⟨rfl, rfl, fun _ => rfl, rfl⟩⟩ hs
  exact ⟨this.2.2.1, this.2.2.2⟩

/-- C57 for `float` data, the part that holds: if the computed bound of each vertex (however it is
computed, from the values current at that moment) does not exceed the exact one, then every
triangle of the decompressed field has a critical point iff that of the input has, of the same
type.  All other operations are rounded.  Missing: the computed bounds do exceed the exact ones
(`C57_critical_point_created`). -/
theorem C57_kept_float_partial {rnd rnd' : ℝ → ℤ} (hr : IsNearest rnd) (hr' : IsIntRounding rnd')
    {lg : ℝ → ℝ} {δ : ℝ} (hl : IsLog2 (fl rnd' 53) lg δ) (h0 : 0 ≤ δ) (h1 : δ ≤ 1 / 2 ^ 30)
    (r1 r2 : Nat) (maxEb maxEb' : ℝ) (bound : Online2D.Field ℝ → Nat → Option ℝ)
    (m m0 m' d : Online2D.Field ℝ) (s : Streams ℝ)
    (hbound : ∀ p f req, p < r1 * r2 →
      Reach (roundedOps (fl rnd 24) (fl rnd' 53) lg) parOnline r2
        (fun req x => fl rnd' 53 (|x| * req)) bound m p f →
      bound f p = some req → 0 < req →
      req ≤ maxEb ∧ ∃ E, boundOnline r1 r2 maxEb' f p = some E ∧ req ≤ E)
    (hfit : ∀ q, q < r1 * r2 → |m.u q| * maxEb ≤ (2 : ℝ) ^ (960 : ℕ) ∧
      |m.v q| * maxEb ≤ (2 : ℝ) ^ (960 : ℕ))
    (h : compress (roundedOps (fl rnd 24) (fl rnd' 53) lg) parOnline r1 r2
      (fun req x => fl rnd' 53 (|x| * req)) bound m = some (m', s))
    (hd : decompress (roundedOps (fl rnd 24) (fl rnd' 53) lg) parOnline r1 r2 m0 s = some d)
    (t : Tri) (ht : t.inGrid r1 r2) :
    (t.hasCP r2 d ↔ t.hasCP r2 m) ∧
    (t.hasCP r2 m → ∀ J J', t.isJac r2 m J → t.isJac r2 d J' → SameType J J') := by
  have hD := fl_isFloat hr' (p := 53) (by norm_num)
  exact kept2 (C := 1) (fl_guard hr (p := 24) (by norm_num)) (by norm_num) hD (by norm_num) hl
    one_pos (factor_float hD.u_nonneg (by norm_num) h0 h1)
    (fun p f req hp hR hb hpos => by rw [one_mul]; exact hbound p f req hp hR hb hpos)
    hfit h hd t ht

/-- C57 for `double` data, the part that holds: as before, with bounds that stay below the exact
ones by the factor `1 + 2^-40`. -/
theorem C57_kept_double_partial {rnd : ℝ → ℤ} (hr : IsIntRounding rnd)
    {lg : ℝ → ℝ} {δ : ℝ} (hl : IsLog2 (fl rnd 53) lg δ) (h0 : 0 ≤ δ) (h1 : δ ≤ 1 / 2 ^ 41)
    (r1 r2 : Nat) (maxEb maxEb' : ℝ) (bound : Online2D.Field ℝ → Nat → Option ℝ)
    (m m0 m' d : Online2D.Field ℝ) (s : Streams ℝ)
    (hbound : ∀ p f req, p < r1 * r2 →
      Reach (roundedOps (fl rnd 53) (fl rnd 53) lg) parOnline r2
        (fun req x => fl rnd 53 (|x| * req)) bound m p f →
      bound f p = some req → 0 < req →
      req ≤ maxEb ∧ ∃ E, boundOnline r1 r2 maxEb' f p = some E ∧ (1 + 1 / 2 ^ 40) * req ≤ E)
    (hfit : ∀ q, q < r1 * r2 → |m.u q| * maxEb ≤ (2 : ℝ) ^ (960 : ℕ) ∧
      |m.v q| * maxEb ≤ (2 : ℝ) ^ (960 : ℕ))
    (h : compress (roundedOps (fl rnd 53) (fl rnd 53) lg) parOnline r1 r2
      (fun req x => fl rnd 53 (|x| * req)) bound m = some (m', s))
    (hd : decompress (roundedOps (fl rnd 53) (fl rnd 53) lg) parOnline r1 r2 m0 s = some d)
    (t : Tri) (ht : t.inGrid r1 r2) :
    (t.hasCP r2 d ↔ t.hasCP r2 m) ∧
    (t.hasCP r2 m → ∀ J J', t.isJac r2 m J → t.isJac r2 d J' → SameType J J') := by
  have hD := fl_isFloat hr (p := 53) (by norm_num)
  exact kept2 hD.guard (by norm_num) hD (by norm_num) hl (by norm_num)
    (factor_double hD.u_nonneg (by norm_num) h0 h1) hbound hfit h hd t ht

/-! ### The witness -/

/-- Rounding to nearest with 24 bits, given the candidate and that it is no tie. -/
theorem fl_near {rnd : ℝ → ℤ} (hr : IsNearest rnd) (x : ℝ) (N : ℤ) (e : ℕ)
    (h1 : 2 ^ 23 * 2 ^ e ≤ x) (h2 : x < 2 ^ 24 * 2 ^ e) (h3 : |x - N * 2 ^ e| < 2 ^ e / 2) :
    fl rnd 24 x = N * 2 ^ e := by
  have he : (0 : ℝ) < 2 ^ e := by positivity
  have hx : 0 ≤ x := le_trans (by positivity) h1
  have hy : x = x / 2 ^ e * (2 : ℝ) ^ (e : ℤ) := by rw [zpow_natCast]; field_simp
  have k1 : (2 : ℝ) ^ (24 - 1) ≤ x / 2 ^ e := by
    rw [le_div_iff₀ he]; exact h1
  have k2 : x / 2 ^ e < (2 : ℝ) ^ 24 := by rw [div_lt_iff₀ he]; exact h2
  have k3 : |x / 2 ^ e - N| < 1 / 2 := by
    have : x / 2 ^ e - N = (x - N * 2 ^ e) / 2 ^ e := by field_simp
    rw [this, abs_div, abs_of_pos he, div_lt_iff₀ he]
    linarith
  have k4 := hr.half (x / 2 ^ e)
  have k5 : rnd (x / 2 ^ e) = N := by
    have : |((rnd (x / 2 ^ e) - N : ℤ) : ℝ)| < 1 := by
      push_cast
      have : (rnd (x / 2 ^ e) : ℝ) - N = (rnd (x / 2 ^ e) - x / 2 ^ e) + (x / 2 ^ e - N) := by ring
      rw [this]
      exact lt_of_le_of_lt (abs_add_le _ _) (by linarith)
    have h' : |rnd (x / 2 ^ e) - N| < 1 := by exact_mod_cast this
    have := abs_lt.1 h'
    omega
  unfold fl
  rw [if_pos hx]
  conv_lhs => rw [hy]
  rw [flPos_eq (by norm_num) k1 k2, k5, zpow_natCast]

/-- The `float` products of the witness. -/
theorem prods {rnd : ℝ → ℤ} (hr : IsNearest rnd) :
    fl rnd 24 ((-6590757) * 9538996) = -62869202796544 ∧
    fl rnd 24 (13627137 * (-6154504)) = -83868270985216 ∧
    fl rnd 24 (13627136 * (-6154504)) = -83868262596608 ∧
    fl rnd 24 ((-6590757) * 9538995) = -62869198602240 ∧
    fl rnd 24 (13627137 * 9538995) = 129989190090752 ∧
    fl rnd 24 (13627136 * 9538996) = 129989198479360 := by
  have h := hr.toIsIntRounding
  refine ⟨?_, ?_, ?_, ?_, ?_, ?_⟩
  · rw [show ((-6590757) * 9538996 : ℝ) = -62869204659972 by norm_num, fl_neg h,
      fl_near hr 62869204659972 14989186 22 (by norm_num) (by norm_num)
        (by rw [abs_lt]; constructor <;> norm_num)]
    norm_num
  · rw [show (13627137 * (-6154504) : ℝ) = -83868269175048 by norm_num, fl_neg h,
      fl_near hr 83868269175048 9997877 23 (by norm_num) (by norm_num)
        (by rw [abs_lt]; constructor <;> norm_num)]
    norm_num
  · rw [show (13627136 * (-6154504) : ℝ) = -83868263020544 by norm_num, fl_neg h,
      fl_near hr 83868263020544 9997876 23 (by norm_num) (by norm_num)
        (by rw [abs_lt]; constructor <;> norm_num)]
    norm_num
  · rw [show ((-6590757) * 9538995 : ℝ) = -62869198069215 by norm_num, fl_neg h,
      fl_near hr 62869198069215 14989185 22 (by norm_num) (by norm_num)
        (by rw [abs_lt]; constructor <;> norm_num)]
    norm_num
  · rw [show (13627137 * 9538995 : ℝ) = 129989191707315 by norm_num,
      fl_near hr 129989191707315 15495919 23 (by norm_num) (by norm_num)
        (by rw [abs_lt]; constructor <;> norm_num)]
    norm_num
  · rw [show (13627136 * 9538996 : ℝ) = 129989195795456 by norm_num,
      fl_near hr 129989195795456 15495920 23 (by norm_num) (by norm_num)
        (by rw [abs_lt]; constructor <;> norm_num)]
    norm_num

/-- The bound of the triangle at the vertex of the witness. -/
theorem derive_wit {rnd rnd' : ℝ → ℤ} (hr : IsNearest rnd) (hr' : IsIntRounding rnd') {rF : ℝ → ℝ}
    (hF : IsRounding rF) (c0 c1 c2 c3 : ℝ) :
    deriveOnlineR (fl rnd 24) rF (fl rnd' 53) 13627137 13627136 (-6590757) 9538996 9538995
      (-6154504) c0 c1 c2 c3 = some (fl rnd' 53 (1 / 3)) := by
  obtain ⟨h1, h2, h3, h4, h5, h6⟩ := prods hr
  have hn := hr.toIsIntRounding
  have hD := fl_isFloat hr' (p := 53) (by norm_num)
  have hT := fl_isFloat hn (p := 24) (by norm_num)
  set rT := fl rnd 24 with hrT
  set rD := fl rnd' 53 with hrD
  -- minors
  have m0 : rT (-62869202796544 - -83868270985216) = 20999068188672 := by
    rw [show (-62869202796544 - -83868270985216 : ℝ) = 20999068188672 by norm_num]
    exact fl_exact hn (n := 10013136) (e := 21) (by norm_num) (by norm_num)
  have m1 : rT (-83868262596608 - -62869198602240) = -20999063994368 := by
    rw [show (-83868262596608 - -62869198602240 : ℝ) = -20999063994368 by norm_num]
    exact fl_exact hn (n := -10013134) (e := 21) (by norm_num) (by norm_num)
  have m2 : rT (129989190090752 - 129989198479360) = -8388608 := by
    rw [show (129989190090752 - 129989198479360 : ℝ) = -8388608 by norm_num]
    exact fl_exact hn (n := -1) (e := 23) (by norm_num) (by norm_num)
  have mm : rD (rD (20999068188672 + -20999063994368) + -8388608) = -4194304 := by
    rw [show (20999068188672 + -20999063994368 : ℝ) = ((4194304 : ℤ) : ℝ) by norm_num,
      hD.int _ (by norm_num), show (((4194304 : ℤ) : ℝ) + -8388608) = ((-4194304 : ℤ) : ℝ) by
        norm_num, hD.int _ (by norm_num)]
    norm_num
  have dhalf : rD (1 / 2) = 1 / 2 := by
    have := hD.pow2all (-1); norm_num at this ⊢; exact this
  have dq : rD (1 / 4) = 1 / 4 := by
    have := hD.pow2all (-2); norm_num at this ⊢; exact this
  have f1 : ¬ ((20999068188672 : ℝ) = 0 ∨ 1 ≤ rD (-4194304 / 20999068188672)) := by
    have := hD.mono (show (-4194304 / 20999068188672 : ℝ) ≤ 1 / 2 by norm_num)
    rw [dhalf] at this
    push Not
    exact ⟨by norm_num, by linarith⟩
  have f2 : ¬ ((-20999063994368 : ℝ) = 0 ∨ 1 ≤ rD (-4194304 / -20999063994368)) := by
    have := hD.mono (show (-4194304 / -20999063994368 : ℝ) ≤ 1 / 2 by norm_num)
    rw [dhalf] at this
    push Not
    exact ⟨by norm_num, by linarith⟩
  have f3 : ¬ ((-8388608 : ℝ) = 0 ∨ 1 ≤ rD (-4194304 / -8388608)) := by
    have := hD.mono (show (-4194304 / -8388608 : ℝ) ≤ 1 / 2 by norm_num)
    rw [dhalf] at this
    push Not
    exact ⟨by norm_num, by linarith⟩
  -- the products with a minus sign
  have n2 : rT (-13627137 * (-6154504)) = 83868270985216 := by
    rw [show (-13627137 * (-6154504) : ℝ) = -(13627137 * (-6154504)) by ring, hT.odd, h2]
    norm_num
  have n4 : rT (-(-6590757) * 9538995) = 62869198602240 := by
    rw [show (-(-6590757) * 9538995 : ℝ) = -((-6590757) * 9538995) by ring, hT.odd, h4]
    norm_num
  -- the bounds of the first two cases are at most one quarter
  have small : ∀ A B : ℝ, (2 : ℝ) ^ (47 : ℤ) ≤ |A| + |B| → |A + B| ≤ (2 : ℝ) ^ (45 : ℤ) →
      keepSignR rT rF rD A B 0 ≤ 1 / 4 := by
    intro A B hs hd
    have k1 : (2 : ℝ) ^ (47 : ℤ) ≤ rF (|A| + |B|) := by
      have := hF.mono hs
      rwa [hF.pow2 47 (by norm_num) (by norm_num)] at this
    have k2 : |rT (rT (A + B) + 0)| ≤ (2 : ℝ) ^ (45 : ℤ) := by
      have mon : ∀ z : ℝ, |z| ≤ (2 : ℝ) ^ (45 : ℤ) → |rT z| ≤ (2 : ℝ) ^ (45 : ℤ) := by
        intro z hz
        rw [abs_le] at hz ⊢
        have a1 := hT.mono hz.1
        have a2 := hT.mono hz.2
        rw [hT.odd, hT.pow2all] at a1
        rw [hT.pow2all] at a2
        exact ⟨a1, a2⟩
      rw [add_zero]
      exact mon _ (mon _ hd)
    have hp : (0 : ℝ) < rF (|A| + |B|) := lt_of_lt_of_le (by norm_num) k1
    unfold keepSignR
    rw [if_neg hp.ne']
    have : |rT (rT (A + B) + 0)| / rF (|A| + |B|) ≤ 1 / 4 := by
      rw [div_le_iff₀ hp]
      have e : (2 : ℝ) ^ (47 : ℤ) = 4 * (2 : ℝ) ^ (45 : ℤ) := by norm_num
      rw [e] at k1
      linarith
    have := hD.mono this
    rwa [dq] at this
  have s1 := small (-62869202796544) 83868270985216 (by norm_num [abs_of_pos, abs_of_neg])
    (by norm_num [abs_of_pos, abs_of_neg])
  have s2 := small 62869198602240 (-83868262596608) (by norm_num [abs_of_pos, abs_of_neg])
    (by norm_num [abs_of_pos, abs_of_neg])
  -- the third case
  have a1 : rT (-62869202796544 - -62869198602240) = -4194304 := by
    rw [show (-62869202796544 - -62869198602240 : ℝ) = ((-4194304 : ℤ) : ℝ) by norm_num,
      hT.int _ (by norm_num)]
    norm_num
  have a2 : rT (-83868262596608 - -83868270985216) = 8388608 := by
    rw [show (-83868262596608 - -83868270985216 : ℝ) = ((8388608 : ℤ) : ℝ) by norm_num,
      hT.int _ (by norm_num)]
    norm_num
  have s3 : keepSignR rT rF rD (-4194304) 8388608 0 = rD (1 / 3) := by
    have e1 : rF (|(-4194304 : ℝ)| + |(8388608 : ℝ)|) = 12582912 := by
      rw [show (|(-4194304 : ℝ)| + |(8388608 : ℝ)|) = ((12582912 : ℤ) : ℝ) by
        norm_num [abs_of_pos, abs_of_neg], hF.int _ (by norm_num)]
      norm_num
    have e2 : rT (rT (-4194304 + 8388608) + 0) = 4194304 := by
      have : rT 4194304 = 4194304 := by
        have := hT.int 4194304 (by norm_num)
        exact_mod_cast this
      norm_num [this]
    unfold keepSignR
    rw [e1, e2]
    norm_num
  have third : 1 / 4 ≤ rD (1 / 3) := by
    have := hD.mono (show (1 / 4 : ℝ) ≤ 1 / 3 by norm_num)
    rwa [dq] at this
  unfold deriveOnlineR
  simp only [h1, h2, h3, h4, h5, h6, m0, m1, m2, mm, n2, n4, a1, a2, s3]
  rw [if_neg (by norm_num), if_neg (fun h => f1 h.1), if_pos f1, if_pos f2, if_pos f3]
  congr 1
  have mx : ∀ a b : ℝ, a ≤ 1 / 4 → b ≤ 1 / 4 → maxf a b ≤ 1 / 4 := by
    intro a b ha hb
    unfold maxf; split <;> assumption
  have e1 := (minf_le_left (keepSignR rT rF rD (-62869202796544) 83868270985216 0)
    (keepSignR rT rF rD 62869198602240 (-83868262596608) (-8388608))).trans s1
  have e2 := (minf_le_left (keepSignR rT rF rD 62869198602240 (-83868262596608) 0)
    (keepSignR rT rF rD (-62869202796544) 83868270985216 (-8388608))).trans s2
  have e3 := mx _ _ (mx 0 _ (by norm_num) e1) e2
  have mr : ∀ a b : ℝ, a ≤ b → maxf a b = b := by
    intro a b hab
    unfold maxf; rw [if_neg (not_lt.2 hab)]
  exact mr _ _ (e3.trans third)

/-- Accuracy of `log2` that the witness needs: an eighth. -/
def CoarseLog (lg : ℝ → ℝ) : Prop :=
  ∀ x, 1 ≤ x → x < (2 : ℝ) ^ (1024 : ℕ) → |lg x - Real.logb 2 x| ≤ 1 / 8

/-- Bounds between `5/4 * 2^20` and `7/8 * 2^22` are quantised to `2^20`. -/
theorem ebQuant_mid {rnd' : ℝ → ℤ} (hr' : IsIntRounding rnd') {rT lg : ℝ → ℝ} (hl : CoarseLog lg)
    {a : ℝ} (ha1 : 1310720 ≤ a) (ha2 : a ≤ 3670016) :
    ebQuant (roundedOps rT (fl rnd' 53) lg).toDOps parOnline.base parOnline.logBase parOnline.thr
      a = (1048576, 36) := by
  have hD := fl_isFloat hr' (p := 53) (by norm_num)
  have e4 : Real.logb 2 4 = 2 := by
    rw [show (4 : ℝ) = 2 ^ 2 by norm_num, Real.logb_pow, Real.logb_self_eq_one (by norm_num)]
    norm_num
  have hgt : ¬ a ≤ 1 / 2 ^ 52 := by
    rw [not_le]; exact lt_of_lt_of_le (by norm_num) ha1
  set y := fl rnd' 53 (a / (1 / 2 ^ 52)) with hy
  have y1 : 5 * (2 : ℝ) ^ (70 : ℕ) ≤ y := by
    have h1 : 5 * (2 : ℝ) ^ (70 : ℕ) ≤ a / (1 / 2 ^ 52) := by
      rw [le_div_iff₀ (by positivity)]; refine le_trans (le_of_eq ?_) ha1; norm_num
    have := hD.mono h1
    rwa [fl_exact hr' (x := 5 * (2 : ℝ) ^ (70 : ℕ)) (n := 5) (e := 70) (by norm_num)
      (by norm_num)] at this
  have y2 : y ≤ 7 * (2 : ℝ) ^ (71 : ℕ) := by
    have h1 : a / (1 / 2 ^ 52) ≤ 7 * (2 : ℝ) ^ (71 : ℕ) := by
      rw [div_le_iff₀ (by positivity)]; refine le_trans ha2 (le_of_eq ?_); norm_num
    have := hD.mono h1
    rwa [fl_exact hr' (x := 7 * (2 : ℝ) ^ (71 : ℕ)) (n := 7) (e := 71) (by norm_num)
      (by norm_num)] at this
  have ypos : 0 < y := lt_of_lt_of_le (by norm_num) y1
  have l1 : 72 + 1 / 8 ≤ Real.logb 2 y := by
    have h1 := Real.logb_le_logb_of_le (b := 2) (by norm_num) (by norm_num) y1
    have h2 : Real.logb 2 (5 * (2 : ℝ) ^ (70 : ℕ)) = 72 + Real.logb 2 (5 / 4) := by
      rw [show 5 * (2 : ℝ) ^ (70 : ℕ) = (2 : ℝ) ^ (72 : ℕ) * (5 / 4) by norm_num,
        Real.logb_mul (by norm_num) (by norm_num), Real.logb_pow,
        Real.logb_self_eq_one (by norm_num)]
      norm_num
    have h3 := Real.logb_le_logb_of_le (b := 2) (by norm_num) (by norm_num)
      (show (2 : ℝ) ≤ (5 / 4) ^ 8 by norm_num)
    rw [Real.logb_self_eq_one (by norm_num), Real.logb_pow] at h3
    push_cast at h3
    rw [h2] at h1
    linarith
  have l2 : Real.logb 2 y ≤ 74 - 3 / 16 := by
    have h1 := Real.logb_le_logb_of_le (b := 2) (by norm_num) ypos y2
    have h2 : Real.logb 2 (7 * (2 : ℝ) ^ (71 : ℕ)) = 74 + Real.logb 2 (7 / 8) := by
      rw [show 7 * (2 : ℝ) ^ (71 : ℕ) = (2 : ℝ) ^ (74 : ℕ) * (7 / 8) by norm_num,
        Real.logb_mul (by norm_num) (by norm_num), Real.logb_pow,
        Real.logb_self_eq_one (by norm_num)]
      norm_num
    have h3 := Real.logb_le_logb_of_le (b := 2) (by norm_num) (by norm_num)
      (show ((7 : ℝ) / 8) ^ 16 ≤ (2 ^ 3)⁻¹ by norm_num)
    rw [Real.logb_inv, Real.logb_pow, Real.logb_pow, Real.logb_self_eq_one (by norm_num)] at h3
    push_cast at h3
    rw [h2] at h1
    linarith
  have l3 := abs_le.1 (hl y (le_trans (by norm_num) y1) (lt_of_le_of_lt y2
    (lt_of_lt_of_le (show 7 * (2 : ℝ) ^ (71 : ℕ) < 2 ^ (100 : ℕ) by norm_num)
      (pow_le_pow_right₀ (by norm_num) (by norm_num)))))
  have z1 : (36 : ℝ) ≤ fl rnd' 53 (lg y / 2) := by
    have := hD.mono (show ((36 : ℤ) : ℝ) ≤ lg y / 2 by push_cast; linarith [l3.1])
    rw [hD.int _ (by norm_num)] at this
    exact_mod_cast this
  have z2 : fl rnd' 53 (lg y / 2) < 37 := by
    have := hD.mono (show lg y / 2 ≤ 37 - 1 / 32 by linarith [l3.2])
    rw [fl_exact hr' (x := 37 - 1 / 32) (n := 1183) (e := -5) (by norm_num) (by norm_num)] at this
    linarith
  have ht : truncR (fl rnd' 53 (lg y / 2)) = 36 := by
    rw [truncR_nonneg (by linarith), Int.floor_eq_iff]
    push_cast
    exact ⟨z1, by linarith⟩
  have hp : fl rnd' 53 (fl rnd' 53 (((4 : ℤ) : ℝ) ^ (36 : ℤ)) * (1 / 2 ^ 52)) = 1048576 := by
    rw [show (((4 : ℤ) : ℝ) ^ (36 : ℤ)) = (2 : ℝ) ^ (72 : ℤ) by norm_num, hD.pow2all,
      show (2 : ℝ) ^ (72 : ℤ) * (1 / 2 ^ 52) = (2 : ℝ) ^ (20 : ℤ) by norm_num, hD.pow2all]
    norm_num
  unfold ebQuant
  rw [if_neg (by simpa [roundedOps, parOnline] using hgt)]
  have e : (roundedOps rT (fl rnd' 53) lg).trunc ((roundedOps rT (fl rnd' 53) lg).div
      ((roundedOps rT (fl rnd' 53) lg).log2 ((roundedOps rT (fl rnd' 53) lg).div a parOnline.thr))
        parOnline.logBase) = 36 := by
    show truncR (fl rnd' 53 (lg y / Real.logb 2 4)) = 36
    rw [e4, ht]
  simp only [e]
  exact Prod.ext hp rfl

/-- Encoding of one component: the prediction is the left neighbour `c`, the reconstruction `2 n`
steps of `2^20` below it. -/
theorem encComp_wit {rnd rnd' : ℝ → ℤ} (hr : IsIntRounding rnd) (hr' : IsIntRounding rnd')
    {lg : ℝ → ℝ} (hl : CoarseLog lg) {a : ℝ} (ha1 : 1310720 ≤ a) (ha2 : a ≤ 3670016)
    {f : Nat → ℝ} {x c N n : ℤ} (h1 : f 1 = x) (h0 : f 0 = c) (hc : |c| < 2 ^ 24)
    (hN : x - c = -N) (hN0 : 0 < N) (hNs : fl rnd 24 (N : ℝ) = N) (hNb : N < 2 ^ 29)
    (hn1 : 2 * n * 2 ^ 20 ≤ N + 2 ^ 20) (hn2 : N + 2 ^ 20 < 2 * (n + 1) * 2 ^ 20)
    (hd : |c - 2 * n * 2 ^ 20| < 2 ^ 24) (he : |c - 2 * n * 2 ^ 20 - x| < 2 ^ 20) :
    encComp (roundedOps (fl rnd 24) (fl rnd' 53) lg) parOnline 2 f 1 a =
      some (36, 32768 - n, ((c - 2 * n * 2 ^ 20 : ℤ) : ℝ)) := by
  have hD := fl_isFloat hr' (p := 53) (by norm_num)
  have hT := fl_isFloat hr (p := 24) (by norm_num)
  have hn0 : 0 ≤ n := by omega
  have hnb : n ≤ 2 ^ 9 := by omega
  have t0 : fl rnd 24 0 = 0 := by simpa using hT.int 0 (by norm_num)
  have tc : fl rnd 24 (c : ℝ) = c := hT.int c hc.le
  have d1 : fl rnd' 53 1 = 1 := by simpa using hD.int 1 (by norm_num)
  have d0 : fl rnd' 53 0 = 0 := by simpa using hD.int 0 (by norm_num)
  have d2 : fl rnd' 53 2 = 2 := by simpa using hD.int 2 (by norm_num)
  have dcap : fl rnd' 53 65536 = 65536 := by simpa using hD.int 65536 (by norm_num)
  have hq := ebQuant_mid hr' (rT := fl rnd 24) hl ha1 ha2
  have hpred : lorenzo (roundedOps (fl rnd 24) (fl rnd' 53) lg) 2 f 1 = c := by
    simp [lorenzo, roundedOps, h0, tc]
  have hdiff : fl rnd 24 ((x : ℝ) - c) = -N := by
    have : ((x : ℝ) - c) = -(N : ℝ) := by exact_mod_cast hN
    rw [this, hT.odd, hNs]
  -- the division and what follows is exact
  have hNabs : |N| < 2 ^ 53 := by rw [abs_of_pos hN0]; exact hNb.trans (by norm_num)
  have q1 : fl rnd' 53 ((N : ℝ) / 1048576) = N / 1048576 :=
    fl_exact hr' (n := N) (e := -20) (by norm_num [div_eq_mul_inv]) hNabs
  have q2 : fl rnd' 53 ((N : ℝ) / 1048576 + 1) = N / 1048576 + 1 :=
    fl_exact hr' (n := N + 2 ^ 20) (e := -20) (by push_cast; norm_num; ring)
      (by rw [abs_of_pos (by omega)]; omega)
  have q3 : fl rnd' 53 (-((N : ℝ) / 1048576 + 1) / 2) = -(((N : ℝ) / 1048576 + 1) / 2) := by
    rw [neg_div, hD.odd]
    congr 1
    exact fl_exact hr' (n := N + 2 ^ 20) (e := -21) (by push_cast; norm_num; ring)
      (by rw [abs_of_pos (by omega)]; omega)
  have q4 : truncR (-(((N : ℝ) / 1048576 + 1) / 2)) = -n := by
    have hNR : (0 : ℝ) < N := by exact_mod_cast hN0
    rw [truncR_neg, truncR_nonneg (by positivity)]
    congr 1
    rw [Int.floor_eq_iff]
    have k1 : ((2 * n * 2 ^ 20 : ℤ) : ℝ) ≤ ((N + 2 ^ 20 : ℤ) : ℝ) := by exact_mod_cast hn1
    have k2 : ((N + 2 ^ 20 : ℤ) : ℝ) < ((2 * (n + 1) * 2 ^ 20 : ℤ) : ℝ) := by exact_mod_cast hn2
    push_cast at k1 k2
    constructor <;> linarith
  have hNlt : (N : ℝ) / 1048576 + 1 < 65536 := by
    have : (N : ℝ) < 2 ^ 29 := by exact_mod_cast hNb
    linarith
  have hlin : linQuant (roundedOps (fl rnd 24) (fl rnd' 53) lg).toDOps (-N) 1048576 65536 32768 =
      some (32768 - n) := by
    have hNR : (0 : ℝ) < N := by exact_mod_cast hN0
    unfold linQuant
    simp only [roundedOps, Int.cast_one, Int.cast_zero, Int.cast_ofNat, d0, d1, d2, dcap, abs_neg,
      abs_of_pos hNR, q1, q2, decide_eq_true_eq, if_pos hNlt]
    rw [if_neg (by linarith), q3, q4]
    congr 1; ring
  have hoff : fl rnd' 53 (((2 * ((32768 - n) - 32768) : ℤ) : ℝ)) = -(2 * n : ℝ) := by
    rw [hD.int _ (by rw [abs_le]; omega)]
    push_cast; ring
  have hoff2 : fl rnd' 53 (-(2 * n : ℝ) * 1048576) = -(2 * n : ℝ) * 1048576 :=
    fl_exact hr' (n := -(2 * n)) (e := 20) (by push_cast; norm_num)
      (by rw [abs_lt]; omega)
  have hsum : fl rnd' 53 ((c : ℝ) + -(2 * n : ℝ) * 1048576) =
      ((c - 2 * n * 2 ^ 20 : ℤ) : ℝ) := by
    rw [show ((c : ℝ) + -(2 * n : ℝ) * 1048576) = ((c - 2 * n * 2 ^ 20 : ℤ) : ℝ) by
      push_cast; ring, hD.int _ hd.le]
  have hchk : fl rnd 24 (((c - 2 * n * 2 ^ 20 : ℤ) : ℝ) - x) =
      ((c - 2 * n * 2 ^ 20 - x : ℤ) : ℝ) := by
    rw [show (((c - 2 * n * 2 ^ 20 : ℤ) : ℝ) - x) = ((c - 2 * n * 2 ^ 20 - x : ℤ) : ℝ) by
      push_cast; ring, hT.int _ (he.le.trans (by norm_num))]
  have hacc : ¬ (1048576 : ℝ) ≤ |((c - 2 * n * 2 ^ 20 - x : ℤ) : ℝ)| := by
    have : (|c - 2 * n * 2 ^ 20 - x| : ℤ) < ((1048576 : ℤ)) := by
      exact lt_of_lt_of_le he (by norm_num)
    have : ((|c - 2 * n * 2 ^ 20 - x| : ℤ) : ℝ) < 1048576 := by exact_mod_cast this
    rw [Int.cast_abs] at this
    linarith
  unfold encComp
  simp only [hq, hpred, h1]
  rw [if_pos (by norm_num)]
  have e1 : (roundedOps (fl rnd 24) (fl rnd' 53) lg).toD
      ((roundedOps (fl rnd 24) (fl rnd' 53) lg).subT (x : ℝ) (c : ℝ)) = -N := hdiff
  have e2 : linQuant (roundedOps (fl rnd 24) (fl rnd' 53) lg).toDOps (-N) 1048576
      parOnline.capacity parOnline.radius = some (32768 - n) := hlin
  simp only [e1, e2]
  have e3 : (roundedOps (fl rnd 24) (fl rnd' 53) lg).ofD
      ((roundedOps (fl rnd 24) (fl rnd' 53) lg).add
        ((roundedOps (fl rnd 24) (fl rnd' 53) lg).toD (c : ℝ))
        (linOffset (roundedOps (fl rnd 24) (fl rnd' 53) lg).toDOps 1048576 parOnline.radius
          (32768 - n))) = ((c - 2 * n * 2 ^ 20 : ℤ) : ℝ) := by
    show fl rnd 24 (fl rnd' 53 ((c : ℝ) + fl rnd' 53 (fl rnd' 53
      (((2 * ((32768 - n) - 32768) : ℤ) : ℝ)) * 1048576))) = _
    rw [hoff, hoff2, hsum, hT.int _ hd.le]
  simp only [e3]
  have e4 : (roundedOps (fl rnd 24) (fl rnd' 53) lg).le 1048576
      ((roundedOps (fl rnd 24) (fl rnd' 53) lg).abs ((roundedOps (fl rnd 24) (fl rnd' 53) lg).toD
        ((roundedOps (fl rnd 24) (fl rnd' 53) lg).subT ((c - 2 * n * 2 ^ 20 : ℤ) : ℝ) (x : ℝ)))) =
      false := by
    show decide ((1048576 : ℝ) ≤ |fl rnd 24 (((c - 2 * n * 2 ^ 20 : ℤ) : ℝ) - x)|) = false
    rw [hchk]
    exact decide_eq_false hacc
  simp only [e4]
  simp

theorem loop_skip {T D : Type} {r1 r2 : Nat} {minf : D → D → D}
    {derive : Nat → T → T → T → T → T → T → D} {f : Online2D.Field T} {p k : Nat}
    {ks : List Nat} {req : D} (h : Mesh2D.inMesh r1 r2 (p / r2) (p % r2) k = false) :
    requiredLoop r1 r2 minf derive f p (k :: ks) req =
      requiredLoop r1 r2 minf derive f p ks req := by
  rw [requiredLoop, h]; simp

theorem loop_take {T D : Type} {r1 r2 : Nat} {minf : D → D → D}
    {derive : Nat → T → T → T → T → T → T → D} {f : Online2D.Field T} {p k : Nat}
    {ks : List Nat} {req : D} (a b : Nat)
    (h : Mesh2D.inMesh r1 r2 (p / r2) (p % r2) k = true)
    (ha : (p : Int) + offsets r2 k = a) (hb : (p : Int) + offsets r2 (k + 1) = b)
    (la : a < r1 * r2) (lb : b < r1 * r2) :
    requiredLoop r1 r2 minf derive f p (k :: ks) req =
      requiredLoop r1 r2 minf derive f p ks
        (minf req (derive k (f.u a) (f.u b) (f.u p) (f.v a) (f.v b) (f.v p))) := by
  rw [requiredLoop, h, ha, hb, rd_nat _ _ _ la, rd_nat _ _ _ lb, rd_nat _ _ _ la, rd_nat _ _ _ lb]
  simp

/-- The triangles at the four vertices of a 2 by 2 grid. -/
theorem loops22 {T D : Type} (minf : D → D → D) (derive : Nat → T → T → T → T → T → T → D)
    (f : Online2D.Field T) (B : D) :
    requiredEb 2 2 B minf derive f 0 =
      some (minf (minf B (derive 3 (f.u 2) (f.u 3) (f.u 0) (f.v 2) (f.v 3) (f.v 0)))
        (derive 4 (f.u 3) (f.u 1) (f.u 0) (f.v 3) (f.v 1) (f.v 0))) ∧
    requiredEb 2 2 B minf derive f 1 =
      some (minf B (derive 2 (f.u 0) (f.u 3) (f.u 1) (f.v 0) (f.v 3) (f.v 1))) ∧
    requiredEb 2 2 B minf derive f 2 =
      some (minf B (derive 5 (f.u 3) (f.u 0) (f.u 2) (f.v 3) (f.v 0) (f.v 2))) ∧
    requiredEb 2 2 B minf derive f 3 =
      some (minf (minf B (derive 0 (f.u 1) (f.u 0) (f.u 3) (f.v 1) (f.v 0) (f.v 3)))
        (derive 1 (f.u 0) (f.u 2) (f.u 3) (f.v 0) (f.v 2) (f.v 3))) := by
  unfold requiredEb
  refine ⟨?_, ?_, ?_, ?_⟩
  · rw [loop_skip (by decide), loop_skip (by decide), loop_skip (by decide),
      loop_take 2 3 (by decide) (by decide) (by decide) (by decide) (by decide),
      loop_take 3 1 (by decide) (by decide) (by decide) (by decide) (by decide),
      loop_skip (by decide), requiredLoop]
  · rw [loop_skip (by decide), loop_skip (by decide),
      loop_take 0 3 (by decide) (by decide) (by decide) (by decide) (by decide),
      loop_skip (by decide), loop_skip (by decide), loop_skip (by decide), requiredLoop]
  · rw [loop_skip (by decide), loop_skip (by decide), loop_skip (by decide),
      loop_skip (by decide), loop_skip (by decide),
      loop_take 3 0 (by decide) (by decide) (by decide) (by decide) (by decide), requiredLoop]
  · rw [loop_take 1 0 (by decide) (by decide) (by decide) (by decide) (by decide),
      loop_take 0 2 (by decide) (by decide) (by decide) (by decide) (by decide),
      loop_skip (by decide), loop_skip (by decide), loop_skip (by decide), loop_skip (by decide),
      requiredLoop]

theorem minfX_zero_left (b : Option ℝ) : (minfX (some 0) b).getD 0 ≤ 0 := by
  cases b with
  | none => simp [minfX]
  | some b =>
    simp only [minfX]
    split
    · simp
    · rename_i h; simpa using h

theorem minfX_zero_right (a : Option ℝ) : (minfX a (some 0)).getD 0 ≤ 0 := by
  cases a with
  | none => simp [minfX]
  | some a =>
    simp only [minfX]
    split
    · rename_i h; simpa using h.le
    · simp

/-- The field of the witness, four vertices row by row. -/
noncomputable def fieldCP : Online2D.Field ℝ :=
  ⟨fun q => [13627137, -6590757, 13627137, 13627136].getD q 0,
    fun q => [9538996, -6154504, 9538996, 9538995].getD q 0⟩

/-- Every number of 24 bits is a number of 53 bits. -/
theorem fl_sub {rnd rnd' : ℝ → ℤ} (hr : IsIntRounding rnd) (hr' : IsIntRounding rnd') (x : ℝ) :
    fl rnd' 53 (fl rnd 24 x) = fl rnd 24 x := by
  have key : ∀ y : ℝ, 0 < y → fl rnd' 53 (flPos rnd 24 y) = flPos rnd 24 y := by
    intro y hy
    have h2 := (flPos_range hr (p := 24) (by norm_num) hy).2
    have h0 := flPos_nonneg hr (p := 24) hy.le
    have he : (0 : ℝ) < (2 : ℝ) ^ ulpExp 24 y := zpow_pos (by norm_num) _
    have e : (2 : ℝ) ^ (Int.log 2 y + 1) = 2 ^ 24 * (2 : ℝ) ^ ulpExp 24 y := by
      rw [← zpow_natCast, ← zpow_add₀ (by norm_num : (2 : ℝ) ≠ 0), ulpExp]
      congr 1; push_cast; ring
    rw [e] at h2
    have k2 : (rnd (y / (2 : ℝ) ^ ulpExp 24 y) : ℝ) ≤ 2 ^ 24 :=
      le_of_mul_le_mul_right h2 he
    have k0 : (0 : ℝ) ≤ (rnd (y / (2 : ℝ) ^ ulpExp 24 y) : ℝ) :=
      le_of_mul_le_mul_right (by rw [zero_mul]; exact h0) he
    have k2' : rnd (y / (2 : ℝ) ^ ulpExp 24 y) ≤ 2 ^ 24 := by exact_mod_cast k2
    have k0' : 0 ≤ rnd (y / (2 : ℝ) ^ ulpExp 24 y) := by exact_mod_cast k0
    refine fl_exact hr' (n := rnd (y / (2 : ℝ) ^ ulpExp 24 y)) (e := ulpExp 24 y) rfl ?_
    rw [abs_of_nonneg k0']
    exact lt_of_le_of_lt k2' (by norm_num)
  rcases lt_trichotomy x 0 with h | rfl | h
  · have : fl rnd 24 x = -flPos rnd 24 (-x) := by unfold fl; rw [if_neg (by linarith)]
    rw [this, fl_neg hr', key (-x) (by linarith)]
  · have : fl rnd 24 0 = 0 := by simp [fl, flPos_zero hr]
    rw [this]; simp [fl, flPos_zero hr']
  · have : fl rnd 24 x = flPos rnd 24 x := by unfold fl; rw [if_pos h.le]
    rw [this, key x h]

/-- C57 fails.  On a 2 by 2 grid of `float` vectors with integer components below `2^24`, with a
relative bound of one half and arithmetic that rounds correctly (`float` to nearest with any
tie-breaking rule, `double` in any direction, `fabs` in either type, `log2` with an error of up to
an eighth), the upper triangle has no critical point in the input and has one in the decompressed
field. -/
theorem C57_critical_point_created {rnd rnd' : ℝ → ℤ} (hr : IsNearest rnd)
    (hr' : IsIntRounding rnd') {rF lg : ℝ → ℝ} (hF : IsRounding rF) (hl : CoarseLog lg)
    (m0 : Online2D.Field ℝ) :
    ∃ m' s d, compress (roundedOps (fl rnd 24) (fl rnd' 53) lg) parOnline 2 2
        (fun req x => fl rnd' 53 (|x| * req))
        (boundOnlineR (fl rnd 24) rF (fl rnd' 53) 2 2 (1 / 2)) fieldCP = some (m', s) ∧
      decompress (roundedOps (fl rnd 24) (fl rnd' 53) lg) parOnline 2 2 m0 s = some d ∧
      Tri.inGrid 2 2 ⟨0, 0, true⟩ ∧
      ¬ Tri.hasCP 2 fieldCP ⟨0, 0, true⟩ ∧ Tri.hasCP 2 d ⟨0, 0, true⟩ := by
  have hn := hr.toIsIntRounding
  have hD := fl_isFloat hr' (p := 53) (by norm_num)
  have hT := fl_isFloat hn (p := 24) (by norm_num)
  have d0 : fl rnd' 53 0 = 0 := by simpa using hD.int 0 (by norm_num)
  have hTD : ∀ x, fl rnd' 53 (fl rnd 24 x) = fl rnd 24 x := fun x => fl_sub hn hr' x
  have hder := derive_wit hr hr' hF
  set O := roundedOps (fl rnd 24) (fl rnd' 53) lg with hO
  set ab : ℝ → ℝ → ℝ := fun req x => fl rnd' 53 (|x| * req) with hab
  set bd := boundOnlineR (fl rnd 24) rF (fl rnd' 53) 2 2 (1 / 2) with hbd
  -- vertices whose bound is not positive
  have stay : ∀ f q b, bd f q = some b → b ≤ 0 →
      encVertex O parOnline 2 ab bd f q = some (f, .lossless (f.u q) (f.v q)) := by
    intro f q b hb hle
    unfold encVertex
    rw [hb]
    have : O.lt (O.ofInt 0) b = false := by
      simp only [O, roundedOps, Int.cast_zero, d0]
      exact decide_eq_false (not_lt.2 hle)
    simp only [this]
    simp
  have hb0 : ∀ f : Online2D.Field ℝ, f.u 2 = f.u 0 → f.v 2 = f.v 0 → ∃ b, bd f 0 = some b ∧ b ≤ 0 := by
    intro f hu hv
    refine ⟨_, by rw [hbd]; unfold boundOnlineR; rw [(loops22 _ _ _ _).1]; rfl, ?_⟩
    have : deriveKR (fl rnd 24) rF (fl rnd' 53) 3 (f.u 2) (f.u 3) (f.u 0) (f.v 2) (f.v 3) (f.v 0) =
        some 0 := by
      rw [hu, hv]; exact deriveOnlineR_eq02 hT.odd d0 hTD ..
    rw [this]
    have e : minfX (some (1 / 2)) (some 0) = some 0 := by simp [minfX]
    rw [e]
    exact minfX_zero_left _
  have hb2 : ∀ f : Online2D.Field ℝ, f.u 2 = f.u 0 → f.v 2 = f.v 0 → ∃ b, bd f 2 = some b ∧ b ≤ 0 := by
    intro f hu hv
    refine ⟨_, by rw [hbd]; unfold boundOnlineR; rw [(loops22 _ _ _ _).2.2.1]; rfl, ?_⟩
    have : deriveKR (fl rnd 24) rF (fl rnd' 53) 5 (f.u 3) (f.u 0) (f.u 2) (f.v 3) (f.v 0) (f.v 2) =
        some 0 := by
      rw [hu, hv]; exact deriveOnlineR_eq12 hT.odd d0 hTD ..
    rw [this]
    exact minfX_zero_right _
  have hb3 : ∀ f : Online2D.Field ℝ, f.u 2 = f.u 0 → f.v 2 = f.v 0 → ∃ b, bd f 3 = some b ∧ b ≤ 0 := by
    intro f hu hv
    refine ⟨_, by rw [hbd]; unfold boundOnlineR; rw [(loops22 _ _ _ _).2.2.2]; rfl, ?_⟩
    have : deriveKR (fl rnd 24) rF (fl rnd' 53) 1 (f.u 0) (f.u 2) (f.u 3) (f.v 0) (f.v 2) (f.v 3) =
        some 0 := by
      rw [hu, hv]; exact deriveOnlineR_eq01 hT.odd d0 ..
    rw [this]
    exact minfX_zero_right _
  -- the vertex that is changed
  have eq1 : 1 / 4 ≤ fl rnd' 53 (1 / 3) := by
    have := hD.mono (show ((2 : ℝ) ^ (-2 : ℤ)) ≤ 1 / 3 by norm_num)
    rw [hD.pow2all] at this
    norm_num at this ⊢; exact this
  have eq2 : fl rnd' 53 (1 / 3) ≤ 1 / 2 := by
    have := hD.mono (show (1 / 3 : ℝ) ≤ ((2 : ℝ) ^ (-1 : ℤ)) by norm_num)
    rw [hD.pow2all] at this
    norm_num at this ⊢; exact this
  have hb1 : bd fieldCP 1 = some (fl rnd' 53 (1 / 3)) := by
    rw [hbd]; unfold boundOnlineR; rw [(loops22 _ _ _ _).2.1]
    have : deriveKR (fl rnd 24) rF (fl rnd' 53) 2 (fieldCP.u 0) (fieldCP.u 3) (fieldCP.u 1)
        (fieldCP.v 0) (fieldCP.v 3) (fieldCP.v 1) = some (fl rnd' 53 (1 / 3)) := hder ..
    rw [this]
    simp only [minfX, if_neg (not_lt.2 eq2), Option.map_some, Option.getD_some]
  have habs : ∀ x : ℤ, 5242880 ≤ |x| → |x| ≤ 7340032 →
      1310720 ≤ ab (fl rnd' 53 (1 / 3)) (x : ℝ) ∧ ab (fl rnd' 53 (1 / 3)) (x : ℝ) ≤ 3670016 := by
    intro x h1 h2
    have h1' : (5242880 : ℝ) ≤ |(x : ℝ)| := by rw [← Int.cast_abs]; exact_mod_cast h1
    have h2' : |(x : ℝ)| ≤ 7340032 := by rw [← Int.cast_abs]; exact_mod_cast h2
    have k1 := hD.mono (show ((1310720 : ℤ) : ℝ) ≤ |(x : ℝ)| * fl rnd' 53 (1 / 3) by
      push_cast; nlinarith)
    have k2 := hD.mono (show |(x : ℝ)| * fl rnd' 53 (1 / 3) ≤ ((3670016 : ℤ) : ℝ) by
      push_cast; nlinarith)
    rw [hD.int _ (by norm_num)] at k1 k2
    push_cast at k1 k2
    exact ⟨k1, k2⟩
  obtain ⟨au1, au2⟩ := habs (-6590757) (by norm_num) (by norm_num)
  obtain ⟨av1, av2⟩ := habs (-6154504) (by norm_num) (by norm_num)
  have fu1 : fieldCP.u 1 = ((-6590757 : ℤ) : ℝ) := by norm_num [fieldCP]
  have fv1 : fieldCP.v 1 = ((-6154504 : ℤ) : ℝ) := by norm_num [fieldCP]
  have cu : encComp O parOnline 2 fieldCP.u 1 (ab (fl rnd' 53 (1 / 3)) (fieldCP.u 1)) =
      some (36, 32768 - 10, ((13627137 - 2 * 10 * 2 ^ 20 : ℤ) : ℝ)) := by
    rw [fu1]
    refine encComp_wit hn hr' hl au1 au2 fu1 (c := 13627137) (N := 20217894)
      (by norm_num [fieldCP]) (by norm_num) (by norm_num) (by norm_num) ?_ (by norm_num)
      (by norm_num) (by norm_num) (by norm_num) (by norm_num)
    exact fl_exact hn (n := 10108947) (e := 1) (by norm_num) (by norm_num)
  have cv : encComp O parOnline 2 fieldCP.v 1 (ab (fl rnd' 53 (1 / 3)) (fieldCP.v 1)) =
      some (36, 32768 - 7, ((9538996 - 2 * 7 * 2 ^ 20 : ℤ) : ℝ)) := by
    rw [fv1]
    refine encComp_wit hn hr' hl av1 av2 fv1 (c := 9538996) (N := 15693500)
      (by norm_num [fieldCP]) (by norm_num) (by norm_num) (by norm_num) ?_ (by norm_num)
      (by norm_num) (by norm_num) (by norm_num) (by norm_num)
    exact hT.int 15693500 (by norm_num)
  set f' := fieldCP.set 1 ((13627137 - 2 * 10 * 2 ^ 20 : ℤ) : ℝ)
    ((9538996 - 2 * 7 * 2 ^ 20 : ℤ) : ℝ) with hf'
  have v1 : encVertex O parOnline 2 ab bd fieldCP 1 =
      some (f', .coded 36 36 (32768 - 10) (32768 - 7)) := by
    unfold encVertex
    rw [hb1]
    have : O.lt (O.ofInt 0) (fl rnd' 53 (1 / 3)) = true := by
      simp only [O, roundedOps, Int.cast_zero, d0]
      exact decide_eq_true (by linarith)
    simp only [this, if_true, cu, cv]
    rfl
  have w0 : ∃ w, encVertex O parOnline 2 ab bd fieldCP 0 = some (fieldCP, w) := by
    obtain ⟨b, e1, e2⟩ := hb0 fieldCP rfl rfl
    exact ⟨_, stay _ _ b e1 e2⟩
  have w2 : ∃ w, encVertex O parOnline 2 ab bd f' 2 = some (f', w) := by
    obtain ⟨b, e1, e2⟩ := hb2 f' rfl rfl
    exact ⟨_, stay _ _ b e1 e2⟩
  have w3 : ∃ w, encVertex O parOnline 2 ab bd f' 3 = some (f', w) := by
    obtain ⟨b, e1, e2⟩ := hb3 f' rfl rfl
    exact ⟨_, stay _ _ b e1 e2⟩
  obtain ⟨w0, hw0⟩ := w0
  obtain ⟨w2, hw2⟩ := w2
  obtain ⟨w3, hw3⟩ := w3
  have hc : ∃ s, compress O parOnline 2 2 ab bd fieldCP = some (f', s) := by
    have hs : scanEnc (encVertex O parOnline 2 ab bd) (2 * 2) 0 fieldCP =
        some (f', [w0, .coded 36 36 (32768 - 10) (32768 - 7), w2, w3]) := by
      simp only [scanEnc, Nat.zero_add, Nat.reduceAdd, hw0, v1, hw2, hw3]
    unfold compress
    rw [hs]
    exact ⟨_, rfl⟩
  obtain ⟨s, hc⟩ := hc
  obtain ⟨d, hd, hA⟩ := lockstep _ _ _ _ _ _ fieldCP m0 f' s hc
  have ht : Tri.inGrid 2 2 ⟨0, 0, true⟩ := ⟨by norm_num, by norm_num⟩
  refine ⟨f', s, d, hc, hd, ht, ?_, ?_⟩
  · have : Tri.hasCP 2 fieldCP ⟨0, 0, true⟩ ↔ HasCP (13627137, 9538996) (-6590757, -6154504)
        (13627136, 9538995) := by
      unfold Tri.hasCP Tri.vec Tri.verts gridVal
      simp [fieldCP]
    rw [this, hasCP_iff rfl rfl rfl rfl (by norm_num)]
    norm_num
  · rw [(tri_congr ht hA).1]
    have : Tri.hasCP 2 f' ⟨0, 0, true⟩ ↔ HasCP (13627137, 9538996)
        (((13627137 - 2 * 10 * 2 ^ 20 : ℤ) : ℝ), ((9538996 - 2 * 7 * 2 ^ 20 : ℤ) : ℝ))
        (13627136, 9538995) := by
      unfold Tri.hasCP Tri.vec Tri.verts gridVal
      simp [fieldCP, f', Field.set, setAt]
    rw [this, hasCP_iff rfl rfl rfl rfl (by norm_num)]
    norm_num

/-! ### The assumptions can be met -/

/-- The correctly rounded logarithm is precise enough for the witness. -/
theorem coarseLog_rounded : CoarseLog (fun x => fl nearest 53 (Real.logb 2 x)) := by
  intro x h1 h2
  have hl0 : 0 ≤ Real.logb 2 x := Real.logb_nonneg (by norm_num) h1
  have hl1 : Real.logb 2 x ≤ 1024 := by
    have := Real.logb_le_logb_of_le (b := 2) (by norm_num) (by linarith) h2.le
    rwa [Real.logb_pow, Real.logb_self_eq_one (by norm_num), mul_one] at this
  refine ((fl_isFloat nearest_rounding (p := 53) (by norm_num)).rel _).trans ?_
  rw [abs_of_nonneg hl0]
  have : (2 : ℝ) ^ (1 - ((53 : ℕ) : ℤ)) * Real.logb 2 x ≤ (2 : ℝ) ^ (1 - ((53 : ℕ) : ℤ)) * 1024 :=
    mul_le_mul_of_nonneg_left hl1 (zpow_pos (by norm_num) _).le
  refine this.trans ?_
  norm_num

example (m0 : Online2D.Field ℝ) := C57_critical_point_created nearest_isNearest nearest_rounding
  (fl_isFloat nearest_rounding (p := 24) (by norm_num)).toIsRounding coarseLog_rounded m0

/-- Bounds that satisfy the hypothesis: half of the exact ones.  The field of the witness, for
which the computed bounds do not, is then compressed without a change of critical points. -/
example : ∃ m' s d, compress (roundedOps (fl nearest 24) (fl nearest 53)
      (fun x => fl nearest 53 (Real.logb 2 x))) parOnline 2 2
      (fun req x => fl nearest 53 (|x| * req))
      (fun f p => (boundOnline 2 2 (1 / 2) f p).map fun b => min b 1 / 2) fieldCP = some (m', s) ∧
    decompress (roundedOps (fl nearest 24) (fl nearest 53)
      (fun x => fl nearest 53 (Real.logb 2 x))) parOnline 2 2 ⟨fun _ => 0, fun _ => 0⟩ s = some d ∧
    ∀ t : Tri, t.inGrid 2 2 → (t.hasCP 2 d ↔ t.hasCP 2 fieldCP) := by
  obtain ⟨m', s, h⟩ := compress_defined2 (roundedOps (fl nearest 24) (fl nearest 53)
    (fun x => fl nearest 53 (Real.logb 2 x))) parOnline 2 2 (fun req x => fl nearest 53 (|x| * req))
    (fun f p => (boundOnline 2 2 (1 / 2) f p).map fun b => min b 1 / 2) fieldCP (by
      intro f p hp
      obtain ⟨h0, h1, h2, h3⟩ := loops22 minfX (deriveKR id id id) f (some (1 / 2))
      rw [← boundOnlineR_id]
      have : p = 0 ∨ p = 1 ∨ p = 2 ∨ p = 3 := by omega
      unfold boundOnlineR
      rcases this with rfl | rfl | rfl | rfl
      · rw [h0]; rfl
      · rw [h1]; rfl
      · rw [h2]; rfl
      · rw [h3]; rfl)
  obtain ⟨d, hd, hA⟩ := lockstep _ _ _ _ _ _ fieldCP ⟨fun _ => 0, fun _ => 0⟩ m' s h
  refine ⟨m', s, d, h, hd, fun t ht => ?_⟩
  refine (C57_kept_float_partial nearest_isNearest nearest_rounding
    (IsLog2.rounded nearest_rounding (p := 53) (by norm_num)) (by positivity)
    (log2_double_bound.trans (by norm_num)) 2 2 1 (1 / 2) _ fieldCP _ m' d s ?_ ?_ h hd t ht).1
  · intro p f req hp _ hb hpos
    obtain ⟨E, hE, rfl⟩ := Option.map_eq_some_iff.1 hb
    have h1 := min_le_left E 1
    have h2 := min_le_right E 1
    exact ⟨by linarith, E, hE, by linarith⟩
  · have hX : (2 : ℝ) ^ 24 ≤ (2 : ℝ) ^ (960 : ℕ) := pow_le_pow_right₀ (by norm_num) (by norm_num)
    intro q hq
    have : q = 0 ∨ q = 1 ∨ q = 2 ∨ q = 3 := by omega
    constructor <;> refine le_trans ?_ hX <;> rcases this with rfl | rfl | rfl | rfl <;>
      norm_num [fieldCP, abs_of_pos, abs_of_neg]

end CpSZ.Rounded
