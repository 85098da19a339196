import Verif.Ieee.Rel
import Verif.Props.Ieee
/-
Property C85: the user's relative bound in IEEE-754 arithmetic, from bytes to bytes.
-/

namespace CpSZ.Ieee
open CpSZ.Online2D

/-- The two bit patterns stand for numbers whose distance is at most `e` times the second one. -/
def WithinRel (F : Fmt) (e : ℚ) (x c : Pat F) : Prop :=
  ∃ X C, dec F x = .fin X ∧ dec F c = .fin C ∧ |X - C| ≤ e * |C|

/-- `get_adjugate_matrix_for_position` (src/sz_compress_cp_preserve_2d.cpp L52-61) on the tables
`x`, `y` (L575-594). -/
def coefBits (F : Fmt) (k q : Nat) : Pat F :=
  let i (n : Int) : Pat F := enc F false (round F n)
  let x q := i (Mesh2D.tab Mesh2D.tx k q)
  let y q := i (Mesh2D.tab Mesh2D.ty k q)
  let d := bsub F (bmul F (bsub F (x 0) (x 2)) (bsub F (y 1) (y 2)))
    (bmul F (bsub F (x 1) (x 2)) (bsub F (y 0) (y 2)))
  if q = 0 then bdiv F (bsub F (y 1) (y 2)) d
  else if q = 1 then bdiv F (bneg F (bsub F (y 0) (y 2))) d
  else if q = 2 then bdiv F (bneg F (bsub F (x 1) (x 2))) d
  else bdiv F (bsub F (x 0) (x 2)) d

/-- Operations of the relative bound, with `double fabs(double)` or with the overload of `fabs`
for the element type. -/
def bitsR (F : Fmt) (tr : Pat binary64 → Int) (lg sq : Pat binary64 → Pat binary64) (ov : Bool) :
    ROps (Pat F) (Pat binary64) where
  mulT := bmul F
  negT := bneg F
  keep A B C := keepR (bitsOps F tr lg)
    (if ov then (bitsOps F tr lg).toD (badd F (babs F A) (babs F B))
     else (bitsOps F tr lg).add ((bitsOps F tr lg).abs ((bitsOps F tr lg).toD A))
       ((bitsOps F tr lg).abs ((bitsOps F tr lg).toD B))) A B C
  coef := coefBits F
  sqrt := sq

/-- What is assumed of the library's `sqrt`. -/
def SqrtOk (sq : Pat binary64 → Pat binary64) : Prop :=
  ∀ a x, dec binary64 a = .fin x → 0 ≤ x → dec binary64 (sq a) ≠ .nan

/-- The value of a pattern, 0 if it is not finite. -/
def fval (F : Fmt) (a : Pat F) : ℚ :=
  match dec F a with
  | .fin x => x
  | _ => 0

theorem fval_fin {F : Fmt} {a : Pat F} {x : ℚ} (h : dec F a = .fin x) : fval F a = x := by
  unfold fval; rw [h]

/-- `sz_compress_cp_preserve_2d_online` (src/sz_compress_cp_preserve_2d.cpp L545-714): the run on
bit patterns. -/
def runRel (F : Fmt) (tr : Pat binary64 → Int) (lg sq : Pat binary64 → Pat binary64) (ov : Bool)
    (r1 r2 : Nat) (maxEb : Pat binary64) (m : Online2D.Field (Pat F)) :
    Option (Online2D.Field (Pat F) × Streams (Pat F)) :=
  compress (bitsOps F tr lg) (parBits lg) r1 r2 (relEbT (bitsOps F tr lg))
    (boundRelT (bitsOps F tr lg) (bitsR F tr lg sq ov) r1 r2 maxEb) m

theorem runRel_defined (F : Fmt) (tr lg sq ov) (r1 r2 : Nat) (maxEb : Pat binary64)
    (m : Online2D.Field (Pat F)) : ∃ m' s, runRel F tr lg sq ov r1 r2 maxEb m = some (m', s) := by
  apply Rounded.compress_defined2
  intro f p hp
  obtain ⟨hi, hj, hpe⟩ := flat_split hp
  have := Mesh2D.requiredLoop_defined r1 r2 (minfG (bitsOps F tr lg).toDOps)
    (deriveRelT (bitsOps F tr lg) (bitsR F tr lg sq ov)) f (p / r2) (p % r2)
    [0, 1, 2, 3, 4, 5] (by simp) maxEb hi hj
  rw [hpe] at this
  exact this

section
variable {F : Fmt} {tr : Pat binary64 → Int} {lg sq : Pat binary64 → Pat binary64} {eps : ℚ}

/-- The constants `inv_C` as numbers. -/
def coefN (k q : Nat) : Int :=
  let d := Mesh2D.dj k 0 * Mesh2D.di k 1 - Mesh2D.dj k 1 * Mesh2D.di k 0
  if q = 0 then Mesh2D.di k 1 / d else if q = 1 then -Mesh2D.di k 0 / d
  else if q = 2 then -Mesh2D.dj k 1 / d else Mesh2D.dj k 0 / d

theorem coefN_ok : ∀ k, k < 6 → (∀ q, q < 4 → |coefN k q| ≤ 1) ∧ |coefN k 0 + coefN k 1| ≤ 1 ∧
    |coefN k 2 + coefN k 3| ≤ 1 ∧ ¬ (coefN k 0 + coefN k 1 = 0 ∧ coefN k 2 + coefN k 3 = 0) := by
  decide +kernel

theorem coef32 : ∀ k, k < 6 → ∀ q, q < 4 → dec binary32 (coefBits binary32 k q) =
    .fin (coefN k q) := by decide +kernel

theorem coef64 : ∀ k, k < 6 → ∀ q, q < 4 → dec binary64 (coefBits binary64 k q) =
    .fin (coefN k q) := by decide +kernel

theorem bits_ieeeR (hF : F.Ok) (hp : F.p ≤ binary64.p) (hu : binary64.umin ≤ F.umin)
    (he : F.emax ≤ binary64.emax) (tr : Pat binary64 → Int) (hlg : LogOk lg eps) (hsq : SqrtOk sq)
    (hc : ∀ k, k < 6 → ∀ q, q < 4 → dec F (coefBits F k q) = .fin (coefN k q)) (ov : Bool) :
    IsIeeeR (bitsOps F tr lg) (bitsR F tr lg sq ov) F (dec F) (dec binary64) where
  mulT a b := dec_enc hF _ (val_mul _ _)
  negT a := dec_neg hF a
  keep k A B C h0 hk hA hB hC := by
    have hO := bits_ieee hF hp hu he tr hlg
    obtain ⟨a, ha, ha'⟩ := hA
    obtain ⟨b, hb, hb'⟩ := hB
    cases ov
    · refine keepR_ieee hO hF ok64 hu he h0 hk ha hb ha' hb' hC ?_
      simp only [Bool.false_eq_true, if_false]
      rw [hO.add, hO.abs, hO.abs, hO.toD, hO.toD, ha, hb, abs_fin, abs_fin]; rfl
    · refine keepR_ieee hO hF hF (le_refl _) (le_refl _) h0 hk ha hb ha' hb' hC ?_
      simp only [if_true]
      rw [hO.toD]
      refine (dec_enc hF _ (val_add _ _)).trans ?_
      rw [dec_abs hF, dec_abs hF, ha, hb, abs_fin, abs_fin]; rfl
  coef k hk := by
    obtain ⟨h1, h2, h3, h4⟩ := coefN_ok k hk
    exact ⟨coefN k, fun q hq => ⟨hc k hk q hq, h1 q hq⟩, h2, h3, h4⟩
  sqrt := hsq

theorem withinRel_of_cl {e e' : ℚ} (he : 0 ≤ e) (hee : e' ≤ e) {b : Int} {x c : Pat F}
    (hc : Bd (dec F) b c) (h : Cl (dec F) (e' * |fval F c|) x c) : WithinRel F e x c := by
  rcases h with rfl | ⟨X, C, h1, h2, h3⟩
  · obtain ⟨C, h1, -⟩ := hc
    exact ⟨C, C, h1, h1, by rw [sub_self, abs_zero]; exact mul_nonneg he (abs_nonneg _)⟩
  · rw [fval_fin h2] at h3
    exact ⟨X, C, h1, h2, h3.trans (mul_le_mul_of_nonneg_right hee (abs_nonneg _))⟩

/-- The run, for data of at most `2^r`. -/
theorem runRel_within (hF : F.Ok) (hp : F.p ≤ binary64.p) (hu : binary64.umin ≤ F.umin)
    (he : F.emax ≤ binary64.emax) (hemin : F.emin ≤ -52)
    (hcf : ∀ k, k < 6 → ∀ q, q < 4 → dec F (coefBits F k q) = .fin (coefN k q)) (hlg : LogOk lg eps)
    (hsq : SqrtOk sq) (hlb : dec binary64 (lg (enc binary64 false (.fin 4))) = .fin 2)
    (he0 : 0 ≤ eps) (he1 : eps ≤ p2 (-30)) {r : Int} (h0 : 0 ≤ r) (h1 : 4 * r + 29 ≤ 1023)
    (h2 : 2 * r + 10 ≤ F.emax) {ov : Bool} {r1 r2 : Nat} {maxEb : Pat binary64}
    {e : ℚ} (hm : dec binary64 maxEb = .fin e) (hep : 0 ≤ e) (her : e ≤ 1)
    {m m' : Online2D.Field (Pat F)} {s : Streams (Pat F)}
    (hf : ∀ q, q < r1 * r2 → Size F (p2 r) (m.u q) ∧ Size F (p2 r) (m.v q))
    {e' : ℚ} (hs : slack F eps * (1 + p2 (-53)) ≤ e') (he' : 0 ≤ e')
    (h : runRel F tr lg sq ov r1 r2 maxEb m = some (m', s)) :
    (∀ q, q < r1 * r2 → WithinRel F (e' * e) (m'.u q) (m.u q) ∧
      WithinRel F (e' * e) (m'.v q) (m.v q)) ∧
    (∀ x ∈ s.eb, 0 ≤ x ∧ 2 * x ≤ r + 55) ∧ ∀ x ∈ s.dq, 0 ≤ x ∧ x ≤ 65536 := by
  obtain ⟨hw, hc⟩ := rel2 (P := parBits lg) (bits_ieee hF hp hu he tr hlg)
    (bits_ieeeR hF hp hu he tr hlg hsq hcf ov) hF hemin he0 he1 rfl rfl rfl hlb
    (dec_enc ok64 _ (rep_p2 (by decide) (by decide))) h0 h1 h2 hm hep her
    (val := fval F) (fun c x => fval_fin) hf h
  refine ⟨fun q hq => ?_, hc⟩
  obtain ⟨a, b⟩ := hw q hq
  have h3 := mul_le_mul_of_nonneg_right hs hep
  have e1 : ∀ t : ℚ, slack F eps * ((1 + p2 (-53)) * (e * t)) =
      slack F eps * (1 + p2 (-53)) * e * t := fun t => by ring
  rw [e1] at a b
  have h4 := mul_nonneg he' hep
  exact ⟨withinRel_of_cl h4 h3 (hf q hq).1 a, withinRel_of_cl h4 h3 (hf q hq).2 b⟩

theorem slackRel32 (he1 : eps ≤ p2 (-30)) : slack binary32 eps * (1 + p2 (-53)) ≤ 1 := by
  have e0 : p2 (-30) = 1 / 2 ^ 30 := by rw [p2_eq]; norm_num
  have e1 : p2 (-53) = 1 / 2 ^ 53 := by rw [p2_eq]; norm_num
  have e2 : p2 (-((binary32.p : Int) + 1)) = 1 / 2 ^ 25 := by rw [p2_eq]; norm_num [binary32]
  unfold slack
  rw [e1, e2]
  rw [e0] at he1
  nlinarith

theorem slackRel64 (he1 : eps ≤ p2 (-30)) :
    slack binary64 eps * (1 + p2 (-53)) ≤ 1 + eps + p2 (-52) := by
  have e0 : p2 (-30) = 1 / 2 ^ 30 := by rw [p2_eq]; norm_num
  have e1 : p2 (-53) = 1 / 2 ^ 53 := by rw [p2_eq]; norm_num
  have e3 : p2 (-52) = 1 / 2 ^ 52 := by rw [p2_eq]; norm_num
  have e2 : p2 (-((binary64.p : Int) + 1)) = 1 / 2 ^ 54 := by rw [p2_eq]; norm_num [binary64]
  unfold slack
  rw [e1, e2, e3]
  rw [e0] at he1
  nlinarith

/-- From the run to the bytes. -/
theorem rel_bytes {b : Nat} (cT : Codec (Pat F)) (E1 E2 : Env) (ov : Bool) (r1 r2 : Nat)
    (maxEb : Pat binary64) (m m' : Online2D.Field (Pat F)) (s : Streams (Pat F))
    (hb : b = 2 * 65536) (h : runRel F tr lg sq ov r1 r2 maxEb m = some (m', s))
    (f1 : Fits E1 (2 * 1024) s.eb) (f2 : Fits E2 b s.dq) :
    ∃ bs, compressBytes (bitsOps F tr lg) cT (wordCodec 8) E1 E2 (parBits lg) r1 r2
        (relEbT (bitsOps F tr lg))
        (boundRelT (bitsOps F tr lg) (bitsR F tr lg sq ov) r1 r2 maxEb) m = some (m', bs) ∧
      ∀ rest m0, ∃ d, decompressBytes (bitsOps F tr lg) cT (wordCodec 8) (parBits lg).logBase r1 r2
          m0 (bs ++ rest) = some d ∧ ∀ q, q < r1 * r2 → d.u q = m'.u q ∧ d.v q = m'.v q := by
  subst hb
  exact C13_online_roundtrip (bitsOps F tr lg) cT (wordCodec 8)
    E1 E2 (parBits lg) r1 r2 _ _ m m' s h
    ⟨by change (0 : Int) ≤ 4; decide, by change (4 : Int) < _; decide⟩
    ⟨by change (0 : Int) ≤ 32768; decide, by change (32768 : Int) < _; decide⟩ rfl f1 f2

end

/-- C85, `float`.  Data (finite, at most `2^58`, fewer than `2^59` vertices) and relative bound of
the user (at most 1) are bit patterns; the code computes with IEEE-754 arithmetic, `log2` is accurate to `2^-30` (and exact for
4), `sqrt` of a number is a number or infinite, the conversions to `int` that C++ leaves undefined
give anything, `fabs` is either overload.  If no code word of the data codes is longer than 64
bits, the compressor produces a stream, and whatever the decompressor finds behind it, every component it returns is a number whose relative error is at
most the bound of the user. -/
theorem C85_float (tr : Pat binary64 → Int) (lg sq : Pat binary64 → Pat binary64) (eps : ℚ)
    (hlg : LogOk lg eps) (hsq : SqrtOk sq)
    (hlb : dec binary64 (lg (enc binary64 false (.fin 4))) = .fin 2)
    (he0 : 0 ≤ eps) (he1 : eps ≤ p2 (-30)) (ov : Bool) (E1 E2 : Env) (r1 r2 : Nat)
    (hn : 0 < r1 * r2) (hn2 : r1 * r2 < 2 ^ 59)
    (maxEb : Pat binary64) (e : ℚ) (hm : dec binary64 maxEb = .fin e) (hep : 0 ≤ e)
    (her : e ≤ 1) (m : Online2D.Field (Pat binary32))
    (hf : ∀ q, q < r1 * r2 → Size binary32 (p2 58) (m.u q) ∧ Size binary32 (p2 58) (m.v q)) :
    ∃ m' s, runRel binary32 tr lg sq ov r1 r2 maxEb m = some (m', s) ∧
      (Shallow E2 (2 * 65536) s.dq →
        ∃ bs, compressBytes (bitsOps binary32 tr lg) (wordCodec 4) (wordCodec 8) E1 E2 (parBits lg)
            r1 r2 (relEbT (bitsOps binary32 tr lg))
            (boundRelT (bitsOps binary32 tr lg) (bitsR binary32 tr lg sq ov) r1 r2 maxEb) m =
              some (m', bs) ∧
          ∀ rest m0, ∃ d, decompressBytes (bitsOps binary32 tr lg) (wordCodec 4) (wordCodec 8)
              (parBits lg).logBase r1 r2 m0 (bs ++ rest) = some d ∧
            ∀ q, q < r1 * r2 → WithinRel binary32 e (d.u q) (m.u q) ∧
              WithinRel binary32 e (d.v q) (m.v q)) := by
  obtain ⟨m', s, h⟩ := runRel_defined binary32 tr lg sq ov r1 r2 maxEb m
  obtain ⟨hw, hc1, hc2⟩ := runRel_within ok32 (by decide) (by decide) (by decide) (by decide) coef32
    hlg hsq hlb he0 he1 (r := 58) (by norm_num) (by norm_num) (by decide) hm hep her hf
    (slackRel32 he1) zero_le_one h
  obtain ⟨l1, l2, -⟩ := compress_lengths _ _ _ _ _ _ _ _ _ h
  refine ⟨m', s, h, fun h2 => ?_⟩
  have f1 : Fits E1 (2 * 1024) s.eb := fits_of_low (ne_nil_of_length (by omega)) (by omega)
    (by norm_num) (by norm_num) (fun x hx => by have := hc1 x hx; omega)
  have f2 : Fits E2 (2 * 65536) s.dq := fits_of_range (ne_nil_of_length (by omega)) (by omega)
    (by norm_num) (fun x hx => by have := hc2 x hx; push_cast; omega) h2
  obtain ⟨bs, hbs, hd⟩ := rel_bytes (wordCodec 4) E1 E2 ov r1 r2 maxEb m m' s rfl h f1 f2
  refine ⟨bs, hbs, fun rest m0 => ?_⟩
  obtain ⟨d, hd1, hd2⟩ := hd rest m0
  refine ⟨d, hd1, fun q hq => ?_⟩
  replace hw := hw q hq
  obtain ⟨e1, e2⟩ := hd2 q hq
  rw [e1, e2]
  rwa [one_mul] at hw

/-- C85, `double`: as above for data of at most `2^248`; the relative error may exceed the bound of the user by `eps + 2^-52` of it, `eps` being the accuracy of
`log2`. -/
theorem C85_double (tr : Pat binary64 → Int) (lg sq : Pat binary64 → Pat binary64) (eps : ℚ)
    (hlg : LogOk lg eps) (hsq : SqrtOk sq)
    (hlb : dec binary64 (lg (enc binary64 false (.fin 4))) = .fin 2)
    (he0 : 0 ≤ eps) (he1 : eps ≤ p2 (-30)) (ov : Bool) (E1 E2 : Env) (r1 r2 : Nat)
    (hn : 0 < r1 * r2) (hn2 : r1 * r2 < 2 ^ 59)
    (maxEb : Pat binary64) (e : ℚ) (hm : dec binary64 maxEb = .fin e) (hep : 0 ≤ e)
    (her : e ≤ 1) (m : Online2D.Field (Pat binary64))
    (hf : ∀ q, q < r1 * r2 → Size binary64 (p2 248) (m.u q) ∧ Size binary64 (p2 248) (m.v q)) :
    ∃ m' s, runRel binary64 tr lg sq ov r1 r2 maxEb m = some (m', s) ∧
      (Shallow E1 (2 * 1024) s.eb → Shallow E2 (2 * 65536) s.dq →
        ∃ bs, compressBytes (bitsOps binary64 tr lg) (wordCodec 8) (wordCodec 8) E1 E2 (parBits lg)
            r1 r2 (relEbT (bitsOps binary64 tr lg))
            (boundRelT (bitsOps binary64 tr lg) (bitsR binary64 tr lg sq ov) r1 r2 maxEb) m =
              some (m', bs) ∧
          ∀ rest m0, ∃ d, decompressBytes (bitsOps binary64 tr lg) (wordCodec 8) (wordCodec 8)
              (parBits lg).logBase r1 r2 m0 (bs ++ rest) = some d ∧
            ∀ q, q < r1 * r2 →
              WithinRel binary64 ((1 + eps + p2 (-52)) * e) (d.u q) (m.u q) ∧
              WithinRel binary64 ((1 + eps + p2 (-52)) * e) (d.v q) (m.v q)) := by
  obtain ⟨m', s, h⟩ := runRel_defined binary64 tr lg sq ov r1 r2 maxEb m
  have h52 := p2_pos (-52)
  obtain ⟨hw, hc1, hc2⟩ := runRel_within ok64 (by decide) (by decide) (by decide) (by decide) coef64
    hlg hsq hlb he0 he1 (r := 248) (by norm_num) (by norm_num) (by decide) hm hep her hf
    (slackRel64 he1) (by linarith) h
  obtain ⟨l1, l2, -⟩ := compress_lengths _ _ _ _ _ _ _ _ _ h
  refine ⟨m', s, h, fun h1 h2 => ?_⟩
  have f1 : Fits E1 (2 * 1024) s.eb := fits_of_range (ne_nil_of_length (by omega)) (by omega)
    (by norm_num) (fun x hx => by have := hc1 x hx; push_cast; omega) h1
  have f2 : Fits E2 (2 * 65536) s.dq := fits_of_range (ne_nil_of_length (by omega)) (by omega)
    (by norm_num) (fun x hx => by have := hc2 x hx; push_cast; omega) h2
  obtain ⟨bs, hbs, hd⟩ := rel_bytes (wordCodec 8) E1 E2 ov r1 r2 maxEb m m' s rfl h f1 f2
  refine ⟨bs, hbs, fun rest m0 => ?_⟩
  obtain ⟨d, hd1, hd2⟩ := hd rest m0
  refine ⟨d, hd1, fun q hq => ?_⟩
  replace hw := hw q hq
  obtain ⟨e1, e2⟩ := hd2 q hq
  rw [e1, e2]
  exact hw

/-! ### Examples and witness -/

/-- Newton's iteration for the integer square root. -/
def newton : Nat → Nat → Nat → Nat
  | 0, _, g => g
  | f + 1, n, g => let h := (g + n / g) / 2; if h < g then newton f n h else g

/-- A square root. -/
def bsqrt (a : Pat binary64) : Pat binary64 :=
  match dec binary64 a with
  | .fin x =>
    let n := x.num.natAbs * x.den * 2 ^ 120
    enc binary64 (sgn binary64 a) (round binary64
      ((newton 40 n (2 ^ (Nat.log2 n / 2 + 1)) : Nat) / ((x.den : ℚ) * 2 ^ 60)))
  | v => enc binary64 false v

theorem bsqrt_ok : SqrtOk bsqrt := by
  intro a x hx _
  unfold bsqrt
  rw [hx]
  simp only
  rw [dec_enc ok64 _ (val_round _)]
  exact round_not_nan _

theorem mild_seen_rel (ov : Bool) :
    seen (runRel binary32 (fun _ => 0) floorLog2 bsqrt ov 2 2 eb100 mild) =
    some (0, [26, 26, 25, 26, 26, 26, 26, 25],
      [32818, 32818, 32749, 32768, 32773, 32778, 32768, 32709], [100, 181 / 2, 110, 201 / 2]) := by
  cases ov <;> decide +kernel

theorem fill_seen_rel (ov : Bool) :
    seen (runRel binary32 (fun _ => 0) floorLog2 bsqrt ov 2 2 eb100 withFill) =
    some (6, [30, 30, 0, 0, 0, 0, 0, 0],
      [32770, 32770, 32768, 32768, 32768, 32768, 32768, 32768],
      [1024, 900, 15 * 2 ^ 119, 1000]) := by
  cases ov <;> decide +kernel

/-- The hypotheses of `C85_float` are met by `mild` with the relative bound 1/100: the run codes
every vertex (nothing is stored verbatim), the entropy coder can represent the indices, and the
bytes decode to numbers within the bound. -/
example (ov : Bool) (E1 E2 : Env) : ∃ m' s bs,
    runRel binary32 (fun _ => 0) floorLog2 bsqrt ov 2 2 eb100 mild = some (m', s) ∧ s.un = [] ∧
    num binary32 (m'.u 0) ≠ num binary32 (mild.u 0) ∧
    compressBytes (bitsOps binary32 (fun _ => 0) floorLog2) (wordCodec 4) (wordCodec 8) E1 E2
      (parBits floorLog2) 2 2 (relEbT (bitsOps binary32 (fun _ => 0) floorLog2))
      (boundRelT (bitsOps binary32 (fun _ => 0) floorLog2)
        (bitsR binary32 (fun _ => 0) floorLog2 bsqrt ov) 2 2 eb100) mild = some (m', bs) ∧
    ∀ m0, ∃ d, decompressBytes (bitsOps binary32 (fun _ => 0) floorLog2) (wordCodec 4)
        (wordCodec 8) (parBits floorLog2).logBase 2 2 m0 bs = some d ∧
      ∀ q, q < 4 → WithinRel binary32 (num binary64 eb100) (d.u q) (mild.u q) := by
  have hm : dec binary64 eb100 = .fin (num binary64 eb100) := by decide +kernel
  obtain ⟨m', s, h, hc⟩ := C85_float (fun _ => 0) floorLog2 bsqrt 0 (floorLog2_ok (le_refl 0))
    bsqrt_ok floorLog2_four (le_refl 0) (p2_pos _).le ov E1 E2 2 2 (by norm_num)
    (by norm_num) eb100 _ hm (by decide +kernel)
    (by decide +kernel) mild (by
      intro q hq
      have : ∀ q ∈ [0, 1, 2, 3], sizeB binary32 (p2 58) (mild.u q) = true ∧
        sizeB binary32 (p2 58) (mild.v q) = true := by decide +kernel
      obtain ⟨a, b⟩ := this q (by simp; omega)
      exact ⟨size_of a, size_of b⟩)
  obtain ⟨f, t, h1, h2, h3, h4, h5⟩ := seen_some (mild_seen_rel ov)
  rw [h1] at h
  simp only [Option.some.injEq, Prod.mk.injEq] at h
  obtain ⟨rfl, rfl⟩ := h
  obtain ⟨bs, b1, b2⟩ := hc
    (shallow_of_short (by rw [h4]; simp) (by rw [h4]; simp) (by norm_num) (by rw [h4]; simp))
  refine ⟨f, t, bs, h1, List.length_eq_zero_iff.1 h2, ?_, b1, fun m0 => ?_⟩
  · have e : num binary32 (f.u 0) = 100 := by
      simp only [List.map_cons, List.cons.injEq] at h5
      exact h5.1
    rw [e]
    decide +kernel
  · obtain ⟨d, d1, d2⟩ := b2 [] m0
    rw [List.append_nil] at d1
    exact ⟨d, d1, fun q hq => (d2 q hq).1⟩

/-- The hypotheses of `C85_double` are met by the same numbers. -/
example (ov : Bool) (E1 E2 : Env) : ∃ m' s,
    runRel binary64 (fun _ => 0) floorLog2 bsqrt ov 2 2 eb100
      ⟨fun q => enc binary64 false (dec binary32 (mild.u q)),
       fun q => enc binary64 false (dec binary32 (mild.v q))⟩ = some (m', s) := by
  have hm : dec binary64 eb100 = .fin (num binary64 eb100) := by decide +kernel
  obtain ⟨m', s, h, -⟩ := C85_double (fun _ => 0) floorLog2 bsqrt 0 (floorLog2_ok (le_refl 0))
    bsqrt_ok floorLog2_four (le_refl 0) (p2_pos _).le ov E1 E2 2 2 (by norm_num)
    (by norm_num) eb100 _ hm (by decide +kernel)
    (by decide +kernel) ⟨fun q => enc binary64 false (dec binary32 (mild.u q)),
       fun q => enc binary64 false (dec binary32 (mild.v q))⟩ (by
      intro q hq
      have : ∀ q ∈ [0, 1, 2, 3],
        sizeB binary64 (p2 248) (enc binary64 false (dec binary32 (mild.u q))) = true ∧
        sizeB binary64 (p2 248) (enc binary64 false (dec binary32 (mild.v q))) = true := by
          decide +kernel
      obtain ⟨a, b⟩ := this q (by simp; omega)
      exact ⟨size_of a, size_of b⟩)
  exact ⟨m', s, h⟩

/-- C85 without a limit on the size of the data is false: all values are finite, the relative bound
is 1/100, and a vertex with the value 1000 comes back from the bytes as 1024.  The products with
the fill value overflow, the bound of that triangle is NaN, and `MINF(NaN, b)` is `b`. -/
theorem C85_fill_value_breaks_bound (ov : Bool) (E1 E2 : Env) :
    (∀ q, q < 4 → (∃ x, dec binary32 (withFill.u q) = .fin x) ∧
      ∃ x, dec binary32 (withFill.v q) = .fin x) ∧
    (∃ e, dec binary64 eb100 = .fin e ∧ 0 < e ∧ e ≤ 11 / 1000) ∧
    dec binary32 (withFill.u 0) = .fin 1000 ∧
    ∃ m' bs, compressBytes (bitsOps binary32 (fun _ => 0) floorLog2) (wordCodec 4) (wordCodec 8)
        E1 E2 (parBits floorLog2) 2 2 (relEbT (bitsOps binary32 (fun _ => 0) floorLog2))
        (boundRelT (bitsOps binary32 (fun _ => 0) floorLog2)
          (bitsR binary32 (fun _ => 0) floorLog2 bsqrt ov) 2 2 eb100) withFill = some (m', bs) ∧
      ∀ m0, ∃ d, decompressBytes (bitsOps binary32 (fun _ => 0) floorLog2) (wordCodec 4)
          (wordCodec 8) (parBits floorLog2).logBase 2 2 m0 bs = some d ∧
        dec binary32 (d.u 0) = .fin 1024 := by
  refine ⟨?_, ⟨num binary64 eb100, by decide +kernel, by decide +kernel, by decide +kernel⟩,
    by decide +kernel, ?_⟩
  · intro q hq
    have : ∀ q ∈ [0, 1, 2, 3], sizeB binary32 (p2 127) (withFill.u q) = true ∧
        sizeB binary32 (p2 127) (withFill.v q) = true := by decide +kernel
    obtain ⟨a, b⟩ := this q (by simp; omega)
    obtain ⟨x, hx, -⟩ := size_of a
    obtain ⟨y, hy, -⟩ := size_of b
    exact ⟨⟨x, hx⟩, ⟨y, hy⟩⟩
  · obtain ⟨f, t, h1, h2, h3, h4, h5⟩ := seen_some (fill_seen_rel ov)
    have f1 : Fits E1 (2 * 1024) t.eb :=
      fits_of_short _ _ _ (by rw [h3]; simp) (by rw [h3]; simp) (by norm_num) (by rw [h3]; simp)
    have f2 : Fits E2 (2 * 65536) t.dq :=
      fits_of_short _ _ _ (by rw [h4]; simp) (by rw [h4]; simp) (by norm_num) (by rw [h4]; simp)
    obtain ⟨bs, hbs, hd⟩ := rel_bytes (wordCodec 4) E1 E2 ov 2 2 eb100 withFill f t rfl h1 f1 f2
    refine ⟨f, bs, hbs, fun m0 => ?_⟩
    obtain ⟨d, d1, d2⟩ := hd [] m0
    rw [List.append_nil] at d1
    refine ⟨d, d1, ?_⟩
    rw [(d2 0 (by norm_num)).1]
    have e : num binary32 (f.u 0) = 1024 := by
      simp only [List.map_cons, List.cons.injEq] at h5
      exact h5.1
    unfold num at e
    split at e
    · rename_i x hx; rw [hx, e]
    · norm_num at e

end CpSZ.Ieee
