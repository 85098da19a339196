import Verif.Ieee.Bits
import Verif.RoundedRun
import Verif.Props.Online2D
/-
Property C83: the user's absolute bound in IEEE-754 arithmetic, from bytes to bytes.
-/

namespace CpSZ.Ieee
open CpSZ.Online2D

/-- The two bit patterns stand for numbers at most `e` apart. -/
def Within (F : Fmt) (e : ℚ) (x c : Pat F) : Prop :=
  ∃ X C, dec F x = .fin X ∧ dec F c = .fin C ∧ |X - C| ≤ e

/-- The bit pattern stands for a number of magnitude at most `e`. -/
def Size (F : Fmt) (e : ℚ) (x : Pat F) : Prop := ∃ X, dec F x = .fin X ∧ |X| ≤ e

/-- Parameters of the 2D absolute mode (src/sz_compress_cp_preserve_2d.cpp L1002-1005, L1046);
`log_of_base` is `log2(4)`. -/
def parBits (lg : Pat binary64 → Pat binary64) : Par (Pat binary64) where
  base := 4
  logBase := lg (enc binary64 false (.fin 4))
  thr := enc binary64 false (.fin (p2 (-52)))
  capacity := 65536
  radius := 32768

/-- `sz_compress_cp_preserve_2d_online_abs`: the run on bit patterns. -/
def runAbs (F : Fmt) (tr : Pat binary64 → Int) (lg : Pat binary64 → Pat binary64) (ov : Bool)
    (r1 r2 : Nat) (maxEb : Pat binary64) (m : Online2D.Field (Pat F)) :
    Option (Online2D.Field (Pat F) × Streams (Pat F)) :=
  compress (bitsOps F tr lg) (parBits lg) r1 r2 (fun a _ => a)
    (boundAbsT (bitsOps F tr lg) (bitsE F tr lg ov) r1 r2 maxEb) m

theorem runAbs_defined (F : Fmt) (tr lg ov) (r1 r2 : Nat) (maxEb : Pat binary64)
    (m : Online2D.Field (Pat F)) : ∃ m' s, runAbs F tr lg ov r1 r2 maxEb m = some (m', s) := by
  apply Rounded.compress_defined2
  intro f p hp
  obtain ⟨hi, hj, hpe⟩ := flat_split hp
  unfold boundAbsT
  split
  · rfl
  · have := Mesh2D.requiredLoop_defined r1 r2 (minfG (bitsOps F tr lg).toDOps)
      (fun _ => deriveAbsT (bitsOps F tr lg) (bitsE F tr lg ov)) f (p / r2) (p % r2)
      [0, 1, 2, 3, 4, 5] (by simp) maxEb hi hj
    rw [hpe] at this
    exact this

/-- No code word of the entropy coder is longer than the 64 bits that the code has room for (C03:
this can fail, for more than 65 different codes). -/
def Shallow (E : Env) (stateNum : Nat) (l : List Int) : Prop :=
  ∀ t, Huff.buildTree E.swap stateNum (l.map Int.toNat) = some t → t.depth ≤ 64

theorem shallow_of_short {E : Env} {stateNum : Nat} {l : List Int} (h1 : l ≠ [])
    (h2 : l.length ≤ 65) (h3 : stateNum ≤ 2 ^ 26) (h4 : ∀ x ∈ l, 0 ≤ x ∧ x < stateNum) :
    Shallow E stateNum l := (fits_of_short E stateNum l h1 h2 h3 h4).2.2.2.2

/-- Codes in the table. -/
theorem fits_of_range {E : Env} {stateNum : Nat} {l : List Int} (h1 : l ≠ [])
    (h2 : l.length < 2 ^ 60) (h3 : stateNum ≤ 2 ^ 26) (h4 : ∀ x ∈ l, 0 ≤ x ∧ x < stateNum)
    (h5 : Shallow E stateNum l) : Fits E stateNum l := ⟨h1, h2, h3, h4, h5⟩

/-- Codes below 65. -/
theorem fits_of_low {E : Env} {stateNum : Nat} {l : List Int} (h1 : l ≠ [])
    (h2 : l.length < 2 ^ 60) (h3 : stateNum ≤ 2 ^ 26) (h4 : 65 ≤ stateNum)
    (h5 : ∀ x ∈ l, 0 ≤ x ∧ x < 65) : Fits E stateNum l := by
  refine fits_of_few E stateNum l ((List.range 65).map Int.ofNat) h1 h2 h3 (fun x hx => ?_)
    (by simp) (fun x hx => ?_)
  · have := h5 x hx
    omega
  · have := h5 x hx
    exact List.mem_map.2 ⟨x.toNat, List.mem_range.2 (by omega), by simp; omega⟩

theorem ne_nil_of_length {α : Type} {l : List α} (h : 0 < l.length) : l ≠ [] := by
  rintro rfl; simp at h

section
variable {F : Fmt} {tr : Pat binary64 → Int} {lg : Pat binary64 → Pat binary64} {eps : ℚ}

theorem within_of_cl {e : ℚ} (he : 0 ≤ e) {b : Int} {x c : Pat F} (hc : Bd (dec F) b c)
    (h : Cl (dec F) e x c) : Within F e x c := by
  rcases h with rfl | h
  · obtain ⟨C, h1, -⟩ := hc
    exact ⟨C, C, h1, h1, by simpa using he⟩
  · exact h

theorem slack_nonneg (F : Fmt) {eps : ℚ} (he0 : 0 ≤ eps) : 0 ≤ slack F eps := by
  have h1 : p2 (-((F.p : Int) + 1)) ≤ p2 0 := p2_le (by omega)
  rw [p2_zero] at h1
  have h5 := p2_pos (-53)
  exact mul_nonneg (by linarith) (mul_nonneg (by linarith) (by linarith))

/-- The run, for data and bound of at most `2^r`: values and codes. -/
theorem runAbs_within (hF : F.Ok) (hp : F.p ≤ binary64.p) (hu : binary64.umin ≤ F.umin)
    (he : F.emax ≤ binary64.emax) (hemin : F.emin ≤ -52) (hlg : LogOk lg eps)
    (hlb : dec binary64 (lg (enc binary64 false (.fin 4))) = .fin 2) (he0 : 0 ≤ eps)
    (he1 : eps ≤ p2 (-30)) {r : Int} (h0 : 0 ≤ r) (h1 : r ≤ 400) (h2 : r + r + 7 ≤ F.emax)
    {ov : Bool} {r1 r2 : Nat} {maxEb : Pat binary64} {e : ℚ} (hm : dec binary64 maxEb = .fin e)
    (hep : 0 ≤ e) (her : e ≤ p2 r) {m m' : Online2D.Field (Pat F)} {s : Streams (Pat F)}
    (hf : ∀ q, q < r1 * r2 → Size F (p2 r) (m.u q) ∧ Size F (p2 r) (m.v q))
    (h : runAbs F tr lg ov r1 r2 maxEb m = some (m', s)) :
    (∀ q, q < r1 * r2 → Within F (slack F eps * e) (m'.u q) (m.u q) ∧
      Within F (slack F eps * e) (m'.v q) (m.v q)) ∧
    (∀ x ∈ s.eb, 0 ≤ x ∧ 2 * x ≤ r + 54) ∧ ∀ x ∈ s.dq, 0 ≤ x ∧ x ≤ 65536 := by
  have hs := mul_nonneg (slack_nonneg F he0) hep
  obtain ⟨hw, hc⟩ := abs2 (P := parBits lg) (bits_ieee hF hp hu he tr hlg)
    (bits_ieeeE hF hp hu he tr hlg ov) hF hp hu
    he hemin he0 he1 rfl rfl rfl hlb (dec_enc ok64 _ (rep_p2 (by decide) (by decide))) h0 h1 h2 hm hep
    her hf h
  exact ⟨fun q hq => ⟨within_of_cl hs (hf q hq).1 (hw q hq).1,
    within_of_cl hs (hf q hq).2 (hw q hq).2⟩, hc⟩

end

theorem Within.mono {F : Fmt} {e e' : ℚ} (h : e ≤ e') {x c : Pat F} (hx : Within F e x c) :
    Within F e' x c := by
  obtain ⟨X, C, h1, h2, h3⟩ := hx
  exact ⟨X, C, h1, h2, h3.trans h⟩

/-- C83, `float`.  Data (finite, at most `2^60`, fewer than `2^59` vertices) and bound of the user
are bit patterns; the code computes with IEEE-754 arithmetic, `log2` is accurate to `2^-30` (and
exact for 4), the conversions to `int` that C++ leaves undefined give anything, `fabs` is either
overload.  If no code word of the data codes is longer than 64 bits, the compressor produces a
stream, and whatever the decompressor finds behind it, every component it returns is a number
within the bound of the user. -/
theorem C83_float (tr : Pat binary64 → Int) (lg : Pat binary64 → Pat binary64) (eps : ℚ)
    (hlg : LogOk lg eps) (hlb : dec binary64 (lg (enc binary64 false (.fin 4))) = .fin 2)
    (he0 : 0 ≤ eps) (he1 : eps ≤ p2 (-30)) (ov : Bool) (E1 E2 : Env) (r1 r2 : Nat)
    (hn : 0 < r1 * r2) (hn2 : r1 * r2 < 2 ^ 59)
    (maxEb : Pat binary64) (e : ℚ) (hm : dec binary64 maxEb = .fin e) (hep : 0 ≤ e)
    (her : e ≤ p2 60) (m : Online2D.Field (Pat binary32))
    (hf : ∀ q, q < r1 * r2 → Size binary32 (p2 60) (m.u q) ∧ Size binary32 (p2 60) (m.v q)) :
    ∃ m' s, runAbs binary32 tr lg ov r1 r2 maxEb m = some (m', s) ∧
      (Shallow E2 (2 * 65536) s.dq →
        ∃ bs, compressBytes (bitsOps binary32 tr lg) (wordCodec 4) (wordCodec 8) E1 E2 (parBits lg)
            r1 r2 (fun a _ => a)
            (boundAbsT (bitsOps binary32 tr lg) (bitsE binary32 tr lg ov) r1 r2 maxEb) m =
              some (m', bs) ∧
          ∀ rest m0, ∃ d, decompressBytes (bitsOps binary32 tr lg) (wordCodec 4) (wordCodec 8)
              (parBits lg).logBase r1 r2 m0 (bs ++ rest) = some d ∧
            ∀ q, q < r1 * r2 → Within binary32 e (d.u q) (m.u q) ∧
              Within binary32 e (d.v q) (m.v q)) := by
  obtain ⟨m', s, h⟩ := runAbs_defined binary32 tr lg ov r1 r2 maxEb m
  obtain ⟨hw, hc1, hc2⟩ := runAbs_within ok32 (by decide) (by decide) (by decide) (by decide) hlg hlb
    he0 he1 (r := 60) (by norm_num) (by norm_num) (by decide) hm hep her hf h
  obtain ⟨l1, l2, -⟩ := compress_lengths _ _ _ _ _ _ _ _ _ h
  refine ⟨m', s, h, fun h2 => ?_⟩
  have f1 : Fits E1 (2 * 1024) s.eb := fits_of_low (ne_nil_of_length (by omega)) (by omega)
    (by norm_num) (by norm_num) (fun x hx => by have := hc1 x hx; omega)
  have f2 : Fits E2 (2 * 65536) s.dq := fits_of_range (ne_nil_of_length (by omega)) (by omega)
    (by norm_num) (fun x hx => by have := hc2 x hx; push_cast; omega) h2
  obtain ⟨bs, hbs, hd⟩ := C13_online_roundtrip (bitsOps binary32 tr lg) (wordCodec 4) (wordCodec 8)
    E1 E2 (parBits lg) r1 r2 (fun a _ => a) _ m m' s h ⟨by change (0 : Int) ≤ 4; decide, by change (4 : Int) < _; decide⟩
    ⟨by change (0 : Int) ≤ 32768; decide, by change (32768 : Int) < _; decide⟩ rfl f1 f2
  refine ⟨bs, hbs, fun rest m0 => ?_⟩
  obtain ⟨d, hd1, hd2⟩ := hd rest m0
  refine ⟨d, hd1, fun q hq => ?_⟩
  replace hw := hw q hq
  have hs : slack binary32 eps * e ≤ e := by
    have := mul_le_mul_of_nonneg_right (slack32 he1).le hep
    linarith
  obtain ⟨e1, e2⟩ := hd2 q hq
  rw [e1, e2]
  exact ⟨hw.1.mono hs, hw.2.mono hs⟩

/-- C83, `double`: as above for data of at most `2^400`; the distance may exceed the bound of the
user by `eps + 2^-53` of it, `eps` being the accuracy of `log2`. -/
theorem C83_double (tr : Pat binary64 → Int) (lg : Pat binary64 → Pat binary64) (eps : ℚ)
    (hlg : LogOk lg eps) (hlb : dec binary64 (lg (enc binary64 false (.fin 4))) = .fin 2)
    (he0 : 0 ≤ eps) (he1 : eps ≤ p2 (-30)) (ov : Bool) (E1 E2 : Env) (r1 r2 : Nat)
    (hn : 0 < r1 * r2) (hn2 : r1 * r2 < 2 ^ 59)
    (maxEb : Pat binary64) (e : ℚ) (hm : dec binary64 maxEb = .fin e) (hep : 0 ≤ e)
    (her : e ≤ p2 400) (m : Online2D.Field (Pat binary64))
    (hf : ∀ q, q < r1 * r2 → Size binary64 (p2 400) (m.u q) ∧ Size binary64 (p2 400) (m.v q)) :
    ∃ m' s, runAbs binary64 tr lg ov r1 r2 maxEb m = some (m', s) ∧
      (Shallow E1 (2 * 1024) s.eb → Shallow E2 (2 * 65536) s.dq →
        ∃ bs, compressBytes (bitsOps binary64 tr lg) (wordCodec 8) (wordCodec 8) E1 E2 (parBits lg)
            r1 r2 (fun a _ => a)
            (boundAbsT (bitsOps binary64 tr lg) (bitsE binary64 tr lg ov) r1 r2 maxEb) m =
              some (m', bs) ∧
          ∀ rest m0, ∃ d, decompressBytes (bitsOps binary64 tr lg) (wordCodec 8) (wordCodec 8)
              (parBits lg).logBase r1 r2 m0 (bs ++ rest) = some d ∧
            ∀ q, q < r1 * r2 →
              Within binary64 ((1 + eps + p2 (-53)) * e) (d.u q) (m.u q) ∧
              Within binary64 ((1 + eps + p2 (-53)) * e) (d.v q) (m.v q)) := by
  obtain ⟨m', s, h⟩ := runAbs_defined binary64 tr lg ov r1 r2 maxEb m
  obtain ⟨hw, hc1, hc2⟩ := runAbs_within ok64 (by decide) (by decide) (by decide) (by decide) hlg hlb
    he0 he1 (r := 400) (by norm_num) (by norm_num) (by decide) hm hep her hf h
  obtain ⟨l1, l2, -⟩ := compress_lengths _ _ _ _ _ _ _ _ _ h
  refine ⟨m', s, h, fun h1 h2 => ?_⟩
  have f1 : Fits E1 (2 * 1024) s.eb := fits_of_range (ne_nil_of_length (by omega)) (by omega)
    (by norm_num) (fun x hx => by have := hc1 x hx; push_cast; omega) h1
  have f2 : Fits E2 (2 * 65536) s.dq := fits_of_range (ne_nil_of_length (by omega)) (by omega)
    (by norm_num) (fun x hx => by have := hc2 x hx; push_cast; omega) h2
  obtain ⟨bs, hbs, hd⟩ := C13_online_roundtrip (bitsOps binary64 tr lg) (wordCodec 8) (wordCodec 8)
    E1 E2 (parBits lg) r1 r2 (fun a _ => a) _ m m' s h ⟨by change (0 : Int) ≤ 4; decide, by change (4 : Int) < _; decide⟩
    ⟨by change (0 : Int) ≤ 32768; decide, by change (32768 : Int) < _; decide⟩ rfl f1 f2
  refine ⟨bs, hbs, fun rest m0 => ?_⟩
  obtain ⟨d, hd1, hd2⟩ := hd rest m0
  refine ⟨d, hd1, fun q hq => ?_⟩
  replace hw := hw q hq
  have hs := mul_le_mul_of_nonneg_right (slack64 he1).le hep
  obtain ⟨e1, e2⟩ := hd2 q hq
  rw [e1, e2]
  exact ⟨hw.1.mono hs, hw.2.mono hs⟩

/-! ### Examples and witness -/

/-- The nearest `float`. -/
def f32 (x : ℚ) : Pat binary32 := enc binary32 false (round binary32 x)

/-- The nearest `double` to 1/100. -/
def eb100 : Pat binary64 := enc binary64 false (round binary64 (1 / 100))

/-- Four vertices of one quadrant. -/
def mild : Online2D.Field (Pat binary32) :=
  ⟨fun q => [f32 (1001 / 10), f32 (903 / 10), f32 (1107 / 10), f32 (1009 / 10)].getD q 0,
   fun q => [f32 (1002 / 10), f32 (1004 / 10), f32 (1205 / 10), f32 (906 / 10)].getD q 0⟩

theorem floorLog2_four : dec binary64 (floorLog2 (enc binary64 false (.fin 4))) = .fin 2 := by
  decide +kernel

/-- The value for missing data of netCDF, `9.9692099683868690e+36f`. -/
def fill32 : Pat binary32 := 0x7CF00000#32

/-- Four vertices, with a missing value below the first one. -/
def withFill : Online2D.Field (Pat binary32) :=
  ⟨fun q => [f32 1000, f32 900, fill32, f32 1000].getD q 0,
   fun q => [f32 1000, f32 1000, fill32, f32 900].getD q 0⟩

/-- The value of a pattern; `-1` if it is not finite. -/
def num (F : Fmt) (a : Pat F) : ℚ :=
  match dec F a with
  | .fin x => x
  | _ => -1

/-- Whether a pattern stands for a number of magnitude at most `e`. -/
def sizeB (F : Fmt) (e : ℚ) (a : Pat F) : Bool :=
  match dec F a with
  | .fin x => decide (|x| ≤ e)
  | _ => false

theorem size_of {F : Fmt} {e : ℚ} {a : Pat F} (h : sizeB F e a = true) : Size F e a := by
  unfold sizeB at h
  split at h
  · rename_i x hx; exact ⟨x, hx, by simpa using h⟩
  · cases h

/-- What can be observed of a run on 2×2 vertices: number of values stored verbatim, indices,
reconstruction of `U`. -/
def seen (r : Option (Online2D.Field (Pat binary32) × Streams (Pat binary32))) :
    Option (Nat × List Int × List Int × List ℚ) :=
  r.map fun (f, s) => (s.un.length, s.eb, s.dq, [0, 1, 2, 3].map fun q => num binary32 (f.u q))

theorem seen_some {r : Option (Online2D.Field (Pat binary32) × Streams (Pat binary32))}
    {k a b l} (h : seen r = some (k, a, b, l)) :
    ∃ f s, r = some (f, s) ∧ s.un.length = k ∧ s.eb = a ∧ s.dq = b ∧
      ([0, 1, 2, 3].map fun q => num binary32 (f.u q)) = l := by
  unfold seen at h
  obtain ⟨⟨f, s⟩, hr, h1⟩ := Option.map_eq_some_iff.1 h
  simp only [Prod.mk.injEq] at h1
  exact ⟨f, s, hr, h1.1, h1.2.1, h1.2.2.1, h1.2.2.2⟩

theorem mild_seen (ov : Bool) : seen (runAbs binary32 (fun _ => 0) floorLog2 ov 2 2 eb100 mild) =
    some (0, [22, 22, 22, 22, 22, 22, 22, 22],
      [45581, 45594, 31513, 32793, 34125, 35366, 32768, 28916],
      [12813 / 128, 5779 / 64, 7085 / 64, 12915 / 128]) := by
  cases ov <;> decide +kernel

theorem fill_seen (ov : Bool) :
    seen (runAbs binary32 (fun _ => 0) floorLog2 ov 2 2 eb100 withFill) =
    some (4, [30, 30, 22, 22, 0, 0, 0, 0],
      [32770, 32770, 16896, 29696, 32768, 32768, 32768, 32768],
      [1024, 900, 15 * 2 ^ 119, 1000]) := by
  cases ov <;> decide +kernel

/-- The hypotheses of `C83_float` are met by `mild` with the bound 1/100: the run codes every
vertex (nothing is stored verbatim), the entropy coder can represent the indices, and the bytes
decode to numbers within the bound. -/
example (ov : Bool) (E1 E2 : Env) : ∃ m' s bs,
    runAbs binary32 (fun _ => 0) floorLog2 ov 2 2 eb100 mild = some (m', s) ∧ s.un = [] ∧
    num binary32 (m'.u 0) ≠ num binary32 (mild.u 0) ∧
    compressBytes (bitsOps binary32 (fun _ => 0) floorLog2) (wordCodec 4) (wordCodec 8) E1 E2
      (parBits floorLog2) 2 2 (fun a _ => a) (boundAbsT (bitsOps binary32 (fun _ => 0) floorLog2)
        (bitsE binary32 (fun _ => 0) floorLog2 ov) 2 2 eb100) mild = some (m', bs) ∧
    ∀ m0, ∃ d, decompressBytes (bitsOps binary32 (fun _ => 0) floorLog2) (wordCodec 4)
        (wordCodec 8) (parBits floorLog2).logBase 2 2 m0 bs = some d ∧
      ∀ q, q < 4 → Within binary32 (num binary64 eb100) (d.u q) (mild.u q) := by
  have hm : dec binary64 eb100 = .fin (num binary64 eb100) := by decide +kernel
  obtain ⟨m', s, h, hc⟩ := C83_float (fun _ => 0) floorLog2 0 (floorLog2_ok (le_refl 0))
    floorLog2_four (le_refl 0) (p2_pos _).le ov E1 E2 2 2 (by norm_num) (by norm_num) eb100 _ hm (by decide +kernel)
    (by decide +kernel) mild (by
      intro q hq
      have : ∀ q ∈ [0, 1, 2, 3], sizeB binary32 (p2 60) (mild.u q) = true ∧
        sizeB binary32 (p2 60) (mild.v q) = true := by decide +kernel
      obtain ⟨a, b⟩ := this q (by simp; omega)
      exact ⟨size_of a, size_of b⟩)
  obtain ⟨f, t, h1, h2, h3, h4, h5⟩ := seen_some (mild_seen ov)
  rw [h1] at h
  simp only [Option.some.injEq, Prod.mk.injEq] at h
  obtain ⟨rfl, rfl⟩ := h
  obtain ⟨bs, b1, b2⟩ := hc
    (shallow_of_short (by rw [h4]; simp) (by rw [h4]; simp) (by norm_num) (by rw [h4]; simp))
  refine ⟨f, t, bs, h1, List.length_eq_zero_iff.1 h2, ?_, b1, fun m0 => ?_⟩
  · have e : num binary32 (f.u 0) = 12813 / 128 := by
      simp only [List.map_cons, List.cons.injEq] at h5
      exact h5.1
    rw [e]
    decide +kernel
  · obtain ⟨d, d1, d2⟩ := b2 [] m0
    rw [List.append_nil] at d1
    exact ⟨d, d1, fun q hq => (d2 q hq).1⟩

/-- The hypotheses of `C83_double` are met by the same numbers. -/
example (ov : Bool) (E1 E2 : Env) : ∃ m' s,
    runAbs binary64 (fun _ => 0) floorLog2 ov 2 2 eb100
      ⟨fun q => enc binary64 false (dec binary32 (mild.u q)),
       fun q => enc binary64 false (dec binary32 (mild.v q))⟩ = some (m', s) := by
  have hm : dec binary64 eb100 = .fin (num binary64 eb100) := by decide +kernel
  obtain ⟨m', s, h, -⟩ := C83_double (fun _ => 0) floorLog2 0 (floorLog2_ok (le_refl 0))
    floorLog2_four (le_refl 0) (p2_pos _).le ov E1 E2 2 2 (by norm_num) (by norm_num) eb100 _ hm (by decide +kernel)
    (by decide +kernel) ⟨fun q => enc binary64 false (dec binary32 (mild.u q)),
       fun q => enc binary64 false (dec binary32 (mild.v q))⟩ (by
      intro q hq
      have : ∀ q ∈ [0, 1, 2, 3],
        sizeB binary64 (p2 400) (enc binary64 false (dec binary32 (mild.u q))) = true ∧
        sizeB binary64 (p2 400) (enc binary64 false (dec binary32 (mild.v q))) = true := by
          decide +kernel
      obtain ⟨a, b⟩ := this q (by simp; omega)
      exact ⟨size_of a, size_of b⟩)
  exact ⟨m', s, h⟩

/-- C83 without a limit on the size of the data is false: all values are finite, the bound is
1/100, and a vertex with the value 1000 comes back from the bytes as 1024.  The products with the
fill value overflow, the bound of that triangle is NaN, and `MINF(NaN, b)` is `b`: the bound of
the user is forgotten. -/
theorem C83_fill_value_breaks_bound (ov : Bool) (E1 E2 : Env) :
    (∀ q, q < 4 → (∃ x, dec binary32 (withFill.u q) = .fin x) ∧
      ∃ x, dec binary32 (withFill.v q) = .fin x) ∧
    (∃ e, dec binary64 eb100 = .fin e ∧ 0 < e ∧ e ≤ 11 / 1000) ∧
    dec binary32 (withFill.u 0) = .fin 1000 ∧
    ∃ m' bs, compressBytes (bitsOps binary32 (fun _ => 0) floorLog2) (wordCodec 4) (wordCodec 8)
        E1 E2 (parBits floorLog2) 2 2 (fun a _ => a)
        (boundAbsT (bitsOps binary32 (fun _ => 0) floorLog2)
          (bitsE binary32 (fun _ => 0) floorLog2 ov) 2 2 eb100) withFill = some (m', bs) ∧
      ∀ m0, ∃ d, decompressBytes (bitsOps binary32 (fun _ => 0) floorLog2) (wordCodec 4)
          (wordCodec 8) (parBits floorLog2).logBase 2 2 m0 bs = some d ∧
        dec binary32 (d.u 0) = .fin 1024 := by
  refine ⟨?_, ⟨num binary64 eb100, by decide +kernel, by decide +kernel, by decide +kernel⟩,
    by decide +kernel, ?_⟩
  · intro q hq
    have : ∀ q ∈ [0, 1, 2, 3], sizeB binary32 (p2 127) (withFill.u q) = true ∧
        sizeB binary32 (p2 127) (withFill.v q) = true := by decide +kernel
    obtain ⟨a, b⟩ := this q (by simp; omega)
    obtain ⟨x, hx, -⟩ := size_of a
    obtain ⟨y, hy, -⟩ := size_of b
    exact ⟨⟨x, hx⟩, ⟨y, hy⟩⟩
  · obtain ⟨f, t, h1, h2, h3, h4, h5⟩ := seen_some (fill_seen ov)
    have f1 : Fits E1 (2 * 1024) t.eb :=
      fits_of_short _ _ _ (by rw [h3]; simp) (by rw [h3]; simp) (by norm_num) (by rw [h3]; simp)
    have f2 : Fits E2 (2 * 65536) t.dq :=
      fits_of_short _ _ _ (by rw [h4]; simp) (by rw [h4]; simp) (by norm_num) (by rw [h4]; simp)
    obtain ⟨bs, hbs, hd⟩ := C13_online_roundtrip (bitsOps binary32 (fun _ => 0) floorLog2)
      (wordCodec 4) (wordCodec 8) E1 E2 (parBits floorLog2) 2 2 (fun a _ => a) _ withFill f t h1
      (by decide) (by decide) rfl f1 f2
    refine ⟨f, bs, hbs, fun m0 => ?_⟩
    obtain ⟨d, d1, d2⟩ := hd [] m0
    rw [List.append_nil] at d1
    refine ⟨d, d1, ?_⟩
    rw [(d2 0 (by norm_num)).1]
    have e : num binary32 (f.u 0) = 1024 := by
      simp only [List.map_cons, List.cons.injEq] at h5
      exact h5.1
    unfold num at e
    split at e
    · rename_i x hx; rw [hx, e]
    · norm_num at e

end CpSZ.Ieee
