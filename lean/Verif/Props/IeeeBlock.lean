import Verif.Ieee.Block
import Verif.Props.Ieee
import Verif.Props.Block
import Verif.Props.Block3
import Verif.Props.BlockMore
/-
Property C87: the error bound of the block codecs in IEEE-754 arithmetic, from bytes to bytes,
for all data.
-/

namespace CpSZ.Ieee
open CpSZ.Block

/-- The decompressed value `x` of `c`: the same bits, or both are finite and at most `e` apart
(up to `2^-p` of `e`, half a unit in the last place). -/
def Kept (F : Fmt) (e : ℚ) (x c : Pat F) : Prop := x = c ∨ Within F ((1 + p2 (-F.p)) * e) x c

/-- NaN and infinities keep their bits. -/
theorem Kept.special {F : Fmt} {e : ℚ} {x c : Pat F} (h : Kept F e x c)
    (hc : ∀ y, dec F c ≠ .fin y) : x = c := by
  rcases h with h | ⟨_, C, _, h, _⟩
  · exact h
  · exact absurd h (hc C)

section
variable {F : Fmt} (tr : Pat binary64 → Int) (lg : Pat binary64 → Pat binary64)

theorem code_65536 {prec : Pat binary64} (hp : NN binary64 prec) (diff : Pat binary64) (q : Int)
    (h : linQuant (bitsD tr lg) diff prec 65536 32768 = some q) : 0 < q ∧ q < 65536 := by
  have := quant_code hp (R := 32768) (by norm_num) (by norm_num) h
  omega

theorem code_32768 {prec : Pat binary64} (hp : NN binary64 prec) (diff : Pat binary64) (q : Int)
    (h : linQuant (bitsD tr lg) diff prec 32768 16384 = some q) : 0 < q ∧ q < 32768 := by
  have := quant_code hp (R := 16384) (by norm_num) (by norm_num) h
  omega

/-- What is needed of the element type. -/
structure Elt (F : Fmt) : Prop where
  ok : F.Ok
  p : F.p ≤ binary64.p
  umin : binary64.umin ≤ F.umin
  emax : F.emax ≤ binary64.emax

theorem elt32 : Elt binary32 := ⟨ok32, by decide, by decide, by decide⟩
theorem elt64 : Elt binary64 := ⟨ok64, by decide, by decide, by decide⟩

theorem kept_of_le (hF : Elt F) {x c : Pat F} {prec : Pat binary64} {e : ℚ}
    (hp : dec binary64 prec = .fin e)
    (h : (bitsB F tr lg).O.le ((bitsB F tr lg).O.dist x c) prec = true) : Kept F e x c :=
  Or.inr (dist_back hF.ok hF.p hF.umin hF.emax hp h)

theorem nn_of_not_zero {prec : Pat binary64} {e : ℚ} (hp : dec binary64 prec = .fin e) (he : 0 ≤ e)
    (hz : (bitsB F tr lg).isZero prec = false) : NN binary64 prec := by
  refine nn_of_pos hp (lt_of_le_of_ne he ?_)
  rintro rfl
  change (dec binary64 prec == Fp.fin 0) = false at hz
  rw [hp] at hz
  simp at hz

/-- 2D, one bound per point. -/
theorem eb2_bits (hF : Elt F) (f : Block.Fmt (Pat F) (Pat binary32) (Pat binary64))
    (hskip : f.skip = f.cT.size) (E1 E2 : Env) (data : Nat → Pat F) (prec : Nat → Pat binary64)
    (r1 r2 bs : Nat) (indep : Bool) (h1 : 0 < r1) (h2 : 0 < r2) (hb : 0 < bs) (hb31 : bs < 2 ^ 31)
    (hn : r1 * r2 < 2 ^ 58) (e : Nat → ℚ)
    (hp : ∀ p < r1 * r2, dec binary64 (prec p) = .fin (e p) ∧ 0 ≤ e p)
    (hd : Shallow E2 131072 (outEb2 (bitsB F tr lg) data prec r1 r2 bs).ty) :
    ∃ bytes, compressEb2 (bitsB F tr lg) f E1 E2 data prec r1 r2 bs indep = some bytes ∧
      ∀ rest out0, ∃ out,
        decompressEb2 (bitsB F tr lg) f prec r1 r2 out0 (bytes ++ rest) = some out ∧
        ∀ p < r1 * r2, Kept F (e p) (out p) (data p) ∧ (e p = 0 → out p = data p) := by
  obtain ⟨bytes, hc, r⟩ := C31_roundtrip (bitsB F tr lg) f hskip E1 E2 data prec r1 r2 bs indep h1
    h2 hb hb31 hn (fun p hp' hz diff q hq =>
      code_65536 tr lg (nn_of_not_zero tr lg (hp p hp').1 (hp p hp').2 hz) diff q hq) hd
  refine ⟨bytes, hc, fun rest out0 => ?_⟩
  obtain ⟨out, ho, ha⟩ := r rest out0
  refine ⟨out, ho, fun p hp' => ⟨?_, fun h0 => ?_⟩⟩
  · rcases (ha p hp').2 with h | h
    · exact Or.inl h
    · exact kept_of_le tr lg hF (hp p hp').1 h
  · refine (ha p hp').1 ?_
    change (dec binary64 (prec p) == Fp.fin 0) = true
    rw [(hp p hp').1, h0]
    simp

/-- C87, `sz_compress_2d_with_eb` and `sz_decompress_2d_with_eb` on `float`.  The data are any
bit patterns, NaN and infinities included; the bounds are finite and not negative.  The
decompressed value of every point has the bits of the input, or both are finite and the distance
is at most `1 + 2^-24` times the bound of the point; where the bound is zero the bits are those of
the input. -/
theorem C87_with_eb_float (f : Block.Fmt (Pat binary32) (Pat binary32) (Pat binary64))
    (hskip : f.skip = f.cT.size) (E1 E2 : Env) (data : Nat → Pat binary32)
    (prec : Nat → Pat binary64) (r1 r2 bs : Nat) (indep : Bool) (h1 : 0 < r1) (h2 : 0 < r2)
    (hb : 0 < bs) (hb31 : bs < 2 ^ 31) (hn : r1 * r2 < 2 ^ 58) (e : Nat → ℚ)
    (hp : ∀ p < r1 * r2, dec binary64 (prec p) = .fin (e p) ∧ 0 ≤ e p)
    (hd : Shallow E2 131072 (outEb2 (bitsB binary32 tr lg) data prec r1 r2 bs).ty) :
    ∃ bytes, compressEb2 (bitsB binary32 tr lg) f E1 E2 data prec r1 r2 bs indep = some bytes ∧
      ∀ rest out0, ∃ out,
        decompressEb2 (bitsB binary32 tr lg) f prec r1 r2 out0 (bytes ++ rest) = some out ∧
        ∀ p < r1 * r2, Kept binary32 (e p) (out p) (data p) ∧ (e p = 0 → out p = data p) :=
  eb2_bits tr lg elt32 f hskip E1 E2 data prec r1 r2 bs indep h1 h2 hb hb31 hn e hp hd

/-- C87, `sz_compress_2d_with_eb` and `sz_decompress_2d_with_eb` on `double` (predictions are
`float`). -/
theorem C87_with_eb_double (f : Block.Fmt (Pat binary64) (Pat binary32) (Pat binary64))
    (hskip : f.skip = f.cT.size) (E1 E2 : Env) (data : Nat → Pat binary64)
    (prec : Nat → Pat binary64) (r1 r2 bs : Nat) (indep : Bool) (h1 : 0 < r1) (h2 : 0 < r2)
    (hb : 0 < bs) (hb31 : bs < 2 ^ 31) (hn : r1 * r2 < 2 ^ 58) (e : Nat → ℚ)
    (hp : ∀ p < r1 * r2, dec binary64 (prec p) = .fin (e p) ∧ 0 ≤ e p)
    (hd : Shallow E2 131072 (outEb2 (bitsB binary64 tr lg) data prec r1 r2 bs).ty) :
    ∃ bytes, compressEb2 (bitsB binary64 tr lg) f E1 E2 data prec r1 r2 bs indep = some bytes ∧
      ∀ rest out0, ∃ out,
        decompressEb2 (bitsB binary64 tr lg) f prec r1 r2 out0 (bytes ++ rest) = some out ∧
        ∀ p < r1 * r2, Kept binary64 (e p) (out p) (data p) ∧ (e p = 0 → out p = data p) :=
  eb2_bits tr lg elt64 f hskip E1 E2 data prec r1 r2 bs indep h1 h2 hb hb31 hn e hp hd

/-- C87, `sz_compress_2d` and `sz_decompress_2d` on `float`, any bit patterns as data, any finite
positive precision, any selection of regression blocks and any coefficients (NaN included).
(`double` data are not decoded, C37.) -/
theorem C87_2d_float (f : Block.Fmt (Pat binary32) (Pat binary32) (Pat binary64))
    (hskip : f.skip = f.cT.size) (E1 E2 : Env) (data : Nat → Pat binary32) (prec : Pat binary64)
    (e : ℚ) (hp : dec binary64 prec = .fin e) (he : 0 < e) (r1 r2 bs : Nat) (indep : Bool)
    (sel : Nat → Nat → Nat → Nat → Option (List (Pat binary32)))
    (h1 : 0 < r1) (h2 : 0 < r2) (hb : 0 < bs) (hb31 : bs < 2 ^ 31) (hn : r1 * r2 < 2 ^ 58)
    (hsel : ∀ o sx sy sz c, sel o sx sy sz = some c → c.length = 3)
    (hd1 : (out2 (bitsB binary32 tr lg) data prec r1 r2 bs sel).coefs.length ≠ 0 →
      Shallow E1 131072 (out2 (bitsB binary32 tr lg) data prec r1 r2 bs sel).rty)
    (hd2 : Shallow E2 65536 (out2 (bitsB binary32 tr lg) data prec r1 r2 bs sel).ty) :
    ∃ bytes, compress2 (bitsB binary32 tr lg) f E1 E2 data prec r1 r2 bs indep sel = some bytes ∧
      ∀ rest out0, ∃ out,
        decompress2 (bitsB binary32 tr lg) f r1 r2 out0 (bytes ++ rest) = some out ∧
        ∀ p < r1 * r2, Kept binary32 e (out p) (data p) := by
  have hpn := nn_of_pos hp he
  obtain ⟨bytes, hc, r⟩ := two_roundtrip (bitsB binary32 tr lg) f hskip E1 E2 data prec r1 r2 bs
    indep sel h1 h2 hb hb31 hn hsel (fun diff q hq => code_32768 tr lg hpn diff q hq)
    (fun p hp' diff q hq => code_65536 tr lg (regPrecs_nn hpn 3 bs p hp') diff q hq) hd1 hd2
  refine ⟨bytes, hc, fun rest out0 => ?_⟩
  obtain ⟨out, ho, ha, -⟩ := r rest out0
  refine ⟨out, ho, fun p hp' => ?_⟩
  rcases ha p hp' with h | ⟨-, h | ⟨hm, -⟩⟩
  · exact Or.inl h
  · exact kept_of_le tr lg elt32 hp h
  · simp [cfg2] at hm

/-- C87, `sz_compress_3d` and `sz_decompress_3d` on `float`, any bit patterns as data, any finite
positive precision, any number of intervals, mean, selection of regression blocks and coefficients,
dependent and independent blocks. (`double` data are not decoded, C37.) -/
theorem C87_3d_float (f : Block.Fmt (Pat binary32) (Pat binary32) (Pat binary64))
    (hskip : f.skip = f.cT.size) (E1 E2 : Env) (data : Nat → Pat binary32) (prec : Pat binary64)
    (e : ℚ) (hp : dec binary64 prec = .fin e) (he : 0 < e) (r1 r2 r3 bs : Nat) (indep : Bool)
    (radius : Nat) (mean : Bool × Pat binary32)
    (sel : Nat → Nat → Nat → Nat → Option (List (Pat binary32)))
    (h1 : 0 < r1) (h2 : 0 < r2) (h3 : 0 < r3) (hb : 0 < bs) (hb31 : bs < 2 ^ 31)
    (hn : r1 * r2 * r3 < 2 ^ 58) (hrad0 : 0 < radius) (hrad : radius ≤ 2 ^ 24)
    (hsel : ∀ o sx sy sz c, sel o sx sy sz = some c → c.length = 4)
    (hd1 : (out3 (bitsB binary32 tr lg) data prec r1 r2 r3 bs indep radius mean sel).coefs.length
        ≠ 0 →
      Shallow E1 131072
        (out3 (bitsB binary32 tr lg) data prec r1 r2 r3 bs indep radius mean sel).rty)
    (hd2 : Shallow E2 (4 * radius)
      (out3 (bitsB binary32 tr lg) data prec r1 r2 r3 bs indep radius mean sel).ty) :
    ∃ bytes, compress3 (bitsB binary32 tr lg) f E1 E2 data prec r1 r2 r3 bs indep radius mean sel =
        some bytes ∧
      ∀ rest out0, ∃ out,
        decompress3 (bitsB binary32 tr lg) f r1 r2 r3 out0 (bytes ++ rest) = some out ∧
        ∀ p < r1 * r2 * r3, Kept binary32 e (out p) (data p) := by
  have hpn := nn_of_pos hp he
  obtain ⟨bytes, hc, r⟩ := three_roundtrip (bitsB binary32 tr lg) f hskip E1 E2 data prec r1 r2 r3
    bs indep radius mean sel h1 h2 h3 hb hb31 hn hrad0 hrad hsel
    (fun diff q hq => by
      have := quant_code (tr := tr) (lg := lg) hpn (R := radius) (by omega) (by omega) hq
      omega)
    (fun _ diff q hq => by
      rw [show 2 * (radius : Int) - 2 = 2 * ((radius : Int) - 1) by ring] at hq
      have := quant_code (tr := tr) (lg := lg) hpn (R := (radius : Int) - 1) (by omega) (by omega) hq
      omega)
    (fun p hp' diff q hq => code_65536 tr lg (regPrecs_nn hpn 4 bs p hp') diff q hq) hd1 hd2
  refine ⟨bytes, hc, fun rest out0 => ?_⟩
  obtain ⟨out, ho, ha, -⟩ := r rest out0
  refine ⟨out, ho, fun p hp' => ?_⟩
  rcases ha p hp' with h | ⟨-, h | ⟨-, h⟩⟩
  · exact Or.inl h
  · exact kept_of_le tr lg elt32 hp h
  · have hlt : Fp.lt (dec binary64 ((bitsQ binary32 tr lg).dist (data p) (out p)))
        (dec binary64 prec) = true := h
    have hle : Fp.le (dec binary64 ((bitsQ binary32 tr lg).dist (data p) (out p)))
        (dec binary64 prec) = true := by
      rw [hp] at hlt ⊢
      revert hlt
      cases dec binary64 ((bitsQ binary32 tr lg).dist (data p) (out p)) <;> simp [Fp.lt, Fp.le]
      exact le_of_lt
    obtain ⟨x, y, hx, hy, hxy⟩ := dist_back ok32 (by decide) (by decide) (by decide) hp hle
    exact Or.inr ⟨y, x, hy, hx, by rwa [abs_sub_comm]⟩

/-- C87, the stream of `sz_compress_3d_with_eb` on `float` or `double` read as C60 describes. -/
theorem C87_with_eb_3d (hF : Elt F) (f : Block.Fmt (Pat F) (Pat binary32) (Pat binary64))
    (E1 E2 : Env) (data : Nat → Pat F)
    (prec : Nat → Pat binary64) (r1 r2 r3 bs : Nat) (indep : Bool) (h1 : 0 < r1) (h2 : 0 < r2)
    (h3 : 0 < r3) (hb : 0 < bs) (hb31 : bs < 2 ^ 31) (hn : r1 * r2 * r3 < 2 ^ 58) (e : Nat → ℚ)
    (hp : ∀ p < r1 * r2 * r3, dec binary64 (prec p) = .fin (e p) ∧ 0 ≤ e p)
    (hd : Shallow E2 65536 (outEb3 (bitsB F tr lg) data prec r1 r2 r3 bs).ty) :
    ∃ bytes, compressEb3 (bitsB F tr lg) f E1 E2 data prec r1 r2 r3 bs indep = some bytes ∧
      ∀ rest out0, ∃ out,
        readEb3 (bitsB F tr lg) f prec r1 r2 r3 out0 (bytes ++ rest) = some out ∧
        ∀ p < r1 * r2 * r3, Kept F (e p) (out p) (data p) ∧ (e p = 0 → out p = data p) := by
  obtain ⟨bytes, hc, r⟩ := C60_decodable (bitsB F tr lg) f E1 E2 data prec r1 r2 r3 bs indep
    h1 h2 h3 hb hb31 hn (fun p hp' hz diff q hq =>
      code_32768 tr lg (nn_of_not_zero tr lg (hp p hp').1 (hp p hp').2 hz) diff q hq) hd
  refine ⟨bytes, hc, fun rest out0 => ?_⟩
  obtain ⟨out, ho, ha, -⟩ := r rest out0
  refine ⟨out, ho, fun p hp' => ⟨?_, fun h0 => ?_⟩⟩
  · rcases (ha p hp').2 with h | h
    · exact Or.inl h
    · exact kept_of_le tr lg hF (hp p hp').1 h
  · refine (ha p hp').1 ?_
    change (dec binary64 (prec p) == Fp.fin 0) = true
    rw [(hp p hp').1, h0]
    simp

end

/-! ### Concrete runs -/

/-- `struct meanInfo<T>`: a flag and a value. -/
def meanCodec {T : Type} (c : Codec T) : Codec (Bool × T) where
  size := 1 + c.size
  enc a := (if a.1 then 1#8 else 0#8) :: c.enc a.2
  dec bs := match bs with
    | [] => (false, c.dec [])
    | b :: bs => (b == 1#8, c.dec bs)
  enc_length a := by simp [c.enc_length]; omega
  dec_enc a := by
    obtain ⟨b, w⟩ := a
    cases b <;> simp [c.dec_enc]

/-- Object representations for `float` data. -/
def fmt32 : Block.Fmt (Pat binary32) (Pat binary32) (Pat binary64) :=
  ⟨wordCodec 4, wordCodec 4, wordCodec 8, meanCodec (wordCodec 4), 4⟩

/-- Ordinary values, NaN, an infinity, a subnormal number, a large one and `-0`. -/
def mixed (p : Nat) : Pat binary32 :=
  [0x3F800000#32, 0x3F8CCCCD#32, 0x80000000#32, 0x00000001#32, 0x7F7FFFFF#32, 0x7F800000#32,
    0x40490FDB#32, 0x7FC00001#32].getD p 0#32

/-- Precision 1/8. -/
def eighth : Pat binary64 := enc binary64 false (.fin (1 / 8))

theorem eighth_val : dec binary64 eighth = .fin (1 / 8) := by
  have : (1 : ℚ) / 8 = p2 (-3) := by rw [p2_eq]; norm_num
  rw [eighth, this]
  exact dec_enc ok64 _ (rep_p2 (by decide) (by decide))

theorem shallow_of_eq {E : Env} {stateNum : Nat} {l l' : List Int} (h : l = l') (h1 : l' ≠ [])
    (h2 : l'.length ≤ 65) (h3 : stateNum ≤ 2 ^ 26) (h4 : ∀ x ∈ l', 0 ≤ x ∧ x < stateNum) :
    Shallow E stateNum l := by
  subst h; exact shallow_of_short h1 h2 h3 h4

/-- Ordinary values, `-0`, a subnormal number, a large one, an infinity and a NaN; some are
predicted, the others stored. -/
example (E1 E2 : Env) : ∃ bytes,
    compress2 (bitsB binary32 (fun _ => 0) id) fmt32 E1 E2 mixed eighth 2 4 12 false
      (fun _ _ _ _ => none) = some bytes ∧
      ∀ rest out0, ∃ out,
        decompress2 (bitsB binary32 (fun _ => 0) id) fmt32 2 4 out0 (bytes ++ rest) = some out ∧
        ∀ p < 2 * 4, Kept binary32 (1 / 8) (out p) (mixed p) :=
  C87_2d_float (fun _ => 0) id fmt32 rfl E1 E2 mixed eighth (1 / 8) eighth_val (by norm_num) 2 4 12
    false _ (by decide) (by decide) (by decide) (by decide) (by decide)
    (fun _ _ _ _ _ h => by cases h)
    (fun h => absurd (by decide +kernel) h)
    (shallow_of_eq (l' := [16388, 16384, 16380, 16384, 0, 0, 0, 0]) (by decide +kernel) (by decide)
      (by decide) (by decide) (by decide))

/-- A regression block whose second coefficient is NaN. -/
example (E1 E2 : Env) : ∃ bytes,
    compress2 (bitsB binary32 (fun _ => 0) id) fmt32 E1 E2 mixed eighth 2 4 12 false
      (fun _ _ _ _ => some [0x3F800000#32, 0x7FC00001#32, 0x3F800000#32]) = some bytes ∧
      ∀ rest out0, ∃ out,
        decompress2 (bitsB binary32 (fun _ => 0) id) fmt32 2 4 out0 (bytes ++ rest) = some out ∧
        ∀ p < 2 * 4, Kept binary32 (1 / 8) (out p) (mixed p) :=
  C87_2d_float (fun _ => 0) id fmt32 rfl E1 E2 mixed eighth (1 / 8) eighth_val (by norm_num) 2 4 12
    false _ (by decide) (by decide) (by decide) (by decide) (by decide)
    (fun _ _ _ _ _ h => by cases h; rfl)
    (fun _ => shallow_of_eq (l' := [34208, 0, 32888]) (by decide +kernel) (by decide) (by decide)
      (by decide) (by decide))
    (shallow_of_eq (l' := [0, 0, 0, 0, 0, 0, 0, 0]) (by decide +kernel) (by decide)
      (by decide) (by decide) (by decide))

/-- Three dimensions, with a mean in use. -/
example (E1 E2 : Env) : ∃ bytes,
    compress3 (bitsB binary32 (fun _ => 0) id) fmt32 E1 E2 mixed eighth 2 2 2 6 false 16
      (true, 0x3F800000#32) (fun _ _ _ _ => none) = some bytes ∧
      ∀ rest out0, ∃ out,
        decompress3 (bitsB binary32 (fun _ => 0) id) fmt32 2 2 2 out0 (bytes ++ rest) = some out ∧
        ∀ p < 2 * 2 * 2, Kept binary32 (1 / 8) (out p) (mixed p) :=
  C87_3d_float (fun _ => 0) id fmt32 rfl E1 E2 mixed eighth (1 / 8) eighth_val (by norm_num) 2 2 2 6
    false 16 _ _ (by decide) (by decide) (by decide) (by decide) (by decide) (by decide) (by decide)
    (by decide) (fun _ _ _ _ _ h => by cases h)
    (fun h => absurd (by decide +kernel) h)
    (shallow_of_eq (l' := [1, 1, 12, 16, 0, 0, 0, 0]) (by decide +kernel) (by decide)
      (by decide) (by decide) (by decide))

/-- The data of `C87_exceeded`: -5/4 and -1/4 - 2^-25. -/
def tight (p : Nat) : Pat binary32 := if p = 0 then 0xBFA00000#32 else 0xBE800001#32

/-- The bounds of `C87_exceeded`: 0 and 1. -/
def tightPrec (p : Nat) : Pat binary64 :=
  if p = 0 then 0#64 else 0x3FF0000000000000#64

theorem tightPrec_val (p : Nat) :
    dec binary64 (tightPrec p) = .fin (if p = 0 then 0 else 1) := by
  by_cases h : p = 0
  · subst h
    decide +kernel
  · simp only [tightPrec, h, if_false]
    decide +kernel

/-- C87: the factor is needed.  The first value is stored, the second decoded as 3/4, at the
distance `1 + 2^-25` of the input, although its bound is 1. -/
theorem C87_exceeded (E1 E2 : Env) : ∃ bytes,
    compressEb2 (bitsB binary32 (fun _ => 0) id) fmt32 E1 E2 tight tightPrec 1 2 12 false =
      some bytes ∧
    ∀ rest out0, ∃ out,
      decompressEb2 (bitsB binary32 (fun _ => 0) id) fmt32 tightPrec 1 2 out0 (bytes ++ rest) =
        some out ∧
      dec binary64 (tightPrec 1) = .fin 1 ∧ dec binary32 (tight 1) = .fin (-1 / 4 - 1 / 2 ^ 25) ∧
      dec binary32 (out 1) = .fin (3 / 4) := by
  obtain ⟨bytes, h, r⟩ := eb2_roundtrip (bitsB binary32 (fun _ => 0) id) fmt32 rfl E1 E2 tight
    tightPrec 1 2 12 false (by decide) (by decide) (by decide) (by decide) (by decide)
    (fun p hp hz diff q hq => code_65536 _ _ (nn_of_not_zero _ _ (tightPrec_val p)
      (by split <;> norm_num) hz) diff q hq)
    (shallow_of_eq (l' := [0, 32769]) (by decide +kernel) (by decide)
      (by decide) (by decide) (by decide))
  refine ⟨bytes, h, fun rest out0 => ?_⟩
  obtain ⟨out, ho, -, -, hw⟩ := r rest out0
  have hrec : (outEb2 (bitsB binary32 (fun _ => 0) id) tight tightPrec 1 2 12).recon =
      ([(0, tight 0), (1, 0x3F400000#32)] : List (Nat × Pat binary32)) := by decide +kernel
  have h1 : out 1 = 0x3F400000#32 := by
    rw [hw, hrec]
    rfl
  refine ⟨out, ho, by decide +kernel, by decide +kernel, ?_⟩
  rw [h1]
  decide +kernel

/-- The theorem for one bound per point applies to it. -/
example (E1 E2 : Env) : ∃ bytes,
    compressEb2 (bitsB binary32 (fun _ => 0) id) fmt32 E1 E2 tight tightPrec 1 2 12 false =
      some bytes ∧
    ∀ rest out0, ∃ out,
      decompressEb2 (bitsB binary32 (fun _ => 0) id) fmt32 tightPrec 1 2 out0 (bytes ++ rest) =
        some out ∧
      ∀ p < 1 * 2, Kept binary32 (if p = 0 then 0 else 1) (out p) (tight p) ∧
        ((if p = 0 then (0 : ℚ) else 1) = 0 → out p = tight p) :=
  C87_with_eb_float (fun _ => 0) id fmt32 rfl E1 E2 tight tightPrec 1 2 12 false (by decide)
    (by decide) (by decide) (by decide) (by decide) _
    (fun p _ => ⟨tightPrec_val p, by split <;> norm_num⟩)
    (shallow_of_eq (l' := [0, 32769]) (by decide +kernel) (by decide)
      (by decide) (by decide) (by decide))

/-- Object representations for `double` data; `sz_decompress_2d_with_eb` skips eight bytes per
unpredictable value. -/
def fmt64 : Block.Fmt (Pat binary64) (Pat binary32) (Pat binary64) :=
  ⟨wordCodec 8, wordCodec 4, wordCodec 8, meanCodec (wordCodec 8), 8⟩

/-- 3 and its successor, `1e300` (infinite as a `float`, and so is the prediction made from it), NaN. -/
def mixed64 (p : Nat) : Pat binary64 :=
  [0x4008000000000000#64, 0x4008000000000001#64, 0x7E37E43C8800759C#64,
    0x7FF8000000000000#64].getD p 0#64

example (E1 E2 : Env) : ∃ bytes,
    compressEb2 (bitsB binary64 (fun _ => 0) id) fmt64 E1 E2 mixed64 (fun _ => eighth) 2 2 12
      false = some bytes ∧
    ∀ rest out0, ∃ out,
      decompressEb2 (bitsB binary64 (fun _ => 0) id) fmt64 (fun _ => eighth) 2 2 out0
        (bytes ++ rest) = some out ∧
      ∀ p < 2 * 2, Kept binary64 (1 / 8) (out p) (mixed64 p) ∧
        ((1 / 8 : ℚ) = 0 → out p = mixed64 p) :=
  C87_with_eb_double (fun _ => 0) id fmt64 rfl E1 E2 mixed64 _ 2 2 12 false (by decide)
    (by decide) (by decide) (by decide) (by decide) (fun _ => 1 / 8)
    (fun _ _ => ⟨eighth_val, by norm_num⟩)
    (shallow_of_eq (l' := [32780, 32768, 0, 0]) (by decide +kernel) (by decide)
      (by decide) (by decide) (by decide))

/-- Three dimensions, one bound per point. -/
example (E1 E2 : Env) : ∃ bytes,
    compressEb3 (bitsB binary32 (fun _ => 0) id) fmt32 E1 E2 mixed (fun _ => eighth) 2 2 2 12
      false = some bytes ∧
    ∀ rest out0, ∃ out,
      readEb3 (bitsB binary32 (fun _ => 0) id) fmt32 (fun _ => eighth) 2 2 2 out0
        (bytes ++ rest) = some out ∧
      ∀ p < 2 * 2 * 2, Kept binary32 (1 / 8) (out p) (mixed p) ∧
        ((1 / 8 : ℚ) = 0 → out p = mixed p) :=
  C87_with_eb_3d (fun _ => 0) id elt32 fmt32 E1 E2 mixed _ 2 2 2 12 false (by decide)
    (by decide) (by decide) (by decide) (by decide) (by decide) (fun _ => 1 / 8)
    (fun _ _ => ⟨eighth_val, by norm_num⟩)
    (shallow_of_eq (l' := [16388, 16384, 16380, 16384, 0, 0, 0, 0]) (by decide +kernel) (by decide)
      (by decide) (by decide) (by decide))

end CpSZ.Ieee
