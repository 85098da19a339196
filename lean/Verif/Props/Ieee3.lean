import Verif.Ieee.Run3
import Verif.Props.Ieee
import Verif.Props.ThreeD
/-
Property C84: the user's absolute bound of the 3D mode in IEEE-754 arithmetic, from bytes to
bytes.
-/

namespace CpSZ.Ieee
open CpSZ.VMode CpSZ.ThreeD CpSZ.Mesh3D

/-- `threshold` of the 3D absolute mode (src/sz_compress_cp_preserve_3d.cpp L1346). -/
def thr3 : Pat binary64 := enc binary64 false (.fin (p2 (-52)))

/-- `log_of_base`, `log2(4)` (src/sz_compress_cp_preserve_3d.cpp L1321). -/
def lb3 (lg : Pat binary64 → Pat binary64) : Pat binary64 := lg (enc binary64 false (.fin 4))

/-- The plan of the mode on bit patterns. -/
def planBits3 (F : Fmt) (tr : Pat binary64 → Int) (lg : Pat binary64 → Pat binary64)
    (r1 r2 r3 : Nat) (maxEb : Pat binary64) (cp : Nat → Bool) :
    State (Pat F) → Nat → Option (Plan (Pat binary64)) :=
  planAbs3T (bitsOps F tr lg) (bitsE F tr lg false) r1 r2 r3 maxEb cp

/-- `sz_compress_cp_preserve_3d_online_abs`: the run on bit patterns. -/
def runAbs3 (F : Fmt) (tr : Pat binary64 → Int) (lg : Pat binary64 → Pat binary64)
    (r1 r2 r3 : Nat) (maxEb : Pat binary64) (cp : Nat → Bool) (data : Arr (Pat F)) :
    Option (State (Pat F) × VMode.Streams (Pat F)) :=
  VMode.compress (absMode3 (bitsOps F tr lg) (lb3 lg) thr3 r2 r3 4 32768)
    (planBits3 F tr lg r1 r2 r3 maxEb cp) (r1 * r2 * r3) data

theorem runAbs3_defined (F : Fmt) (tr lg) (r1 r2 r3 : Nat) (maxEb : Pat binary64) (cp : Nat → Bool)
    (data : Arr (Pat F)) : ∃ s' str, runAbs3 F tr lg r1 r2 r3 maxEb cp data = some (s', str) :=
  compress_defined _ _ _ _ fun _ _ hp => by
    unfold planBits3 planAbs3T
    exact Rounded.planAbs3_defined hp

theorem roundtrip3 {F : Fmt} (cF : Codec (Pat F)) {tr : Pat binary64 → Int}
    {lg : Pat binary64 → Pat binary64} (E1 E2 : Env) {r1 r2 r3 : Nat} {maxEb : Pat binary64}
    {cp : Nat → Bool} {data : Arr (Pat F)} {s' : State (Pat F)} {str : VMode.Streams (Pat F)}
    (h : runAbs3 F tr lg r1 r2 r3 maxEb cp data = some (s', str))
    (f1 : Fits E1 (2 * 1024) str.eb) (f2 : Fits E2 (2 * 65536) str.dq)
    (f3 : str.un.length < 2 ^ 64) :
    ∃ bs, compressBytesAbs3 cF (wordCodec 8) E1 E2 (bitsOps F tr lg) (lb3 lg) thr3 r2 r3 4 32768
        (planBits3 F tr lg r1 r2 r3 maxEb cp) (r1 * r2 * r3) data = some (s'.val, bs) ∧
      ∀ rest m0 lb, ∃ d, decompressBytesAbs3 cF (wordCodec 8) (bitsOps F tr lg) lb r2 r3
          (r1 * r2 * r3) m0 (bs ++ rest) = some d ∧
        ∀ c q, c < 3 → q < r1 * r2 * r3 → d c q = s'.val c q := by
  unfold runAbs3 planBits3 planAbs3T at h
  unfold planBits3 planAbs3T
  exact C27_abs3_roundtrip (bitsOps F tr lg) cF (wordCodec 8) E1 E2 (lb3 lg) thr3
    r1 r2 r3 4 32768 _ _ maxEb cp _ data s' str h (by norm_num) (by norm_num) f1 f2 f3

/-- From bytes to bytes, for a format with room for the products of three data. -/
theorem abs3_bytes {F : Fmt} (hF : F.Ok) (hp : F.p ≤ binary64.p) (hu : binary64.umin ≤ F.umin)
    (he : F.emax ≤ binary64.emax) (hemin : F.emin ≤ -52) (cF : Codec (Pat F))
    {tr : Pat binary64 → Int} {lg : Pat binary64 → Pat binary64} {eps : ℚ} (hlg : LogOk lg eps)
    (hlb : dec binary64 (lb3 lg) = .fin 2) (he0 : 0 ≤ eps) (he1 : eps ≤ p2 (-30)) {r : Int}
    (h0 : 0 ≤ r) (h1 : r ≤ 300) (h2 : 3 * r + 11 ≤ F.emax) (E1 E2 : Env) (r1 r2 r3 : Nat)
    (maxEb : Pat binary64) {e : ℚ} (hm : dec binary64 maxEb = .fin e) (hep : 0 ≤ e)
    (her : e ≤ p2 r) (cp : Nat → Bool) (data : Arr (Pat F))
    (hf : ∀ c q, c < 3 → q < r1 * r2 * r3 → Size F (p2 r) (data c q)) :
    ∃ s' str, runAbs3 F tr lg r1 r2 r3 maxEb cp data = some (s', str) ∧
      ((∀ x ∈ str.eb, 0 ≤ x ∧ 2 * x ≤ r + 54) ∧ ∀ x ∈ str.dq, 0 ≤ x ∧ x ≤ 65536) ∧
      (Fits E1 (2 * 1024) str.eb → Fits E2 (2 * 65536) str.dq → str.un.length < 2 ^ 64 →
        ∃ bs, compressBytesAbs3 cF (wordCodec 8) E1 E2 (bitsOps F tr lg) (lb3 lg) thr3 r2 r3 4 32768
            (planBits3 F tr lg r1 r2 r3 maxEb cp) (r1 * r2 * r3) data = some (s'.val, bs) ∧
          ∀ rest m0 lb, ∃ d, decompressBytesAbs3 cF (wordCodec 8) (bitsOps F tr lg) lb r2 r3
              (r1 * r2 * r3) m0 (bs ++ rest) = some d ∧
            ∀ c q, c < 3 → q < r1 * r2 * r3 → Within F (slack F eps * e) (d c q) (data c q)) := by
  obtain ⟨s', str, h⟩ := runAbs3_defined F tr lg r1 r2 r3 maxEb cp data
  obtain ⟨hw, hc⟩ := abs3 (bits_ieee hF hp hu he tr hlg) (bits_ieeeE hF hp hu he tr hlg false) hF
    hemin he0 he1 hlb (show dec binary64 thr3 = .fin (p2 (-52)) from
      dec_enc ok64 _ (rep_p2 (by decide) (by decide))) h0 h1 h2 hm hep her hf h
  refine ⟨s', str, h, hc, fun f1 f2 f3 => ?_⟩
  obtain ⟨bs, hbs, hd⟩ := roundtrip3 cF E1 E2 h f1 f2 f3
  refine ⟨bs, hbs, fun rest m0 lb => ?_⟩
  obtain ⟨d, hd1, hd2⟩ := hd rest m0 lb
  refine ⟨d, hd1, fun c q hc hq => ?_⟩
  rw [hd2 c q hc hq]
  exact within_of_cl (mul_nonneg (slack_nonneg F he0) hep) (hf c q hc hq) (hw c q hc hq)

/-- C84, `float`.  Data (finite, at most `2^38`, fewer than `2^58` vertices) and bound of the user
are bit patterns; the code computes with IEEE-754 arithmetic, `log2` is accurate to `2^-30` (and
exact for 4), the conversions to `int` that C++ leaves undefined give anything, the bitmap of
critical points is any.  If there is a data code (C07: the entropy coder crashes on nothing) and
no code word of the data codes is longer than 64 bits, the compressor produces a stream, and
whatever the decompressor finds behind it, every component it returns is a number within the bound
of the user. -/
theorem C84_float (tr : Pat binary64 → Int) (lg : Pat binary64 → Pat binary64) (eps : ℚ)
    (hlg : LogOk lg eps) (hlb : dec binary64 (lg (enc binary64 false (.fin 4))) = .fin 2)
    (he0 : 0 ≤ eps) (he1 : eps ≤ p2 (-30)) (E1 E2 : Env) (r1 r2 r3 : Nat)
    (hn : 0 < r1 * r2 * r3) (hn2 : r1 * r2 * r3 < 2 ^ 58)
    (maxEb : Pat binary64) (e : ℚ) (hm : dec binary64 maxEb = .fin e) (hep : 0 ≤ e)
    (her : e ≤ p2 38) (cp : Nat → Bool) (data : Arr (Pat binary32))
    (hf : ∀ c q, c < 3 → q < r1 * r2 * r3 → Size binary32 (p2 38) (data c q)) :
    ∃ s' str, runAbs3 binary32 tr lg r1 r2 r3 maxEb cp data = some (s', str) ∧
      (str.dq ≠ [] → Shallow E2 (2 * 65536) str.dq →
        ∃ bs, compressBytesAbs3 (wordCodec 4) (wordCodec 8) E1 E2 (bitsOps binary32 tr lg) (lb3 lg)
            thr3 r2 r3 4 32768 (planBits3 binary32 tr lg r1 r2 r3 maxEb cp) (r1 * r2 * r3) data =
              some (s'.val, bs) ∧
          ∀ rest m0 lb, ∃ d, decompressBytesAbs3 (wordCodec 4) (wordCodec 8)
              (bitsOps binary32 tr lg) lb r2 r3 (r1 * r2 * r3) m0 (bs ++ rest) = some d ∧
            ∀ c q, c < 3 → q < r1 * r2 * r3 → Within binary32 e (d c q) (data c q)) := by
  obtain ⟨s', str, h, ⟨hc1, hc2⟩, hb⟩ := abs3_bytes (F := binary32) ok32 (by decide) (by decide) (by decide)
    (by decide) (wordCodec 4) (tr := tr) hlg hlb he0 he1 (r := 38) (by norm_num) (by norm_num) (by decide)
    E1 E2 r1 r2 r3 maxEb hm hep her cp data hf
  obtain ⟨l1, -, l2, l3⟩ := compress_lengths _ _ _ _ _ _ h
  change _ ≤ 3 * (r1 * r2 * r3) at l2 l3
  refine ⟨s', str, h, fun hd0 h2 => ?_⟩
  have f1 : Fits E1 (2 * 1024) str.eb := fits_of_low (ne_nil_of_length (by omega)) (by omega)
    (by norm_num) (by norm_num) (fun x hx => by have := hc1 x hx; omega)
  have f2 : Fits E2 (2 * 65536) str.dq := fits_of_range hd0 (by omega)
    (by norm_num) (fun x hx => by have := hc2 x hx; push_cast; omega) h2
  have f3 : str.un.length < 2 ^ 64 := by omega
  obtain ⟨bs, hbs, hd⟩ := hb f1 f2 f3
  refine ⟨bs, hbs, fun rest m0 lb => ?_⟩
  obtain ⟨d, hd1, hd2⟩ := hd rest m0 lb
  have hs : slack binary32 eps * e ≤ e := by
    have := mul_le_mul_of_nonneg_right (slack32 he1).le hep
    linarith
  exact ⟨d, hd1, fun c q hc hq => (hd2 c q hc hq).mono hs⟩

/-- C84, `double`: as above for data of at most `2^300`; the distance may exceed the bound of the
user by `eps + 2^-53` of it, `eps` being the accuracy of `log2`. -/
theorem C84_double (tr : Pat binary64 → Int) (lg : Pat binary64 → Pat binary64) (eps : ℚ)
    (hlg : LogOk lg eps) (hlb : dec binary64 (lg (enc binary64 false (.fin 4))) = .fin 2)
    (he0 : 0 ≤ eps) (he1 : eps ≤ p2 (-30)) (E1 E2 : Env) (r1 r2 r3 : Nat)
    (hn : 0 < r1 * r2 * r3) (hn2 : r1 * r2 * r3 < 2 ^ 58)
    (maxEb : Pat binary64) (e : ℚ) (hm : dec binary64 maxEb = .fin e) (hep : 0 ≤ e)
    (her : e ≤ p2 300) (cp : Nat → Bool) (data : Arr (Pat binary64))
    (hf : ∀ c q, c < 3 → q < r1 * r2 * r3 → Size binary64 (p2 300) (data c q)) :
    ∃ s' str, runAbs3 binary64 tr lg r1 r2 r3 maxEb cp data = some (s', str) ∧
      (str.dq ≠ [] → Shallow E1 (2 * 1024) str.eb → Shallow E2 (2 * 65536) str.dq →
        ∃ bs, compressBytesAbs3 (wordCodec 8) (wordCodec 8) E1 E2 (bitsOps binary64 tr lg) (lb3 lg)
            thr3 r2 r3 4 32768 (planBits3 binary64 tr lg r1 r2 r3 maxEb cp) (r1 * r2 * r3) data =
              some (s'.val, bs) ∧
          ∀ rest m0 lb, ∃ d, decompressBytesAbs3 (wordCodec 8) (wordCodec 8)
              (bitsOps binary64 tr lg) lb r2 r3 (r1 * r2 * r3) m0 (bs ++ rest) = some d ∧
            ∀ c q, c < 3 → q < r1 * r2 * r3 →
              Within binary64 ((1 + eps + p2 (-53)) * e) (d c q) (data c q)) := by
  obtain ⟨s', str, h, ⟨hc1, hc2⟩, hb⟩ := abs3_bytes (F := binary64) ok64 (by decide) (by decide) (by decide)
    (by decide) (wordCodec 8) (tr := tr) hlg hlb he0 he1 (r := 300) (by norm_num) (by norm_num) (by decide)
    E1 E2 r1 r2 r3 maxEb hm hep her cp data hf
  obtain ⟨l1, -, l2, l3⟩ := compress_lengths _ _ _ _ _ _ h
  change _ ≤ 3 * (r1 * r2 * r3) at l2 l3
  refine ⟨s', str, h, fun hd0 h1 h2 => ?_⟩
  have f1 : Fits E1 (2 * 1024) str.eb := fits_of_range (ne_nil_of_length (by omega)) (by omega)
    (by norm_num) (fun x hx => by have := hc1 x hx; push_cast; omega) h1
  have f2 : Fits E2 (2 * 65536) str.dq := fits_of_range hd0 (by omega)
    (by norm_num) (fun x hx => by have := hc2 x hx; push_cast; omega) h2
  have f3 : str.un.length < 2 ^ 64 := by omega
  obtain ⟨bs, hbs, hd⟩ := hb f1 f2 f3
  refine ⟨bs, hbs, fun rest m0 lb => ?_⟩
  obtain ⟨d, hd1, hd2⟩ := hd rest m0 lb
  exact ⟨d, hd1, fun c q hc hq =>
    (hd2 c q hc hq).mono (mul_le_mul_of_nonneg_right (slack64 he1).le hep)⟩

/-! ### Examples and witness -/

/-- Eight vectors of one octant; vertex `miss` is replaced by the value for missing data. -/
def cube (miss : Nat) : Arr (Pat binary32) := fun c q =>
  if q = miss then fill32 else
  f32 (([[1000, 900, 1100, 1000, 1050, 980, 1020, 930], [1000, 1000, 900, 1100, 950, 1080, 970, 1010],
    [900, 1000, 1050, 1000, 1100, 930, 1040, 960]].getD c []).getD q 0)

/-- What can be observed of a run on 2×2×2 vertices: number of values stored verbatim, indices,
reconstruction of `U`. -/
def seen3 (r : Option (State (Pat binary32) × VMode.Streams (Pat binary32))) :
    Option (Nat × List Int × List Int × List ℚ) :=
  r.map fun (f, s) =>
    (s.un.length, s.eb, s.dq, (List.range 8).map fun q => num binary32 (f.val 0 q))

theorem seen3_some {r : Option (State (Pat binary32) × VMode.Streams (Pat binary32))}
    {k a b l} (h : seen3 r = some (k, a, b, l)) :
    ∃ f s, r = some (f, s) ∧ s.un.length = k ∧ s.eb = a ∧ s.dq = b ∧
      ((List.range 8).map fun q => num binary32 (f.val 0 q)) = l := by
  unfold seen3 at h
  obtain ⟨⟨f, s⟩, hr, h1⟩ := Option.map_eq_some_iff.1 h
  simp only [Prod.mk.injEq] at h1
  exact ⟨f, s, hr, h1.1, h1.2.1, h1.2.2.1, h1.2.2.2⟩

theorem cube_seen :
    seen3 (runAbs3 binary32 (fun _ => 0) floorLog2 2 2 2 eb100 (fun _ => false) (cube 8)) =
    some (9, [0, 22, 22, 22, 22, 0, 22, 0],
      [19968, 32768, 45568, 45568, 19968, 51968, 32768, 58368, 13568, 39168, 26368, 58368, 16128,
        48128, 5888], [1000, 900, 1100, 1000, 1050, 980, 1020, 930]) := by
  decide +kernel

theorem cube_fill_seen :
    seen3 (runAbs3 binary32 (fun _ => 0) floorLog2 2 2 2 eb100 (fun _ => false) (cube 5)) =
    some (9, [29, 29, 22, 22, 0, 0, 22, 0],
      [32776, 32776, 32775, 32767, 32768, 32769, 42496, 16896, 52480, 36352, 58368, 9984, 19200,
        51200, 5376], [1024, 896, 1100, 1000, 1050, 15 * 2 ^ 119, 1020, 930]) := by
  decide +kernel

/-- The hypotheses of `C84_float` are met by eight vectors with the bound 1/100: five of the eight
vertices are coded, the entropy coder can represent the indices, and the bytes decode to numbers
within the bound. -/
example (E1 E2 : Env) : ∃ s' str bs,
    runAbs3 binary32 (fun _ => 0) floorLog2 2 2 2 eb100 (fun _ => false) (cube 8) =
      some (s', str) ∧ str.eb = [0, 22, 22, 22, 22, 0, 22, 0] ∧
    compressBytesAbs3 (wordCodec 4) (wordCodec 8) E1 E2 (bitsOps binary32 (fun _ => 0) floorLog2)
      (lb3 floorLog2) thr3 2 2 4 32768
      (planBits3 binary32 (fun _ => 0) floorLog2 2 2 2 eb100 (fun _ => false)) (2 * 2 * 2)
      (cube 8) = some (s'.val, bs) ∧
    ∀ m0 lb, ∃ d, decompressBytesAbs3 (wordCodec 4) (wordCodec 8)
        (bitsOps binary32 (fun _ => 0) floorLog2) lb 2 2 (2 * 2 * 2) m0 bs = some d ∧
      ∀ c q, c < 3 → q < 8 → Within binary32 (num binary64 eb100) (d c q) (cube 8 c q) := by
  have hm : dec binary64 eb100 = .fin (num binary64 eb100) := by decide +kernel
  obtain ⟨s', str, h, hc⟩ := C84_float (fun _ => 0) floorLog2 0 (floorLog2_ok (le_refl 0))
    floorLog2_four (le_refl 0) (p2_pos _).le E1 E2 2 2 2 (by norm_num)
    (by norm_num) eb100 _ hm (by decide +kernel)
    (by decide +kernel) (fun _ => false) (cube 8) (by
      intro c q hc hq
      have : ∀ c ∈ List.range 3, ∀ q ∈ List.range 8,
        sizeB binary32 (p2 38) (cube 8 c q) = true := by decide +kernel
      exact size_of (this c (List.mem_range.2 hc) q (List.mem_range.2 hq)))
  obtain ⟨f, t, h1, h2, h3, h4, -⟩ := seen3_some cube_seen
  rw [h1] at h
  simp only [Option.some.injEq, Prod.mk.injEq] at h
  obtain ⟨rfl, rfl⟩ := h
  obtain ⟨bs, b1, b2⟩ := hc (by rw [h4]; simp)
    (shallow_of_short (by rw [h4]; simp) (by rw [h4]; simp) (by norm_num) (by rw [h4]; simp))
  refine ⟨f, t, bs, h1, h3, b1, fun m0 lb => ?_⟩
  obtain ⟨d, d1, d2⟩ := b2 [] m0 lb
  rw [List.append_nil] at d1
  exact ⟨d, d1, fun c q hc hq => d2 c q hc hq⟩

/-- The hypotheses of `C84_double` are met by the same numbers. -/
example (E1 E2 : Env) : ∃ s' str,
    runAbs3 binary64 (fun _ => 0) floorLog2 2 2 2 eb100 (fun _ => false)
      (fun c q => enc binary64 false (dec binary32 (cube 8 c q))) = some (s', str) := by
  have hm : dec binary64 eb100 = .fin (num binary64 eb100) := by decide +kernel
  obtain ⟨s', str, h, -⟩ := C84_double (fun _ => 0) floorLog2 0 (floorLog2_ok (le_refl 0))
    floorLog2_four (le_refl 0) (p2_pos _).le E1 E2 2 2 2 (by norm_num)
    (by norm_num) eb100 _ hm (by decide +kernel)
    (by decide +kernel) (fun _ => false) (fun c q => enc binary64 false (dec binary32 (cube 8 c q)))
    (by
      intro c q hc hq
      have : ∀ c ∈ List.range 3, ∀ q ∈ List.range 8, sizeB binary64 (p2 300)
        (enc binary64 false (dec binary32 (cube 8 c q))) = true := by decide +kernel
      exact size_of (this c (List.mem_range.2 hc) q (List.mem_range.2 hq)))
  exact ⟨s', str, h⟩

/-- C84 without a limit on the size of the data is false: all values are finite, the bound is
1/100, and the vertex with the value 1000 comes back from the bytes as 1024.  The products with
the fill value overflow, the bound of those tetrahedra is NaN, and `MIN(NaN, b)` is `b`: the bound
of the user is forgotten. -/
theorem C84_fill_value_breaks_bound (E1 E2 : Env) :
    (∀ c q, c < 3 → q < 8 → ∃ x, dec binary32 (cube 5 c q) = .fin x) ∧
    (∃ e, dec binary64 eb100 = .fin e ∧ 0 < e ∧ e ≤ 11 / 1000) ∧
    dec binary32 (cube 5 0 0) = .fin 1000 ∧
    ∃ v bs, compressBytesAbs3 (wordCodec 4) (wordCodec 8) E1 E2
        (bitsOps binary32 (fun _ => 0) floorLog2) (lb3 floorLog2) thr3 2 2 4 32768
        (planBits3 binary32 (fun _ => 0) floorLog2 2 2 2 eb100 (fun _ => false)) (2 * 2 * 2)
        (cube 5) = some (v, bs) ∧
      ∀ m0 lb, ∃ d, decompressBytesAbs3 (wordCodec 4) (wordCodec 8)
          (bitsOps binary32 (fun _ => 0) floorLog2) lb 2 2 (2 * 2 * 2) m0 bs = some d ∧
        dec binary32 (d 0 0) = .fin 1024 := by
  refine ⟨?_, ⟨num binary64 eb100, by decide +kernel, by decide +kernel, by decide +kernel⟩,
    by decide +kernel, ?_⟩
  · intro c q hc hq
    have : ∀ c ∈ List.range 3, ∀ q ∈ List.range 8,
      sizeB binary32 (p2 127) (cube 5 c q) = true := by decide +kernel
    obtain ⟨x, hx, -⟩ := size_of (this c (List.mem_range.2 hc) q (List.mem_range.2 hq))
    exact ⟨x, hx⟩
  · obtain ⟨f, t, h1, h2, h3, h4, h5⟩ := seen3_some cube_fill_seen
    have f1 : Fits E1 (2 * 1024) t.eb :=
      fits_of_short _ _ _ (by rw [h3]; simp) (by rw [h3]; simp) (by norm_num) (by rw [h3]; simp)
    have f2 : Fits E2 (2 * 65536) t.dq :=
      fits_of_short _ _ _ (by rw [h4]; simp) (by rw [h4]; simp) (by norm_num) (by rw [h4]; simp)
    obtain ⟨bs, hbs, hd⟩ := roundtrip3 (wordCodec 4) E1 E2 h1 f1 f2 (by rw [h2]; norm_num)
    refine ⟨f.val, bs, hbs, fun m0 lb => ?_⟩
    obtain ⟨d, d1, d2⟩ := hd [] m0 lb
    rw [List.append_nil] at d1
    refine ⟨d, d1, ?_⟩
    rw [d2 0 0 (by norm_num) (by norm_num)]
    have e : num binary32 (f.val 0 0) = 1024 := by
      simp only [show List.range 8 = [0, 1, 2, 3, 4, 5, 6, 7] from rfl, List.map_cons,
        List.cons.injEq] at h5
      exact h5.1
    unfold num at e
    split at e
    · rename_i x hx; rw [hx, e]
    · norm_num at e

end CpSZ.Ieee
