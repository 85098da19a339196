import Verif.Props.Ieee3
import Verif.Props.IeeeRel
/-
Property C86: in IEEE-754 arithmetic the integers handed to the entropy coder are in its tables.
-/

namespace CpSZ.Ieee
open CpSZ.Online2D

/-- The integers of the two index arrays are below the sizes of the tables that the compressors
pass to `Huffman_encode_tree_and_data`, 2*1024 and 2*65536
(src/sz_compress_cp_preserve_2d.cpp L707-709, L1235-1237,
src/sz_compress_cp_preserve_3d.cpp L1467-1470). -/
def InTables (eb dq : List Int) : Prop :=
  (∀ x ∈ eb, 0 ≤ x ∧ x < 2 * 1024) ∧ ∀ x ∈ dq, 0 ≤ x ∧ x < 2 * 65536

theorem inTables_of {eb dq : List Int} {r : Int} (hr : r ≤ 455)
    (h : (∀ x ∈ eb, 0 ≤ x ∧ 2 * x ≤ r) ∧ ∀ x ∈ dq, 0 ≤ x ∧ x ≤ 65536) : InTables eb dq :=
  ⟨fun x hx => by have := h.1 x hx; omega, fun x hx => by have := h.2 x hx; omega⟩

section
variable (tr : Pat binary64 → Int) (lg sq : Pat binary64 → Pat binary64) (eps : ℚ)
  (hlg : LogOk lg eps) (hlb : dec binary64 (lg (enc binary64 false (.fin 4))) = .fin 2)
  (he0 : 0 ≤ eps) (he1 : eps ≤ p2 (-30))
include hlg hlb he0 he1

/-- C86, 2D absolute mode, `float` data and bound of at most `2^60`.  There is a run, and all its
integers are in the tables, whatever the conversions to `int` that C++ leaves undefined give. -/
theorem C86_abs_float (ov : Bool) (r1 r2 : Nat) (maxEb : Pat binary64) (e : ℚ)
    (hm : dec binary64 maxEb = .fin e) (hep : 0 ≤ e) (her : e ≤ p2 60)
    (m : Online2D.Field (Pat binary32))
    (hf : ∀ q, q < r1 * r2 → Size binary32 (p2 60) (m.u q) ∧ Size binary32 (p2 60) (m.v q)) :
    ∃ m' s, runAbs binary32 tr lg ov r1 r2 maxEb m = some (m', s) ∧ InTables s.eb s.dq := by
  obtain ⟨m', s, h⟩ := runAbs_defined binary32 tr lg ov r1 r2 maxEb m
  exact ⟨m', s, h, inTables_of (by norm_num) (runAbs_within ok32 (by decide) (by decide) (by decide)
    (by decide) hlg hlb he0 he1 (r := 60) (by norm_num) (by norm_num) (by decide) hm hep her hf h).2⟩

/-- C86, 2D absolute mode, `double` data and bound of at most `2^400`. -/
theorem C86_abs_double (ov : Bool) (r1 r2 : Nat) (maxEb : Pat binary64) (e : ℚ)
    (hm : dec binary64 maxEb = .fin e) (hep : 0 ≤ e) (her : e ≤ p2 400)
    (m : Online2D.Field (Pat binary64))
    (hf : ∀ q, q < r1 * r2 → Size binary64 (p2 400) (m.u q) ∧ Size binary64 (p2 400) (m.v q)) :
    ∃ m' s, runAbs binary64 tr lg ov r1 r2 maxEb m = some (m', s) ∧ InTables s.eb s.dq := by
  obtain ⟨m', s, h⟩ := runAbs_defined binary64 tr lg ov r1 r2 maxEb m
  exact ⟨m', s, h, inTables_of (by norm_num) (runAbs_within ok64 (by decide) (by decide) (by decide)
    (by decide) hlg hlb he0 he1 (r := 400) (by norm_num) (by norm_num) (by decide) hm hep her hf h).2⟩

/-- C86, 2D relative mode, `float` data of at most `2^58`, bound at most 1. -/
theorem C86_rel_float (hsq : SqrtOk sq) (ov : Bool) (r1 r2 : Nat) (maxEb : Pat binary64) (e : ℚ)
    (hm : dec binary64 maxEb = .fin e) (hep : 0 ≤ e) (her : e ≤ 1)
    (m : Online2D.Field (Pat binary32))
    (hf : ∀ q, q < r1 * r2 → Size binary32 (p2 58) (m.u q) ∧ Size binary32 (p2 58) (m.v q)) :
    ∃ m' s, runRel binary32 tr lg sq ov r1 r2 maxEb m = some (m', s) ∧ InTables s.eb s.dq := by
  obtain ⟨m', s, h⟩ := runRel_defined binary32 tr lg sq ov r1 r2 maxEb m
  exact ⟨m', s, h, inTables_of (by norm_num) (runRel_within ok32 (by decide) (by decide) (by decide)
    (by decide) coef32 hlg hsq hlb he0 he1 (r := 58) (by norm_num) (by norm_num) (by decide) hm hep
    her hf (slackRel32 he1) zero_le_one h).2⟩

/-- C86, 2D relative mode, `double` data of at most `2^248`, bound at most 1. -/
theorem C86_rel_double (hsq : SqrtOk sq) (ov : Bool) (r1 r2 : Nat) (maxEb : Pat binary64) (e : ℚ)
    (hm : dec binary64 maxEb = .fin e) (hep : 0 ≤ e) (her : e ≤ 1)
    (m : Online2D.Field (Pat binary64))
    (hf : ∀ q, q < r1 * r2 → Size binary64 (p2 248) (m.u q) ∧ Size binary64 (p2 248) (m.v q)) :
    ∃ m' s, runRel binary64 tr lg sq ov r1 r2 maxEb m = some (m', s) ∧ InTables s.eb s.dq := by
  obtain ⟨m', s, h⟩ := runRel_defined binary64 tr lg sq ov r1 r2 maxEb m
  have h52 := p2_pos (-52)
  exact ⟨m', s, h, inTables_of (by norm_num) (runRel_within ok64 (by decide) (by decide) (by decide)
    (by decide) coef64 hlg hsq hlb he0 he1 (r := 248) (by norm_num) (by norm_num) (by decide) hm hep
    her hf (slackRel64 he1) (by linarith) h).2⟩

/-- C86, 3D absolute mode, `float` data and bound of at most `2^38`. -/
theorem C86_abs3_float (E : Env) (r1 r2 r3 : Nat) (maxEb : Pat binary64) (e : ℚ)
    (hm : dec binary64 maxEb = .fin e) (hep : 0 ≤ e) (her : e ≤ p2 38) (cp : Nat → Bool)
    (data : VMode.Arr (Pat binary32))
    (hf : ∀ c q, c < 3 → q < r1 * r2 * r3 → Size binary32 (p2 38) (data c q)) :
    ∃ s' str, runAbs3 binary32 tr lg r1 r2 r3 maxEb cp data = some (s', str) ∧
      InTables str.eb str.dq := by
  obtain ⟨s', str, h, hc, -⟩ := abs3_bytes (F := binary32) ok32 (by decide) (by decide) (by decide)
    (by decide) (wordCodec 4) (tr := tr) hlg hlb he0 he1 (r := 38) (by norm_num) (by norm_num)
    (by decide) E E r1 r2 r3 maxEb hm hep her cp data hf
  exact ⟨s', str, h, inTables_of (by norm_num) hc⟩

/-- C86, 3D absolute mode, `double` data and bound of at most `2^300`. -/
theorem C86_abs3_double (E : Env) (r1 r2 r3 : Nat) (maxEb : Pat binary64) (e : ℚ)
    (hm : dec binary64 maxEb = .fin e) (hep : 0 ≤ e) (her : e ≤ p2 300) (cp : Nat → Bool)
    (data : VMode.Arr (Pat binary64))
    (hf : ∀ c q, c < 3 → q < r1 * r2 * r3 → Size binary64 (p2 300) (data c q)) :
    ∃ s' str, runAbs3 binary64 tr lg r1 r2 r3 maxEb cp data = some (s', str) ∧
      InTables str.eb str.dq := by
  obtain ⟨s', str, h, hc, -⟩ := abs3_bytes (F := binary64) ok64 (by decide) (by decide) (by decide)
    (by decide) (wordCodec 8) (tr := tr) hlg hlb he0 he1 (r := 300) (by norm_num) (by norm_num)
    (by decide) E E r1 r2 r3 maxEb hm hep her cp data hf
  exact ⟨s', str, h, inTables_of (by norm_num) hc⟩

end

/-- The hypotheses are met by `mild`; the codes are those of `mild_seen`. -/
example (ov : Bool) : ∃ m' s,
    runAbs binary32 (fun _ => 0) floorLog2 ov 2 2 eb100 mild = some (m', s) ∧
      InTables s.eb s.dq ∧ s.eb = [22, 22, 22, 22, 22, 22, 22, 22] := by
  obtain ⟨m', s, h, hc⟩ := C86_abs_float (fun _ => 0) floorLog2 0 (floorLog2_ok (le_refl 0))
    floorLog2_four (le_refl 0) (p2_pos _).le ov 2 2 eb100 (num binary64 eb100) (by decide +kernel)
    (by decide +kernel) (by decide +kernel) mild (by
      intro q hq
      have : ∀ q ∈ [0, 1, 2, 3], sizeB binary32 (p2 60) (mild.u q) = true ∧
        sizeB binary32 (p2 60) (mild.v q) = true := by decide +kernel
      obtain ⟨a, b⟩ := this q (by simp; omega)
      exact ⟨size_of a, size_of b⟩)
  obtain ⟨f, t, h1, -, h3, -, -⟩ := seen_some (mild_seen ov)
  rw [h1] at h
  simp only [Option.some.injEq, Prod.mk.injEq] at h
  obtain ⟨rfl, rfl⟩ := h
  exact ⟨f, t, h1, hc, h3⟩

/-- Four vertices, a missing value in the last one. -/
def lastFill : Online2D.Field (Pat binary32) :=
  ⟨fun q => [f32 1000, f32 1100, f32 (-800), f32 1100].getD q 0,
   fun q => [f32 700, f32 1100, f32 600, fill32].getD q 0⟩

theorem lastFill_seen (ov : Bool) :
    (runAbs binary32 (fun _ => 5000) floorLog2 ov 2 2 eb100 lastFill).map (fun r => r.2.eb) =
    some [0, 0, 0, 0, 0, 0, 5000, 5000] := by
  cases ov <;> decide +kernel

/-- Without the limit on the size the claim is false: all values are finite, one is the value for
missing data.  The bound of one triangle is NaN and that of the next one infinite, so the code of
the bound is what the undefined conversion of infinity to `int` gives; here 5000, with which the
compressor writes outside its table (the model has no result). -/
theorem C86_fill_value_leaves_table (ov : Bool) (E1 E2 : Env) :
    (∀ q, q < 4 → (∃ x, dec binary32 (lastFill.u q) = .fin x) ∧
      ∃ x, dec binary32 (lastFill.v q) = .fin x) ∧
    (∃ m' s, runAbs binary32 (fun _ => 5000) floorLog2 ov 2 2 eb100 lastFill = some (m', s) ∧
      ¬ InTables s.eb s.dq) ∧
    compressBytes (bitsOps binary32 (fun _ => 5000) floorLog2) (wordCodec 4) (wordCodec 8) E1 E2
      (parBits floorLog2) 2 2 (fun a _ => a) (boundAbsT (bitsOps binary32 (fun _ => 5000) floorLog2)
        (bitsE binary32 (fun _ => 5000) floorLog2 ov) 2 2 eb100) lastFill = none := by
  obtain ⟨⟨m', s⟩, hr, h1⟩ := Option.map_eq_some_iff.1 (lastFill_seen ov)
  simp only at h1
  refine ⟨?_, ⟨m', s, hr, fun hc => ?_⟩, ?_⟩
  · intro q hq
    have : ∀ q ∈ [0, 1, 2, 3], sizeB binary32 (p2 127) (lastFill.u q) = true ∧
        sizeB binary32 (p2 127) (lastFill.v q) = true := by decide +kernel
    obtain ⟨a, b⟩ := this q (by simp; omega)
    obtain ⟨x, hx, -⟩ := size_of a
    obtain ⟨y, hy, -⟩ := size_of b
    exact ⟨⟨x, hx⟩, ⟨y, hy⟩⟩
  · have := hc.1 5000 (by rw [h1]; simp)
    omega
  · unfold compressBytes
    unfold runAbs at hr
    rw [hr]
    have he : encInts E1 (2 * 1024) s.eb = none := by
      rw [h1]
      unfold encInts
      simp [toSyms, Huff.huffEncode, Huff.initHuff, Huff.buildTree]
    simp only [serialize, he]

end CpSZ.Ieee
