import Verif.Ieee.Sz3Run
import Verif.Props.IeeeCP
/-
Property C90: the interpolation based mode in IEEE-754 arithmetic, from bytes to bytes.

With data of moderate size every component comes back within the bound of the user up to a factor
that is spelled out, and the vertices of every triangle with a critical point come back bit for
bit (`C90_float`, `C90_double`).  The bound itself can be exceeded (`C90_exceeds`).
-/

namespace CpSZ.Ieee
open CpSZ.Sz3

section
variable {F : Fmt} {trT : Pat F → Int} {tr : Pat binary64 → Int}
  {lg : Pat binary64 → Pat binary64} {eps : ℚ}

theorem slackN_nonneg (F : Fmt) (hp : 2 ≤ F.p) (he0 : 0 ≤ eps) : 0 ≤ slackN F eps := by
  have h1 := p2_pos (-53)
  exact div_nonneg (mul_nonneg (by linarith) (by linarith)) (gap_pos F hp).le

theorem slackN32 (he1 : eps ≤ p2 (-30)) : slackN binary32 eps ≤ 1 + p2 (-22) := by
  unfold slackN
  rw [div_le_iff₀ (gap_pos _ (by decide))]
  have h1 := mul_le_mul_of_nonneg_right he1 (show 0 ≤ 1 + p2 (-53) by
    have := p2_pos (-53); linarith)
  have h2 : (1 + p2 (-30)) * (1 + p2 (-53)) ≤ (1 + p2 (-22)) * (1 - p2 (-((24 : Nat) : Int))) := by
    decide +kernel
  have h3 : (1 - p2 (-(binary32.p : Int))) = (1 - p2 (-((24 : Nat) : Int))) := rfl
  rw [h3]
  linarith

theorem slackN64 (he1 : eps ≤ p2 (-30)) : slackN binary64 eps ≤ 1 + p2 (-29) := by
  unfold slackN
  rw [div_le_iff₀ (gap_pos _ (by decide))]
  have h1 := mul_le_mul_of_nonneg_right he1 (show 0 ≤ 1 + p2 (-53) by
    have := p2_pos (-53); linarith)
  have h2 : (1 + p2 (-30)) * (1 + p2 (-53)) ≤ (1 + p2 (-29)) * (1 - p2 (-((53 : Nat) : Int))) := by
    decide +kernel
  have h3 : (1 - p2 (-(binary64.p : Int))) = (1 - p2 (-((53 : Nat) : Int))) := rfl
  rw [h3]
  linarith

theorem codes_of_good {r : Int} {cs : List (Code (Pat F))} (h : ∀ c ∈ cs, GoodCode r c) :
    (∀ x ∈ (streams cs).eb, 0 ≤ x ∧ 2 * x ≤ r + 54) ∧ ∀ x ∈ (streams cs).dq, 0 ≤ x ∧ x < 65536 := by
  constructor
  · intro x hx
    obtain ⟨c, hc, rfl⟩ := List.mem_map.1 hx
    exact (h c hc).1
  · intro x hx
    obtain ⟨c, hc, hx⟩ := List.mem_flatMap.1 hx
    simp only [List.mem_cons, List.not_mem_nil, or_false] at hx
    rcases hx with rfl | rfl
    · exact (h c hc).2.1
    · exact (h c hc).2.2.1

/-- Both formats: the run, and the bytes when the entropy coder can represent the codes. -/
theorem sz3_bytes (hF : F.Ok) (hp5 : 5 ≤ F.p) (hp : F.p ≤ binary64.p) (hu : binary64.umin ≤ F.umin)
    (he : F.emax ≤ binary64.emax) (hemin : F.emin ≤ -52) (hlg : LogOk lg eps)
    (hlb : dec binary64 (lg (enc binary64 false (.fin 4))) = .fin 2) (he0 : 0 ≤ eps)
    (he1 : eps ≤ p2 (-30)) {ov : Bool} {r : Int} (h0 : 0 ≤ r) (h1 : r ≤ 400)
    (h2 : r + r + 7 ≤ F.emax) (h3 : r + 10 ≤ F.emax) (c : Codec (Pat F)) (E1 E2 : Env) {r1 r2 : Nat}
    (hn : 1 + c.size + 4 < r1 * r2 * c.size) (hn2 : r1 * r2 < 2 ^ 59) {maxEb : Pat binary64}
    {e B : ℚ} (hm : dec binary64 maxEb = .fin e) (hep : 0 ≤ e) (her : e ≤ p2 r)
    (hsl : slackN F eps ≤ B) (hB : B ≤ 2) {m : Online2D.Field (Pat F)}
    (hf : ∀ q, q < r1 * r2 → Size F (p2 r) (m.u q) ∧ Size F (p2 r) (m.v q)) :
    ∃ m' s, runSz3 F trT tr lg ov r1 r2 maxEb m = some (m', s) ∧
      s.eb.length = r1 * r2 ∧ s.dq.length = 2 * (r1 * r2) ∧
      (∀ x ∈ s.eb, 0 ≤ x ∧ 2 * x ≤ r + 54) ∧ (∀ x ∈ s.dq, 0 ≤ x ∧ x < 65536) ∧
      (Fits E1 (2 * 1024) s.eb → Fits E2 (2 * 65536) s.dq →
        ∃ bs, compressBytes (sz3Bits F trT tr lg) c (wordCodec 8) E1 E2 (sz3Par lg maxEb) r1 r2
            (sz3Bound F tr lg ov r1 r2) m = some (m', bs) ∧
          ∀ rest m0, ∃ d, decompressBytes (sz3Bits F trT tr lg) c (wordCodec 8) r1 r2 m0
              (bs ++ rest) = some d ∧
            (∀ q, q < r1 * r2 → d.u q = m'.u q ∧ d.v q = m'.v q) ∧
            (∀ q, q < r1 * r2 → Within F (B * e) (d.u q) (m.u q) ∧
              Within F (B * e) (d.v q) (m.v q)) ∧
            ∀ t : Tri, t.inGrid r1 r2 → t.hasCP r2 (realField (dec F) m) →
              SameAt r2 t d m ∧ t.hasCP r2 (realField (dec F) d)) := by
  have hpos : 0 < r1 * r2 := by
    rcases Nat.eq_zero_or_pos (r1 * r2) with h | h
    · rw [h] at hn; omega
    · exact h
  have hr1 : 0 < r1 := Nat.pos_of_mul_pos_right hpos
  have hr2 : 0 < r2 := Nat.pos_of_mul_pos_left hpos
  obtain ⟨m', cs, hall, hrun, hI, hc⟩ := runSz3_inv (trT := trT) (tr := tr) hF hp5 hp hu he hemin
    hlg hlb he0 he1 (ov := ov) h0 h1 h2 h3 hr1 hr2 hm hep her (hsl.trans hB) hf
  obtain ⟨l1, l2, l3⟩ := compress_lengths hr1 hr2 hrun
  obtain ⟨k1, k2⟩ := codes_of_good hc
  refine ⟨m', streams cs, hrun, l1, l2, k1, k2, fun f1 f2 => ?_⟩
  obtain ⟨bs, hs, hpar⟩ := serialize_parse c (wordCodec 8) E1 E2 (sz3Par lg maxEb) (streams cs)
    (r1 * r2) l1 l2 hn (by omega) ⟨show (0 : Int) ≤ 4 by decide, show (4 : Int) < 2 ^ 31 by decide⟩
    ⟨show (0 : Int) ≤ 65536 by decide, show (65536 : Int) < 2 ^ 31 by decide⟩ f1 f2
  refine ⟨bs, compressBytes_of hrun hs, fun rest m0 => ?_⟩
  obtain ⟨d, hd, hA⟩ := lockstep_tidy (S := sz3Bits F trT tr lg) (P := sz3Par lg maxEb)
    (by dsimp only [sz3Bits]; exact conv_zero hF) (r1 * r2) (sz3Bound F tr lg ov r1 r2) _ _ m m' m0 cs (plan_causal hr1 hr2)
    (fun q hq => hq.elim) hall (fun c hcs => (hc c hcs).2.2.2)
  have same : ∀ q, q < r1 * r2 → d.u q = m'.u q ∧ d.v q = m'.v q := by
    intro q hq
    have := hA q (Or.inr ((plan_perm hr1 hr2).mem_iff.2 (List.mem_range.2 hq)))
    exact ⟨this.1.symm, this.2.symm⟩
  have hs0 := mul_nonneg (slackN_nonneg F hF.p2 he0) hep
  have hs1 : slackN F eps * e ≤ B * e := mul_le_mul_of_nonneg_right hsl hep
  refine ⟨d, ?_, same, fun q hq => ?_, fun t ht hcp => ?_⟩
  · exact decompressBytes_of (hpar rest) hd
  · rw [(same q hq).1, (same q hq).2]
    exact ⟨(within_of_cl hs0 (hf q hq).1 (hI.close q).1).mono hs1,
      (within_of_cl hs0 (hf q hq).2 (hI.close q).2).mono hs1⟩
  · have key : SameAt r2 t d m := by
      intro Q hQ
      obtain ⟨e1, e2⟩ := same _ (verts_lt ht hQ)
      rw [e1, e2]
      exact hI.keep t ht hcp Q hQ
    exact ⟨key, key.hasCP hcp⟩

end

/-- C90, `float`.  Data (finite, at most `2^60`, at least 3 and fewer than `2^59` vertices) and
bound of the user are bit patterns; the code computes with IEEE-754 arithmetic, `log2` is accurate
to `2^-30` (and exact for 4), the conversions to `int` that C++ leaves undefined give anything.  If
no code word of the data codes is longer than 64 bits, the compressor produces a stream, and
whatever the decompressor finds behind it, every component it returns is a number within
`1 + 2^-22` times the bound, and the vertices of every triangle with a critical point come back bit
for bit. -/
theorem C90_float (trT : Pat binary32 → Int) (tr : Pat binary64 → Int)
    (lg : Pat binary64 → Pat binary64) (eps : ℚ) (hlg : LogOk lg eps)
    (hlb : dec binary64 (lg (enc binary64 false (.fin 4))) = .fin 2) (he0 : 0 ≤ eps)
    (he1 : eps ≤ p2 (-30)) (ov : Bool) (E1 E2 : Env) (r1 r2 : Nat) (hn : 3 ≤ r1 * r2)
    (hn2 : r1 * r2 < 2 ^ 59) (maxEb : Pat binary64) (e : ℚ) (hm : dec binary64 maxEb = .fin e)
    (hep : 0 ≤ e) (her : e ≤ p2 60) (m : Online2D.Field (Pat binary32))
    (hf : ∀ q, q < r1 * r2 → Size binary32 (p2 60) (m.u q) ∧ Size binary32 (p2 60) (m.v q)) :
    ∃ m' s, runSz3 binary32 trT tr lg ov r1 r2 maxEb m = some (m', s) ∧
      (Shallow E2 (2 * 65536) s.dq →
        ∃ bs, compressBytes (sz3Bits binary32 trT tr lg) (wordCodec 4) (wordCodec 8) E1 E2
            (sz3Par lg maxEb) r1 r2 (sz3Bound binary32 tr lg ov r1 r2) m = some (m', bs) ∧
          ∀ rest m0, ∃ d, decompressBytes (sz3Bits binary32 trT tr lg) (wordCodec 4) (wordCodec 8)
              r1 r2 m0 (bs ++ rest) = some d ∧
            (∀ q, q < r1 * r2 → Within binary32 ((1 + p2 (-22)) * e) (d.u q) (m.u q) ∧
              Within binary32 ((1 + p2 (-22)) * e) (d.v q) (m.v q)) ∧
            ∀ t : Tri, t.inGrid r1 r2 → t.hasCP r2 (realField (dec binary32) m) →
              SameAt r2 t d m ∧ t.hasCP r2 (realField (dec binary32) d)) := by
  obtain ⟨m', s, hrun, l1, l2, k1, k2, hb⟩ := sz3_bytes (trT := trT) (tr := tr) ok32 (by decide)
    (by decide) (by decide) (by decide) (by decide) hlg hlb he0 he1 (ov := ov) (r := 60)
    (by norm_num) (by norm_num) (by decide) (by decide) (wordCodec 4) E1 E2 (r1 := r1) (r2 := r2)
    (by change 1 + 4 + 4 < r1 * r2 * 4; omega) hn2 hm hep her (slackN32 he1)
    (by decide +kernel) hf
  refine ⟨m', s, hrun, fun h2 => ?_⟩
  have f1 : Fits E1 (2 * 1024) s.eb := fits_of_low (ne_nil_of_length (by omega)) (by omega) (by norm_num) (by norm_num)
      (fun x hx => by have := k1 x hx; omega)
  have f2 : Fits E2 (2 * 65536) s.dq := fits_of_range (ne_nil_of_length (by omega)) (by omega) (by norm_num)
      (fun x hx => by have := k2 x hx; push_cast; omega) h2
  obtain ⟨bs, b1, b2⟩ := hb f1 f2
  refine ⟨bs, b1, fun rest m0 => ?_⟩
  obtain ⟨d, d1, -, d2⟩ := b2 rest m0
  exact ⟨d, d1, d2⟩

/-- C90, `double`: as above for data of at most `2^400`, at least 2 vertices, and the factor
`1 + 2^-29`. -/
theorem C90_double (trT : Pat binary64 → Int) (tr : Pat binary64 → Int)
    (lg : Pat binary64 → Pat binary64) (eps : ℚ) (hlg : LogOk lg eps)
    (hlb : dec binary64 (lg (enc binary64 false (.fin 4))) = .fin 2) (he0 : 0 ≤ eps)
    (he1 : eps ≤ p2 (-30)) (ov : Bool) (E1 E2 : Env) (r1 r2 : Nat) (hn : 2 ≤ r1 * r2)
    (hn2 : r1 * r2 < 2 ^ 59) (maxEb : Pat binary64) (e : ℚ) (hm : dec binary64 maxEb = .fin e)
    (hep : 0 ≤ e) (her : e ≤ p2 400) (m : Online2D.Field (Pat binary64))
    (hf : ∀ q, q < r1 * r2 → Size binary64 (p2 400) (m.u q) ∧ Size binary64 (p2 400) (m.v q)) :
    ∃ m' s, runSz3 binary64 trT tr lg ov r1 r2 maxEb m = some (m', s) ∧
      (Shallow E1 (2 * 1024) s.eb → Shallow E2 (2 * 65536) s.dq →
        ∃ bs, compressBytes (sz3Bits binary64 trT tr lg) (wordCodec 8) (wordCodec 8) E1 E2
            (sz3Par lg maxEb) r1 r2 (sz3Bound binary64 tr lg ov r1 r2) m = some (m', bs) ∧
          ∀ rest m0, ∃ d, decompressBytes (sz3Bits binary64 trT tr lg) (wordCodec 8) (wordCodec 8)
              r1 r2 m0 (bs ++ rest) = some d ∧
            (∀ q, q < r1 * r2 → Within binary64 ((1 + p2 (-29)) * e) (d.u q) (m.u q) ∧
              Within binary64 ((1 + p2 (-29)) * e) (d.v q) (m.v q)) ∧
            ∀ t : Tri, t.inGrid r1 r2 → t.hasCP r2 (realField (dec binary64) m) →
              SameAt r2 t d m ∧ t.hasCP r2 (realField (dec binary64) d)) := by
  obtain ⟨m', s, hrun, l1, l2, k1, k2, hb⟩ := sz3_bytes (trT := trT) (tr := tr) ok64 (by decide)
    (by decide) (by decide) (by decide) (by decide) hlg hlb he0 he1 (ov := ov) (r := 400)
    (by norm_num) (by norm_num) (by decide) (by decide) (wordCodec 8) E1 E2 (r1 := r1) (r2 := r2)
    (by change 1 + 8 + 4 < r1 * r2 * 8; omega) hn2 hm hep her (slackN64 he1)
    (by decide +kernel) hf
  refine ⟨m', s, hrun, fun h1 h2 => ?_⟩
  have f1 : Fits E1 (2 * 1024) s.eb := fits_of_range (ne_nil_of_length (by omega)) (by omega) (by norm_num)
      (fun x hx => by have := k1 x hx; push_cast; omega) h1
  have f2 : Fits E2 (2 * 65536) s.dq := fits_of_range (ne_nil_of_length (by omega)) (by omega) (by norm_num)
      (fun x hx => by have := k2 x hx; push_cast; omega) h2
  obtain ⟨bs, b1, b2⟩ := hb f1 f2
  refine ⟨bs, b1, fun rest m0 => ?_⟩
  obtain ⟨d, d1, -, d2⟩ := b2 rest m0
  exact ⟨d, d1, d2⟩

/-! ### Examples and witness -/

/-- The run on 2×2 vertices, with the order of the vertices spelled out. -/
theorem run22 (ov : Bool) (maxEb : Pat binary64) (m : Online2D.Field (Pat binary32)) :
    runSz3 binary32 (fun _ => 0) (fun _ => 0) floorLog2 ov 2 2 maxEb m =
    match encAll (sz3Bits binary32 (fun _ => 0) (fun _ => 0) floorLog2) (sz3Par floorLog2 maxEb) 4
      (sz3Bound binary32 (fun _ => 0) floorLog2 ov 2 2)
      [⟨0, 0, 0, 0, .zero, true⟩, ⟨2, 1, 0, 2, .left, false⟩, ⟨1, 0, 1, 1, .left, false⟩,
        ⟨3, 1, 1, 1, .left, false⟩] m with
    | none => none
    | some (f, cs) => some (f, streams cs) := by
  unfold runSz3 compress
  rw [plan22]
  rfl

/-- Observations of a run on 2×2 vertices: number of values stored verbatim, indices, both
reconstructed components. -/
def seenN (r : Option (Online2D.Field (Pat binary32) × Sz3.Streams (Pat binary32))) :
    Option (Nat × List Int × List Int × List ℚ × List ℚ) :=
  r.map fun (f, s) => (s.un.length, s.eb, s.dq, [0, 1, 2, 3].map fun q => num binary32 (f.u q),
    [0, 1, 2, 3].map fun q => num binary32 (f.v q))

/-- Vertex 2 is `2^-30` away from 0, its prediction is 1. -/
def offField : Online2D.Field (Pat binary32) :=
  ⟨fun q => [f32 1, f32 (-5), f32 (1 / 2 ^ 30), f32 7].getD q 0, fun q => [f32 1000, f32 1100, f32 1300, f32 900].getD q 0⟩

/-- The bound 1. -/
def ebOne : Pat binary64 := enc binary64 false (.fin 1)

theorem seenN_some {r : Option (Online2D.Field (Pat binary32) × Sz3.Streams (Pat binary32))}
    {k a b l l'} (h : seenN r = some (k, a, b, l, l')) :
    ∃ f s, r = some (f, s) ∧ s.un.length = k ∧ s.eb = a ∧ s.dq = b ∧
      ([0, 1, 2, 3].map fun q => num binary32 (f.u q)) = l ∧
      ([0, 1, 2, 3].map fun q => num binary32 (f.v q)) = l' := by
  unfold seenN at h
  obtain ⟨⟨f, s⟩, hr, h1⟩ := Option.map_eq_some_iff.1 h
  simp only [Prod.mk.injEq] at h1
  exact ⟨f, s, hr, h1.1, h1.2.1, h1.2.2.1, h1.2.2.2.1, h1.2.2.2.2⟩

theorem off_seen (ov : Bool) :
    seenN (runSz3 binary32 (fun _ => 0) (fun _ => 0) floorLog2 ov 2 2 ebOne offField) =
    some (6, [0, 26, 0, 0], [0, 0, 32767, 32918, 0, 0, 0, 0], [1, -5, -1, 7],
      [1000, 1100, 1300, 900]) := by
  rw [run22]
  cases ov <;> decide +kernel

theorem mildN_seen (ov : Bool) :
    seenN (runSz3 binary32 (fun _ => 0) (fun _ => 0) floorLog2 ov 2 2 eb100 mild) =
    some (0, [22, 22, 22, 22], [45581, 45594, 34125, 35366, 31513, 32793, 31513, 28941],
      [12813 / 128, 5779 / 64, 7085 / 64, 12915 / 128],
      [6413 / 64, 12851 / 128, 241 / 2, 11597 / 128]) := by
  rw [run22]
  cases ov <;> decide +kernel

theorem oneCPN_seen (ov : Bool) :
    seenN (runSz3 binary32 (fun _ => 0) (fun _ => 0) floorLog2 ov 2 2 eb100 oneCP) =
    some (6, [0, 22, 0, 0], [0, 0, 33673, 32964, 0, 0, 0, 0],
      [6501171 / 2097152, -5976883 / 1048576, 5332173 / 524288, 5452595 / 4194304],
      [9227469 / 4194304, 7130317 / 4194304, 15649997 / 4194304, -5033165 / 1048576]) := by
  rw [run22]
  cases ov <;> decide +kernel

theorem lostN_seen (ov : Bool) :
    seenN (runSz3 binary32 (fun _ => 0) (fun _ => 0) floorLog2 ov 2 2 eb100 lostField) =
    some (4, [30, 0, 22, 0], [32770, 32770, 0, 0, 16896, 29696, 0, 0],
      [1024, 900, -2 ^ 120, 1000],
      [1024, 1000, -1335874129425587451127179088098230272, 900]) := by
  rw [run22]
  cases ov <;> decide +kernel

theorem madeN_seen (ov : Bool) :
    seenN (runSz3 binary32 (fun _ => 0) (fun _ => 0) floorLog2 ov 2 2 ebBig madeField) =
    some (6, [0, 0, 36, 0], [0, 0, 0, 0, 32758, 32761, 0, 0],
      [13627137, -7344383, 13627137, 13627136], [9538996, -5141068, 9538996, 9538995]) := by
  rw [run22]
  cases ov <;> decide +kernel

theorem size4 {m : Online2D.Field (Pat binary32)} {e : ℚ}
    (h : ∀ q ∈ [0, 1, 2, 3], sizeB binary32 e (m.u q) = true ∧ sizeB binary32 e (m.v q) = true) :
    ∀ q, q < 2 * 2 → Size binary32 e (m.u q) ∧ Size binary32 e (m.v q) := by
  intro q hq
  obtain ⟨a, b⟩ := h q (by simp; omega)
  exact ⟨size_of a, size_of b⟩

/-- From a run of moderate data on 2×2 vertices whose observations are known to the bytes. -/
theorem bytesN_of_seen {ov : Bool} {E1 E2 : Env} {maxEb : Pat binary64} {e : ℚ}
    (hm : dec binary64 maxEb = .fin e) (hep : 0 ≤ e) (her : e ≤ p2 60)
    {m : Online2D.Field (Pat binary32)}
    (hf : ∀ q, q < 2 * 2 → Size binary32 (p2 60) (m.u q) ∧ Size binary32 (p2 60) (m.v q))
    {k a b l l'} (h : seenN (runSz3 binary32 (fun _ => 0) (fun _ => 0) floorLog2 ov 2 2 maxEb m) =
      some (k, a, b, l, l')) :
    ∃ m' bs, compressBytes (sz3Bits binary32 (fun _ => 0) (fun _ => 0) floorLog2) (wordCodec 4)
        (wordCodec 8) E1 E2 (sz3Par floorLog2 maxEb) 2 2
        (sz3Bound binary32 (fun _ => 0) floorLog2 ov 2 2) m = some (m', bs) ∧
      ∀ m0, ∃ d, decompressBytes (sz3Bits binary32 (fun _ => 0) (fun _ => 0) floorLog2)
          (wordCodec 4) (wordCodec 8) 2 2 m0 bs = some d ∧
        ([0, 1, 2, 3].map fun q => num binary32 (d.u q)) = l ∧
        ([0, 1, 2, 3].map fun q => num binary32 (d.v q)) = l' := by
  obtain ⟨f, t, h1, h2, rfl, rfl, h5, h6⟩ := seenN_some h
  obtain ⟨m', s, hrun, l1, l2, k1, k2, hb⟩ := sz3_bytes (trT := fun _ => 0) (tr := fun _ => 0)
    ok32 (by decide) (by decide) (by decide) (by decide) (by decide)
    (floorLog2_ok (eps := 0) (le_refl 0)) floorLog2_four (le_refl 0) (p2_pos _).le (ov := ov)
    (r := 60) (by norm_num) (by norm_num) (by decide) (by decide) (wordCodec 4) E1 E2 (r1 := 2)
    (r2 := 2) (by decide) (by norm_num) hm hep her (slackN32 (p2_pos _).le) (by decide +kernel) hf
  rw [h1] at hrun
  simp only [Option.some.injEq, Prod.mk.injEq] at hrun
  obtain ⟨rfl, rfl⟩ := hrun
  obtain ⟨bs, b1, b2⟩ := hb
    (fits_of_low (ne_nil_of_length (by omega)) (by omega) (by norm_num) (by norm_num)
      (fun x hx => by have := k1 x hx; omega))
    (fits_of_short _ _ _ (ne_nil_of_length (by omega)) (by omega) (by norm_num)
      (fun x hx => by have := k2 x hx; push_cast; omega))
  refine ⟨f, bs, b1, fun m0 => ?_⟩
  obtain ⟨d, d1, d2, -⟩ := b2 [] m0
  rw [List.append_nil] at d1
  have e0 := d2 0 (by norm_num)
  have e1 := d2 1 (by norm_num)
  have e2 := d2 2 (by norm_num)
  have e3 := d2 3 (by norm_num)
  refine ⟨d, d1, ?_, ?_⟩
  · rw [← h5]; simp only [List.map_cons, List.map_nil, e0.1, e1.1, e2.1, e3.1]
  · rw [← h6]; simp only [List.map_cons, List.map_nil, e0.2, e1.2, e2.2, e3.2]

/-- The factor in C90 cannot be dropped: the bound is 1, vertex 2 is `2^-30`, and −1 comes back.
The quantiser rounds the difference to the prediction 1 and that to the reconstruction. -/
theorem C90_exceeds (ov : Bool) (E1 E2 : Env) :
    dec binary64 ebOne = .fin 1 ∧ dec binary32 (offField.u 2) = .fin (1 / 2 ^ 30) ∧
    ∃ m' bs, compressBytes (sz3Bits binary32 (fun _ => 0) (fun _ => 0) floorLog2) (wordCodec 4)
        (wordCodec 8) E1 E2 (sz3Par floorLog2 ebOne) 2 2
        (sz3Bound binary32 (fun _ => 0) floorLog2 ov 2 2) offField = some (m', bs) ∧
      ∀ m0, ∃ d, decompressBytes (sz3Bits binary32 (fun _ => 0) (fun _ => 0) floorLog2)
          (wordCodec 4) (wordCodec 8) 2 2 m0 bs = some d ∧
        num binary32 (d.u 2) = -1 ∧ ¬ Within binary32 1 (d.u 2) (offField.u 2) := by
  have hm : dec binary64 ebOne = .fin 1 := by decide +kernel
  have hc : dec binary32 (offField.u 2) = .fin (1 / 2 ^ 30) := by decide +kernel
  refine ⟨hm, hc, ?_⟩
  obtain ⟨m', bs, b1, b2⟩ := bytesN_of_seen (E1 := E1) (E2 := E2) hm (by norm_num)
    (by decide +kernel) (size4 (by decide +kernel)) (off_seen ov)
  refine ⟨m', bs, b1, fun m0 => ?_⟩
  obtain ⟨d, d1, d2, -⟩ := b2 m0
  simp only [List.map_cons, List.cons.injEq] at d2
  have h2 := d2.2.2.1
  refine ⟨d, d1, h2, ?_⟩
  rintro ⟨X, C, x1, x2, x3⟩
  rw [hc] at x2
  cases x2
  unfold num at h2
  rw [x1] at h2
  subst h2
  revert x3
  decide +kernel

/-- Critical points can be created: data below `2^24`, the upper triangle has none, and what comes
back from the bytes has one in it. -/
theorem C90_created (ov : Bool) (E1 E2 : Env) :
    (∀ q, q < 4 → Size binary32 (p2 24) (madeField.u q) ∧ Size binary32 (p2 24) (madeField.v q)) ∧
    ¬ Tri.hasCP 2 (realField (dec binary32) madeField) ⟨0, 0, true⟩ ∧
    ∃ m' bs, compressBytes (sz3Bits binary32 (fun _ => 0) (fun _ => 0) floorLog2) (wordCodec 4)
        (wordCodec 8) E1 E2 (sz3Par floorLog2 ebBig) 2 2
        (sz3Bound binary32 (fun _ => 0) floorLog2 ov 2 2) madeField = some (m', bs) ∧
      ∀ m0, ∃ d, decompressBytes (sz3Bits binary32 (fun _ => 0) (fun _ => 0) floorLog2)
          (wordCodec 4) (wordCodec 8) 2 2 m0 bs = some d ∧
        Tri.hasCP 2 (realField (dec binary32) d) ⟨0, 0, true⟩ := by
  obtain ⟨h1, h2, -⟩ := C88_created ov E1 E2
  refine ⟨h1, h2, ?_⟩
  obtain ⟨m', bs, b1, b2⟩ := bytesN_of_seen (E1 := E1) (E2 := E2) (e := 4194304)
    (by decide +kernel) (by norm_num) (by decide +kernel) (size4 (by decide +kernel))
    (madeN_seen ov)
  refine ⟨m', bs, b1, fun m0 => ?_⟩
  obtain ⟨d, d1, d2, d3⟩ := b2 m0
  refine ⟨d, d1, ?_⟩
  simp only [List.map_cons, List.map_nil, List.cons.injEq] at d2 d3
  rw [hasCP_up (num_fin d2.1 (by norm_num)) (num_fin d3.1 (by norm_num))
    (num_fin d2.2.1 (by norm_num)) (num_fin d3.2.1 (by norm_num))
    (num_fin d2.2.2.2.1 (by norm_num)) (num_fin d3.2.2.2.1 (by norm_num))]
  push_cast
  refine cp_of_minors rfl ?_ ?_ ?_ ?_ <;> norm_num

/-- Without a limit on the size of the data the working copy, from which the stream is made,
loses a critical point and is off by 24 where the bound is 1/100. -/
theorem C90_lost (ov : Bool) :
    Tri.hasCP 2 (realField (dec binary32) lostField) ⟨0, 0, false⟩ ∧
    ∃ m' s, runSz3 binary32 (fun _ => 0) (fun _ => 0) floorLog2 ov 2 2 eb100 lostField =
        some (m', s) ∧
      num binary32 (lostField.u 0) = 1000 ∧ num binary32 (m'.u 0) = 1024 ∧
      ¬ Tri.hasCP 2 (realField (dec binary32) m') ⟨0, 0, false⟩ := by
  have h1 : Tri.hasCP 2 (realField (dec binary32) lostField) ⟨0, 0, false⟩ := by
    rw [hasCP_low (x0 := 1000) (y0 := 1010) (x2 := -2 ^ 120)
      (y2 := -1335874129425587451127179088098230272) (x3 := 1000) (y3 := 900) (by decide +kernel)
      (by decide +kernel) (by decide +kernel) (by decide +kernel) (by decide +kernel)
      (by decide +kernel)]
    push_cast
    refine cp_of_minors rfl ?_ ?_ ?_ ?_ <;> norm_num
  obtain ⟨f, t, r1, -, -, -, d2, d3⟩ := seenN_some (lostN_seen ov)
  refine ⟨h1, f, t, r1, by decide +kernel, ?_, ?_⟩
  · simp only [List.map_cons, List.cons.injEq] at d2
    exact d2.1
  simp only [List.map_cons, List.map_nil, List.cons.injEq] at d2 d3
  rw [hasCP_low (num_fin d2.1 (by norm_num)) (num_fin d3.1 (by norm_num))
    (num_fin d2.2.2.1 (by norm_num)) (num_fin d3.2.2.1 (by norm_num))
    (num_fin d2.2.2.2.1 (by norm_num)) (num_fin d3.2.2.2.1 (by norm_num))]
  push_cast
  refine not_cp ?_
  norm_num

/-- The hypotheses of `C90_float` are met by `mild` with the bound 1/100: nothing is stored
verbatim, the data change, and the bytes decode to numbers within the bound up to the factor. -/
example (ov : Bool) (E1 E2 : Env) : ∃ m' s bs,
    runSz3 binary32 (fun _ => 0) (fun _ => 0) floorLog2 ov 2 2 eb100 mild = some (m', s) ∧
    s.un = [] ∧ num binary32 (m'.u 0) ≠ num binary32 (mild.u 0) ∧
    compressBytes (sz3Bits binary32 (fun _ => 0) (fun _ => 0) floorLog2) (wordCodec 4)
      (wordCodec 8) E1 E2 (sz3Par floorLog2 eb100) 2 2
      (sz3Bound binary32 (fun _ => 0) floorLog2 ov 2 2) mild = some (m', bs) ∧
    ∀ m0, ∃ d, decompressBytes (sz3Bits binary32 (fun _ => 0) (fun _ => 0) floorLog2)
        (wordCodec 4) (wordCodec 8) 2 2 m0 bs = some d ∧
      ∀ q, q < 4 → Within binary32 ((1 + p2 (-22)) * num binary64 eb100) (d.u q) (mild.u q) := by
  have hm : dec binary64 eb100 = .fin (num binary64 eb100) := by decide +kernel
  obtain ⟨m', s, h, hc⟩ := C90_float (fun _ => 0) (fun _ => 0) floorLog2 0
    (floorLog2_ok (le_refl 0)) floorLog2_four (le_refl 0) (p2_pos _).le ov E1 E2 2 2 (by norm_num)
    (by norm_num) eb100 _ hm (by decide +kernel) (by decide +kernel) mild (size4 (by decide +kernel))
  obtain ⟨f, t, h1, h2, h3, h4, h5, -⟩ := seenN_some (mildN_seen ov)
  rw [h1] at h
  simp only [Option.some.injEq, Prod.mk.injEq] at h
  obtain ⟨rfl, rfl⟩ := h
  obtain ⟨bs, b1, b2⟩ := hc
    (shallow_of_short (by rw [h4]; simp) (by rw [h4]; simp) (by norm_num) (by rw [h4]; simp))
  refine ⟨f, t, bs, h1, List.length_eq_zero_iff.1 h2, ?_, b1, fun m0 => ?_⟩
  · simp only [List.map_cons, List.cons.injEq] at h5
    rw [h5.1]
    decide +kernel
  · obtain ⟨d, d1, d2, -⟩ := b2 [] m0
    rw [List.append_nil] at d1
    exact ⟨d, d1, fun q hq => (d2 q hq).1⟩

/-- The hypotheses on critical points are met by `oneCP`: the upper triangle has one and comes back
bit for bit, while the vertex outside is coded with two codes. -/
example (ov : Bool) (E1 E2 : Env) : ∃ m' s bs,
    runSz3 binary32 (fun _ => 0) (fun _ => 0) floorLog2 ov 2 2 eb100 oneCP = some (m', s) ∧
    s.un.length = 6 ∧
    compressBytes (sz3Bits binary32 (fun _ => 0) (fun _ => 0) floorLog2) (wordCodec 4)
      (wordCodec 8) E1 E2 (sz3Par floorLog2 eb100) 2 2
      (sz3Bound binary32 (fun _ => 0) floorLog2 ov 2 2) oneCP = some (m', bs) ∧
    ∀ m0, ∃ d, decompressBytes (sz3Bits binary32 (fun _ => 0) (fun _ => 0) floorLog2)
        (wordCodec 4) (wordCodec 8) 2 2 m0 bs = some d ∧ SameAt 2 ⟨0, 0, true⟩ d oneCP := by
  have hm : dec binary64 eb100 = .fin (num binary64 eb100) := by decide +kernel
  have hcp : Tri.hasCP 2 (realField (dec binary32) oneCP) ⟨0, 0, true⟩ := by
    rw [hasCP_up (x0 := 6501171 / 2097152) (y0 := 9227469 / 4194304) (x1 := -5976883 / 1048576)
      (y1 := 7130317 / 4194304) (x3 := 5452595 / 4194304) (y3 := -5033165 / 1048576)
      (by decide +kernel) (by decide +kernel) (by decide +kernel) (by decide +kernel)
      (by decide +kernel) (by decide +kernel)]
    push_cast
    refine cp_of_minors rfl ?_ ?_ ?_ ?_ <;> norm_num
  obtain ⟨m', s, h, hc⟩ := C90_float (fun _ => 0) (fun _ => 0) floorLog2 0
    (floorLog2_ok (le_refl 0)) floorLog2_four (le_refl 0) (p2_pos _).le ov E1 E2 2 2 (by norm_num)
    (by norm_num) eb100 _ hm (by decide +kernel) (by decide +kernel) oneCP
    (size4 (by decide +kernel))
  obtain ⟨f, t, h1, h2, h3, h4, -⟩ := seenN_some (oneCPN_seen ov)
  rw [h1] at h
  simp only [Option.some.injEq, Prod.mk.injEq] at h
  obtain ⟨rfl, rfl⟩ := h
  obtain ⟨bs, b1, b2⟩ := hc
    (shallow_of_short (by rw [h4]; simp) (by rw [h4]; simp) (by norm_num) (by rw [h4]; simp))
  refine ⟨f, t, bs, h1, h2, b1, fun m0 => ?_⟩
  obtain ⟨d, d1, -, d2⟩ := b2 [] m0
  rw [List.append_nil] at d1
  exact ⟨d, d1, (d2 ⟨0, 0, true⟩ ⟨by decide, by decide⟩ hcp).1⟩

/-- The hypotheses of `C90_double` are met by the same numbers. -/
example (ov : Bool) (E1 E2 : Env) : ∃ m' s,
    runSz3 binary64 (fun _ => 0) (fun _ => 0) floorLog2 ov 2 2 eb100
      ⟨fun q => enc binary64 false (dec binary32 (oneCP.u q)),
       fun q => enc binary64 false (dec binary32 (oneCP.v q))⟩ = some (m', s) := by
  have hm : dec binary64 eb100 = .fin (num binary64 eb100) := by decide +kernel
  obtain ⟨m', s, h, -⟩ := C90_double (fun _ => 0) (fun _ => 0) floorLog2 0
    (floorLog2_ok (le_refl 0)) floorLog2_four (le_refl 0) (p2_pos _).le ov E1 E2 2 2 (by norm_num)
    (by norm_num) eb100 _ hm (by decide +kernel) (by decide +kernel)
    ⟨fun q => enc binary64 false (dec binary32 (oneCP.u q)),
       fun q => enc binary64 false (dec binary32 (oneCP.v q))⟩ (by
      intro q hq
      have : ∀ q ∈ [0, 1, 2, 3],
        sizeB binary64 (p2 400) (enc binary64 false (dec binary32 (oneCP.u q))) = true ∧
        sizeB binary64 (p2 400) (enc binary64 false (dec binary32 (oneCP.v q))) = true := by
          decide +kernel
      obtain ⟨a, b⟩ := this q (by simp; omega)
      exact ⟨size_of a, size_of b⟩)
  exact ⟨m', s, h⟩

end CpSZ.Ieee
