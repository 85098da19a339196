import Verif.Ieee.Log3
import Verif.Props.IeeeLog
import Verif.Props.Ieee3
/-
Property C95: the structured 3D log mode in IEEE-754 arithmetic, from bytes to bytes.
-/

namespace CpSZ.Ieee
open CpSZ.VMode CpSZ.ThreeD CpSZ.Mesh3D

/-- `log_of_base`, `log2(2)`, of the 3D log modes (src/sz_compress_cp_preserve_3d.cpp L778). -/
def lbL (lg : Pat binary64 → Pat binary64) : Pat binary64 := lg (enc binary64 false (.fin 2))

/-- `threshold` of the 3D log modes (src/sz_compress_cp_preserve_3d.cpp L800). -/
def thrL : Pat binary64 := enc binary64 false (.fin (p2 (-23)))

/-- The mode of the structured 3D log mode on bit patterns
(src/sz_compress_cp_preserve_3d.cpp L777-801). -/
def log3Mode (F : Fmt) (tr : Pat binary64 → Int) (lg : Pat binary64 → Pat binary64)
    (lgT exT : Pat F → Pat F) (r2 r3 : Nat) : Int → Int → Mode (Pat F) (Pat binary64) :=
  logMode3 (bitsL F tr lg lgT exT) (lbL lg) thrL (lorenzo3 (bitsOps F tr lg) r2 r3)

/-- The bound of a vertex (src/sz_compress_cp_preserve_3d.cpp L818-842): bounds below `1e-6`
become 0. -/
def log3Plan (F : Fmt) (tr : Pat binary64 → Int) (lg : Pat binary64 → Pat binary64)
    (lgT exT : Pat F → Pat F) (r1 r2 r3 : Nat) (maxEb : Pat binary64) :
    State (Pat F) → Nat → Option (Plan (Pat binary64)) :=
  planLog3 (bitsL F tr lg lgT exT) (enc binary64 false (round binary64 (1 / 10 ^ 6)))
    (escMax (bitsL F tr lg lgT exT).toDOps (lbL lg) thrL)
    (boundLog3 (bitsOps F tr lg).toDOps r1 r2 r3 maxEb
      (deriveLog3T (bitsOps F tr lg) (bitsE F tr lg false)))

/-- `sz_compress_cp_preserve_3d_online_log` (src/sz_compress_cp_preserve_3d.cpp L747-974): the run on
bit patterns. -/
def runLog3 (F : Fmt) (tr : Pat binary64 → Int) (lg : Pat binary64 → Pat binary64)
    (lgT exT : Pat F → Pat F) (r1 r2 r3 : Nat) (maxEb : Pat binary64) (data : Arr (Pat F)) :
    Option (State (Pat F) × VMode.Streams (Pat F)) :=
  VMode.compress (log3Mode F tr lg lgT exT r2 r3 2 32768)
    (log3Plan F tr lg lgT exT r1 r2 r3 maxEb) (r1 * r2 * r3) data

theorem runLog3_defined (F : Fmt) (tr lg) (lgT exT : Pat F → Pat F) (r1 r2 r3 : Nat)
    (maxEb : Pat binary64) (data : Arr (Pat F)) :
    ∃ s' str, runLog3 F tr lg lgT exT r1 r2 r3 maxEb data = some (s', str) :=
  VMode.compress_defined _ _ _ _ fun _ _ hp => planLog3_defined (required3_defined hp _)

section
variable {F : Fmt} {tr : Pat binary64 → Int} {lg : Pat binary64 → Pat binary64}
  {lgT exT : Pat F → Pat F} {eps : ℚ}

/-- From the run of a 3D log mode to the bytes: the plan that avoids the code 24 has the same run. -/
theorem log3_core (hF : F.Ok) {lb thr tiny : Pat binary64}
    (h24 : escMax (bitsL F tr lg lgT exT).toDOps lb thr = 24)
    {esc : Int} (hesc : esc = 0 ∨ esc = 24) {pred : (Nat → Pat F) → Nat → Pat F}
    (hpred : ∀ f g p, (∀ q, q < p → f q = g q) → pred f p = pred g p)
    {bound : Arr (Pat F) → Nat → Option (Pat binary64)} {n : Nat} (hn : 0 < n)
    {data : Arr (Pat F)} (cT : Codec (Pat F)) (E1 E2 : Env) {s' : State (Pat F)}
    {str : VMode.Streams (Pat F)}
    (h : VMode.compress (logMode3 (bitsL F tr lg lgT exT) lb thr pred 2 32768)
      (planLog3 (bitsL F tr lg lgT exT) tiny esc bound) n data = some (s', str))
    (hg : VMode.compress (logMode3 (bitsL F tr lg lgT exT) lb thr pred 2 32768)
      (guardPlan (logMode3 (bitsL F tr lg lgT exT) lb thr pred 2 32768) 24
        (planLog3 (bitsL F tr lg lgT exT) tiny esc bound)) n data = some (s', str))
    (hw : ∀ c q, c < 3 → q < n → ∃ l, dec F (s'.cod c q) = .fin l ∧ -99 ≤ l)
    (f1 : Fits E1 (2 * 256) str.eb) (f2 : Fits E2 (2 * 65536) str.dq)
    (hun : str.un.length < 2 ^ 64) :
    ∃ bs, VMode.compressBytes (bitsL F tr lg lgT exT) cT E1 E2 (2 * 256) true
        (logMode3 (bitsL F tr lg lgT exT) lb thr pred) 2 32768
        (planLog3 (bitsL F tr lg lgT exT) tiny esc bound) n data = some (s'.val, bs) ∧
      ∀ rest m0, ∃ d, VMode.decompressBytes (bitsL F tr lg lgT exT) cT (2 * 256) true 3
          (logMode3 (bitsL F tr lg lgT exT) lb thr pred) n m0 (bs ++ rest) = some d ∧
        ∀ c q, c < 3 → q < n → d c q = s'.val c q := by
  obtain ⟨bs, hbs, hd⟩ := log_roundtrip (bitsL F tr lg lgT exT) (bitsL_laws hF) cT E1 E2 (2 * 256) true
    (logMode3 (bitsL F tr lg lgT exT) lb thr pred) 2 32768 _ n data
    (good_guard3 hF h24 hesc hpred bound n) rfl
    (fun h => by cases h) hn ⟨by norm_num, by norm_num⟩ ⟨by norm_num, by norm_num⟩ s' str hg f1 f2
    hun (by
      intro c q _ hc hq _ _
      obtain ⟨l, m1, m2⟩ := hw c q hc hq
      change Fp.lt (dec F (s'.cod c q)) (.fin (-99)) = false
      rw [m1]
      simpa [Fp.lt] using m2)
  refine ⟨bs, ?_, hd⟩
  simp only [VMode.compressBytes, hg] at hbs
  simp only [VMode.compressBytes, h]
  exact hbs

/-- The plan that avoids a code has the same run if the code does not occur. -/
theorem guard_of_codes {T D : Type} {M : Mode T D} {plan : State T → Nat → Option (Plan D)}
    {n : Nat} {data : Arr T} {s' : State T} {str : VMode.Streams T} {bad : Int}
    (h : VMode.compress M plan n data = some (s', str)) (hb : bad ∉ str.eb) :
    VMode.compress M (guardPlan M bad plan) n data = some (s', str) := by
  obtain ⟨st, ws, R, rfl, rfl⟩ := compress_run _ _ _ _ _ _ h
  exact compress_of_run (R.guard fun w hw _ x hx he =>
    hb (List.mem_flatMap.2 ⟨w, hw, he ▸ hx⟩))

/-- From the run of a 3D log mode to the bytes. -/
theorem log3_bytes (hF : F.Ok) (hp : F.p ≤ binary64.p) (hu : binary64.umin ≤ F.umin)
    (hemax : F.emax ≤ binary64.emax) (hemin : F.emin ≤ -23) (hlg : LogOk lg eps) (hup : LogUp lg)
    (H : ExpLogOk F lgT exT) (he0 : 0 ≤ eps) (he1 : eps ≤ p2 (-31)) {r : Int} (h1 : r ≤ 124)
    {lb thr tiny : Pat binary64} (hlb : dec binary64 lb = .fin 1)
    (hthr : dec binary64 thr = .fin (p2 (-23)))
    (h23 : ∀ a, dec binary64 a = .fin (p2 23) → dec binary64 (lg a) = .fin 23)
    {esc : Int} (hesc : esc = 0 ∨ esc = 24) {pred : (Nat → Pat F) → Nat → Pat F}
    (hpred : ∀ f g p, (∀ q, q < p → f q = g q) → pred f p = pred g p)
    {bound : Arr (Pat F) → Nat → Option (Pat binary64)} {e : ℚ} (hep : 0 ≤ e) (her : e ≤ 1)
    {n : Nat} (hn : 0 < n) (hn2 : n < 2 ^ 58) (hb : ∀ (f : Arr (Pat F)) p req, p < n →
      (∀ c q, c < 3 → q < n → Bd (dec F) (r + 2) (f c q)) → bound f p = some req →
        LeV e (dec binary64 req))
    {data : Arr (Pat F)} (hf : ∀ c q, c < 3 → q < n → LogNz F r (data c q)) (cT : Codec (Pat F))
    (E1 E2 : Env) {s' : State (Pat F)} {str : VMode.Streams (Pat F)}
    (h : VMode.compress (logMode3 (bitsL F tr lg lgT exT) lb thr pred 2 32768)
      (planLog3 (bitsL F tr lg lgT exT) tiny esc bound) n data = some (s', str))
    (hd : str.dq ≠ []) (hs : Shallow E2 (2 * 65536) str.dq) :
    ∃ bs, VMode.compressBytes (bitsL F tr lg lgT exT) cT E1 E2 (2 * 256) true
        (logMode3 (bitsL F tr lg lgT exT) lb thr pred) 2 32768
        (planLog3 (bitsL F tr lg lgT exT) tiny esc bound) n data = some (s'.val, bs) ∧
      ∀ rest m0, ∃ d, VMode.decompressBytes (bitsL F tr lg lgT exT) cT (2 * 256) true 3
          (logMode3 (bitsL F tr lg lgT exT) lb thr pred) n m0 (bs ++ rest) = some d ∧
        ∀ c q, c < 3 → q < n → LogClose F (e + p2 (-14)) (d c q) (data c q) := by
  obtain ⟨hw, hc1, hc2, hg⟩ := log3_run hF hp hu hemax hemin hlg hup H he0 he1 h1 hlb hthr
    (by rcases hesc with rfl | rfl <;> norm_num) hep her hb hf h
  obtain ⟨l1, -, l3, l4⟩ := VMode.compress_lengths _ _ _ _ _ _ h
  change _ ≤ 3 * n at l3 l4
  have f1 : Fits E1 (2 * 256) str.eb := fits_of_low (ne_nil_of_length (by omega)) (by omega)
    (by norm_num) (by norm_num) (fun x hx => by have := hc1 x hx; omega)
  have f2 : Fits E2 (2 * 65536) str.dq := fits_of_range hd (by omega)
    (by norm_num) (fun x hx => by have := hc2 x hx; push_cast; omega) hs
  obtain ⟨bs, hbs, hd⟩ := log3_core hF (escMax_bits hF hp hu hemax hlg hlb hthr h23) hesc hpred hn cT
    E1 E2 h hg (fun c q hc hq => (hw c q hc hq).2) f1 f2 (by omega)
  refine ⟨bs, hbs, fun rest m0 => ?_⟩
  obtain ⟨d, d1, d2⟩ := hd rest m0
  refine ⟨d, d1, fun c q hc hq => ?_⟩
  rw [d2 c q hc hq]
  obtain ⟨X, x1, x2, x3⟩ := hf c q hc hq
  exact logClose_of_cl hep her ⟨X, x1, Or.inr x2, x3⟩ (hw c q hc hq).1

/-- The bound of the structured mode. -/
theorem boundLog3_le (hF : F.Ok) (hp : F.p ≤ binary64.p) (hu : binary64.umin ≤ F.umin)
    (hemax : F.emax ≤ binary64.emax) (hlg : LogOk lg eps) {r : Int} (h0 : 0 ≤ r)
    (h1 : 3 * r + 11 ≤ F.emax) (h2 : 3 * r + 18 ≤ 1023) {r1 r2 r3 : Nat} {maxEb : Pat binary64}
    {e : ℚ} (hm : dec binary64 maxEb = .fin e) (f : Arr (Pat F)) (p : Nat) (req : Pat binary64)
    (hf : ∀ c q, c < 3 → q < r1 * r2 * r3 → Bd (dec F) (r + 2) (f c q))
    (h : boundLog3 (bitsOps F tr lg).toDOps r1 r2 r3 maxEb
      (deriveLog3T (bitsOps F tr lg) (bitsE F tr lg false)) f p = some req) :
    LeV e (dec binary64 req) := by
  have hO := bits_ieee hF hp hu hemax tr hlg
  refine loopMin3_ieee hO (Q := Bd (dec F) (r + 2)) (fun a b c d ha hb hc hd =>
    deriveLog3_not_nan hO (bits_ieeeE hF hp hu hemax tr hlg false) hF (by omega) (by omega) (by omega)
      ha hb hc hd) hf _ (Or.inr ⟨e, hm, le_refl _⟩) h

end

/-- C95.  Data are bit patterns of numbers of magnitude between `2^-97` and `2^38` (`float`) or
`2^124` (`double`), fewer than `2^58` vertices, and the relative bound of the user is at most 1; the
code computes with IEEE-754 arithmetic, `log2` of a `double` is accurate to `2^-31` (and exact for 2
and `2^23`), the logarithm of an element is off by at most `2^-16` and `exp2` by at most `2^-22` of
its value, the conversions to `int` that C++ leaves undefined give anything.  The compressor runs;
if there is a data code (C07: the entropy coder crashes on nothing) and no code word of the data
codes is longer than 64 bits it produces a stream, and whatever the decompressor finds behind it,
every component it returns is a number with the sign of the original and a relative error of at
most the bound of the user plus `2^-14`. -/
theorem C95_log3 (F : Fmt) (r : Int)
    (hFr : (F = binary32 ∧ r = 38) ∨ (F = binary64 ∧ r = 124)) (tr : Pat binary64 → Int)
    (lg : Pat binary64 → Pat binary64) (lgT exT : Pat F → Pat F) (eps : ℚ)
    (hlg : LogOk lg eps) (hup : LogUp lg) (H : ExpLogOk F lgT exT)
    (hlb : dec binary64 (lg (enc binary64 false (.fin 2))) = .fin 1)
    (h23 : ∀ a, dec binary64 a = .fin (p2 23) → dec binary64 (lg a) = .fin 23)
    (he0 : 0 ≤ eps) (he1 : eps ≤ p2 (-31)) (cT : Codec (Pat F)) (E1 E2 : Env)
    (r1 r2 r3 : Nat) (hn : 0 < r1 * r2 * r3) (hn2 : r1 * r2 * r3 < 2 ^ 58)
    (maxEb : Pat binary64) (e : ℚ) (hm : dec binary64 maxEb = .fin e) (hep : 0 ≤ e)
    (her : e ≤ 1) (data : Arr (Pat F))
    (hf : ∀ c q, c < 3 → q < r1 * r2 * r3 → LogNz F r (data c q)) :
    ∃ s' str, runLog3 F tr lg lgT exT r1 r2 r3 maxEb data = some (s', str) ∧
      (str.dq ≠ [] → Shallow E2 (2 * 65536) str.dq →
        ∃ bs, VMode.compressBytes (bitsL F tr lg lgT exT) cT E1 E2 (2 * 256) true
            (log3Mode F tr lg lgT exT r2 r3) 2 32768 (log3Plan F tr lg lgT exT r1 r2 r3 maxEb)
            (r1 * r2 * r3) data = some (s'.val, bs) ∧
          ∀ rest m0, ∃ d, VMode.decompressBytes (bitsL F tr lg lgT exT) cT (2 * 256) true 3
              (log3Mode F tr lg lgT exT r2 r3) (r1 * r2 * r3) m0 (bs ++ rest) = some d ∧
            ∀ c q, c < 3 → q < r1 * r2 * r3 →
              LogClose F (e + p2 (-14)) (d c q) (data c q)) := by
  obtain ⟨s', str, h⟩ := runLog3_defined F tr lg lgT exT r1 r2 r3 maxEb data
  refine ⟨s', str, h, fun hd hs => ?_⟩
  have hthr : dec binary64 thrL = .fin (p2 (-23)) := dec_enc ok64 _ (rep_p2 (by decide) (by decide))
  rcases hFr with ⟨rfl, rfl⟩ | ⟨rfl, rfl⟩
  · exact log3_bytes ok32 (by decide) (by decide) (by decide) (by decide) hlg hup H he0 he1
      (by norm_num) hlb hthr h23
      (Or.inr (escMax_bits ok32 (by decide) (by decide) (by decide) hlg hlb hthr h23))
      (lorenzo3_congr _ r2 r3) hep her hn hn2
      (fun f p req _ hbd hr => boundLog3_le ok32 (by decide) (by decide) (by decide) hlg (by norm_num)
        (by decide) (by norm_num) hm f p req hbd hr) hf cT E1 E2 h hd hs
  · exact log3_bytes ok64 (by decide) (by decide) (by decide) (by decide) hlg hup H he0 he1
      (by norm_num) hlb hthr h23
      (Or.inr (escMax_bits ok64 (by decide) (by decide) (by decide) hlg hlb hthr h23))
      (lorenzo3_congr _ r2 r3) hep her hn hn2
      (fun f p req _ hbd hr => boundLog3_le ok64 (by decide) (by decide) (by decide) hlg (by norm_num)
        (by decide) (by norm_num) hm f p req hbd hr) hf cT E1 E2 h hd hs

/-! ### Examples and witness -/

/-- Eight vectors of one octant. -/
def logCube : Arr (Pat binary32) := fun c q =>
  f32 (([[3, 4, 4, 4, 4, 4, 4, 8], [4, 1, 4, 2, 4, 4, 4, 4],
    [4, 4, 2, 4, 4, 1, 4, 4]].getD c []).getD q 0)

/-- What can be observed of a run: number of values stored verbatim, indices, and values and
logarithms of the components of the vertices in a list. -/
def seenL3 (l : List Nat) (r : Option (State (Pat binary32) × VMode.Streams (Pat binary32))) :
    Option (Nat × List Int × List Int × List (Fp ℚ)) :=
  r.map fun (f, s) => (s.un.length, s.eb, s.dq,
    l.flatMap fun q => [f.val 0 q, f.val 1 q, f.val 2 q, f.cod 0 q, f.cod 1 q, f.cod 2 q].map
      (dec binary32))

theorem seenL3_some {l : List Nat}
    {r : Option (State (Pat binary32) × VMode.Streams (Pat binary32))} {k a b x}
    (h : seenL3 l r = some (k, a, b, x)) :
    ∃ f s, r = some (f, s) ∧ s.un.length = k ∧ s.eb = a ∧ s.dq = b ∧
      (l.flatMap fun q => [f.val 0 q, f.val 1 q, f.val 2 q, f.cod 0 q, f.cod 1 q, f.cod 2 q].map
        (dec binary32)) = x := by
  unfold seenL3 at h
  obtain ⟨⟨f, s⟩, hr, h1⟩ := Option.map_eq_some_iff.1 h
  simp only [Prod.mk.injEq] at h1
  exact ⟨f, s, hr, h1.1, h1.2.1, h1.2.2.1, h1.2.2.2⟩

theorem logNz_of {F : Fmt} {r : Int} {a : Pat F} (h : logSizeB F r a = true) : LogNz F r a := by
  unfold logSizeB at h
  split at h
  · rename_i x hx
    simp only [Bool.and_eq_true, decide_eq_true_eq] at h
    exact ⟨x, hx, h.1, h.2⟩
  · cases h

theorem fineLog2_23 (a : Pat binary64) (h : dec binary64 a = .fin (p2 23)) :
    dec binary64 (fineLog2 a) = .fin 23 := by
  unfold fineLog2
  rw [h]
  decide +kernel

theorem logCube_seen :
    seenL3 [0] (runLog3 binary32 (fun _ => 0) fineLog2 (libLog binary32) (libExp binary32) 2 2 2
      ebUnit logCube) =
    some (12, [22, 23, 24, 24, 23, 23, 24, 24],
      [32770, 32770, 32770, 32768, 32767, 32768, 32768, 32768, 32768, 32768, 32769, 32767],
      [.fin 4, .fin 4, .fin 4, .fin 2, .fin 2, .fin 2]) := by
  decide +kernel

/-- The hypotheses of `C95_log3` are met by eight vectors with the relative bound 1: four of
the eight vertices are coded, the first with a reconstruction that differs from the data, and the
bytes decode to numbers within the bound. -/
example (E1 E2 : Env) : ∃ s' str bs,
    runLog3 binary32 (fun _ => 0) fineLog2 (libLog binary32) (libExp binary32) 2 2 2 ebUnit logCube =
      some (s', str) ∧ str.eb = [22, 23, 24, 24, 23, 23, 24, 24] ∧
    dec binary32 (s'.val 0 0) ≠ dec binary32 (logCube 0 0) ∧
    VMode.compressBytes (bitsL binary32 (fun _ => 0) fineLog2 (libLog binary32) (libExp binary32))
      (wordCodec 4) E1 E2 (2 * 256) true
      (log3Mode binary32 (fun _ => 0) fineLog2 (libLog binary32) (libExp binary32) 2 2) 2 32768
      (log3Plan binary32 (fun _ => 0) fineLog2 (libLog binary32) (libExp binary32) 2 2 2 ebUnit)
      (2 * 2 * 2) logCube = some (s'.val, bs) ∧
    ∀ m0, ∃ d, VMode.decompressBytes
        (bitsL binary32 (fun _ => 0) fineLog2 (libLog binary32) (libExp binary32)) (wordCodec 4)
        (2 * 256) true 3
        (log3Mode binary32 (fun _ => 0) fineLog2 (libLog binary32) (libExp binary32) 2 2) (2 * 2 * 2)
        m0 bs = some d ∧
      ∀ c q, c < 3 → q < 2 * 2 * 2 → LogClose binary32 (1 + p2 (-14)) (d c q) (logCube c q) := by
  have hm : dec binary64 ebUnit = .fin 1 := by decide +kernel
  obtain ⟨s', str, h, hc⟩ := C95_log3 binary32 38 (Or.inl ⟨rfl, rfl⟩) (fun _ => 0) fineLog2
    (libLog binary32) (libExp binary32) 0 fineLog2_ok fineLog2_up
    (lib_ok ok32 (by decide) (by decide) (by decide)) fineLog2_two fineLog2_23 (le_refl 0)
    (p2_pos _).le (wordCodec 4) E1 E2 2 2 2 (by norm_num) (by norm_num) ebUnit _ hm (by norm_num)
    (by norm_num) logCube (by
      intro c q hc hq
      have : ∀ c ∈ List.range 3, ∀ q ∈ List.range 8,
        logSizeB binary32 38 (logCube c q) = true := by decide +kernel
      exact logNz_of (this c (List.mem_range.2 hc) q (List.mem_range.2 hq)))
  obtain ⟨f, t, h1, h2, h3, h4, h5⟩ := seenL3_some logCube_seen
  rw [h1] at h
  simp only [Option.some.injEq, Prod.mk.injEq] at h
  obtain ⟨rfl, rfl⟩ := h
  obtain ⟨bs, b1, b2⟩ := hc (by rw [h4]; simp)
    (shallow_of_short (by rw [h4]; simp) (by rw [h4]; simp) (by norm_num) (by rw [h4]; simp))
  refine ⟨f, t, bs, h1, h3, ?_, b1, fun m0 => ?_⟩
  · have e : dec binary32 (f.val 0 0) = .fin 4 := by
      simp only [List.flatMap_cons, List.map_cons, List.cons_append, List.cons.injEq] at h5
      exact h5.1
    rw [e]
    decide +kernel
  · obtain ⟨d, d1, d2⟩ := b2 [] m0
    rw [List.append_nil] at d1
    exact ⟨d, d1, d2⟩

/-- One vertex, with the components `1.5 * 2^127`, 3 and 3. -/
def bigVertex3 : Arr (Pat binary32) := fun c _ => if c = 0 then 0x7F400000#32 else f32 3

theorem big_seen_log3 :
    seenL3 [0] (runLog3 binary32 (fun _ => 0) fineLog2 (libLog binary32) (libExp binary32) 1 1 1
      ebUnit bigVertex3) =
    some (0, [23], [32832, 32769, 32769],
      [.inf false, .fin 4, .fin 4, .fin 128, .fin 2, .fin 2]) := by
  decide +kernel

/-- C95 for all finite data is false: a vertex with the finite components `1.5 * 2^127`, 3 and 3 and
the relative bound 1 comes back from the bytes as infinity, 4 and 4. -/
theorem C95_overflow (E1 E2 : Env) :
    ExpLogOk binary32 (libLog binary32) (libExp binary32) ∧
    dec binary32 (bigVertex3 0 0) = .fin (3 / 2 * p2 127) ∧
    dec binary32 (bigVertex3 1 0) = .fin 3 ∧ dec binary64 ebUnit = .fin 1 ∧
    ∃ s' bs, VMode.compressBytes
        (bitsL binary32 (fun _ => 0) fineLog2 (libLog binary32) (libExp binary32))
        (wordCodec 4) E1 E2 (2 * 256) true
        (log3Mode binary32 (fun _ => 0) fineLog2 (libLog binary32) (libExp binary32) 1 1) 2 32768
        (log3Plan binary32 (fun _ => 0) fineLog2 (libLog binary32) (libExp binary32) 1 1 1 ebUnit)
        (1 * 1 * 1) bigVertex3 = some (s', bs) ∧
      ∀ rest m0, ∃ d, VMode.decompressBytes
          (bitsL binary32 (fun _ => 0) fineLog2 (libLog binary32) (libExp binary32)) (wordCodec 4)
          (2 * 256) true 3
          (log3Mode binary32 (fun _ => 0) fineLog2 (libLog binary32) (libExp binary32) 1 1) (1 * 1 * 1)
          m0 (bs ++ rest) = some d ∧
        dec binary32 (d 0 0) = .inf false ∧ dec binary32 (d 1 0) = .fin 4 := by
  refine ⟨lib_ok ok32 (by decide) (by decide) (by decide), by decide +kernel, by decide +kernel,
    by decide +kernel, ?_⟩
  obtain ⟨f, t, h1, h2, h3, h4, h5⟩ := seenL3_some big_seen_log3
  simp only [List.flatMap_cons, List.flatMap_nil, List.append_nil, List.map_cons, List.map_nil,
    List.cons.injEq, and_true] at h5
  obtain ⟨v0, v1, v2, c0, c1, c2⟩ := h5
  have f1 : Fits E1 (2 * 256) t.eb :=
    fits_of_short _ _ _ (by rw [h3]; simp) (by rw [h3]; simp) (by norm_num) (by rw [h3]; simp)
  have f2 : Fits E2 (2 * 65536) t.dq :=
    fits_of_short _ _ _ (by rw [h4]; simp) (by rw [h4]; simp) (by norm_num) (by rw [h4]; simp)
  have h24 : escMax (bitsL binary32 (fun _ => 0) fineLog2 (libLog binary32)
      (libExp binary32)).toDOps (lbL fineLog2) thrL = 24 :=
    escMax_bits ok32 (by decide) (by decide) (by decide) fineLog2_ok fineLog2_two
      (dec_enc ok64 _ (rep_p2 (by decide) (by decide))) fineLog2_23
  obtain ⟨bs, hbs, hd⟩ := log3_core ok32 h24 (Or.inr h24) (lorenzo3_congr _ 1 1)
    (show 0 < 1 * 1 * 1 by norm_num) (wordCodec 4) E1 E2 h1
    (guard_of_codes h1 (by rw [h3]; simp)) (by
      intro c q hc hq
      have : q = 0 := by omega
      subst this
      have : c = 0 ∨ c = 1 ∨ c = 2 := by omega
      rcases this with rfl | rfl | rfl
      · exact ⟨128, c0, by norm_num⟩
      · exact ⟨2, c1, by norm_num⟩
      · exact ⟨2, c2, by norm_num⟩) f1 f2 (by rw [h2]; norm_num)
  refine ⟨f.val, bs, hbs, fun rest m0 => ?_⟩
  obtain ⟨d, d1, d2⟩ := hd rest m0
  refine ⟨d, d1, ?_, ?_⟩
  · rw [d2 0 0 (by norm_num) (by norm_num)]; exact v0
  · rw [d2 1 0 (by norm_num) (by norm_num)]; exact v1

end CpSZ.Ieee
