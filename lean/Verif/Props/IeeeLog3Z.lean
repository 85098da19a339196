import Verif.Props.IeeeLog3
import Verif.VMode.LockFin
/-
Property C98: zero components in the structured 3D log mode in IEEE-754 arithmetic, from bytes to
bytes.
-/

namespace CpSZ.Ieee
open CpSZ.VMode CpSZ.ThreeD CpSZ.Mesh3D

section
variable {F : Fmt} {tr : Pat binary64 → Int} {lg : Pat binary64 → Pat binary64}
  {lgT exT : Pat F → Pat F} {eps : ℚ}

/-- The run of a 3D log mode on data with zeros. -/
theorem log3_runZ (hF : F.Ok) (hp7 : 7 ≤ F.p) (hp : F.p ≤ binary64.p) (hu : binary64.umin ≤ F.umin)
    (hemax : F.emax ≤ binary64.emax) (hemin : F.emin ≤ -23) (hlg : LogOk lg eps) (hup : LogUp lg)
    (H : ExpLogOk F lgT exT) (he0 : 0 ≤ eps) (he1 : eps ≤ p2 (-31)) {r : Int} (h0 : 0 ≤ r)
    (h1 : r ≤ 124) {lb thr tiny : Pat binary64} (hlb : dec binary64 lb = .fin 1)
    (hthr : dec binary64 thr = .fin (p2 (-23))) {esc : Int} (hesc : 0 ≤ esc ∧ esc ≤ 30)
    {pred : (Nat → Pat F) → Nat → Pat F}
    {bound : Arr (Pat F) → Nat → Option (Pat binary64)} {e : ℚ} (hep : 0 ≤ e) (her : e ≤ 1)
    {n : Nat} (hb : ∀ (f : Arr (Pat F)) p req, p < n →
      (∀ c q, c < 3 → q < n → Bd (dec F) (r + 2) (f c q)) → bound f p = some req →
        LeV e (dec binary64 req))
    {data : Arr (Pat F)} {s' : State (Pat F)} {str : VMode.Streams (Pat F)}
    (hf : ∀ c q, c < 3 → q < n → LogSize F r (data c q))
    (h : VMode.compress (logMode3 (bitsL F tr lg lgT exT) lb thr pred 2 32768)
      (planLog3 (bitsL F tr lg lgT exT) tiny esc bound) n data = some (s', str)) :
    (∀ c q, c < 3 → q < n →
      (dec F (data c q) ≠ .fin 0 → LogCl F e (s'.val c q) (data c q) ∧
        ∃ l, dec F (s'.cod c q) = .fin l ∧ -99 ≤ l) ∧
      (dec F (data c q) = .fin 0 → ∃ l, dec F (s'.cod c q) = .fin l ∧ l < -99)) ∧
    (∀ x ∈ str.eb, 0 ≤ x ∧ x ≤ 30) ∧ (∀ x ∈ str.dq, 0 ≤ x ∧ x ≤ 65536) ∧
    VMode.compress (logMode3 (bitsL F tr lg lgT exT) lb thr pred 2 32768)
      (guardPlan (logMode3 (bitsL F tr lg lgT exT) lb thr pred 2 32768) 24
        (planLog3 (bitsL F tr lg lgT exT) tiny esc bound)) n data = some (s', str) := by
  have hM : LogModeB (logMode3 (bitsL F tr lg lgT exT) lb thr pred 2 32768)
      (bitsL F tr lg lgT exT) := ⟨rfl, rfl, hlb, hthr, rfl, rfl, rfl, rfl⟩
  obtain ⟨g, st, ws, R, rfl, hw, rfl⟩ := stateLogZ_run (Z := True) hF hp hu hemax hemin hlg hup he0 he1
    H hep her hM h1 (fun _ => ⟨hp7, h0⟩) (data := data) hf
    (fun s p a id hpn _ hbd hpl =>
      ⟨planLog3_bits hF hp hu hemax hlg her (fun req hr => hb _ p req hpn hbd hr) hpl,
        Or.inr trivial⟩)
    (fun s p id hid => by
      have : id = 0 ∨ id = esc := by
        rcases hid with hid | ⟨a, hid⟩ <;>
          rcases planLog3_cases hid with h' | ⟨_, _, _, _, _, h'⟩ <;> cases h'
        · exact Or.inl rfl
        · exact Or.inr rfl
      rcases this with rfl | rfl
      · exact ⟨le_refl _, by norm_num⟩
      · exact hesc) h
  refine ⟨fun c q hc hq => ?_, ?_, ?_, ?_⟩
  · obtain ⟨g1, g2, g3⟩ := g c q hc hq
    exact ⟨fun hne => ⟨g1.resolve_right fun h => hne h.2.1, g2 hne⟩, g3 trivial⟩
  · intro x hx
    obtain ⟨w, hw1, hxw⟩ := List.mem_flatMap.1 hx
    exact (hw w hw1).1 x hxw
  · intro x hx
    obtain ⟨w, hw1, hxw⟩ := List.mem_flatMap.1 hx
    exact (hw w hw1).2.1 x hxw
  · exact compress_of_run (R.guard fun w hm he x hx => by
      have := (hw w hm).2.2 he x hx
      omega)

/-- From the run to the bytes. -/
theorem log3_bytesZ (hF : F.Ok) (hp7 : 7 ≤ F.p) (hp : F.p ≤ binary64.p)
    (hu : binary64.umin ≤ F.umin)
    (hemax : F.emax ≤ binary64.emax) (hemin : F.emin ≤ -23) (hlg : LogOk lg eps) (hup : LogUp lg)
    (H : ExpLogOk F lgT exT) (he0 : 0 ≤ eps) (he1 : eps ≤ p2 (-31)) {r : Int} (h0 : 0 ≤ r)
    (h1 : r ≤ 124) {lb thr tiny : Pat binary64} (hlb : dec binary64 lb = .fin 1)
    (hthr : dec binary64 thr = .fin (p2 (-23)))
    (h23 : ∀ a, dec binary64 a = .fin (p2 23) → dec binary64 (lg a) = .fin 23)
    {esc : Int} (hesc : esc = 0 ∨ esc = 24) {pred : (Nat → Pat F) → Nat → Pat F}
    (hpred : ∀ f g p, (∀ q, q < p → f q = g q) → pred f p = pred g p)
    {bound : Arr (Pat F) → Nat → Option (Pat binary64)} {e : ℚ} (hep : 0 ≤ e) (her : e ≤ 1)
    {n : Nat} (hn : 0 < n) (hn2 : n < 2 ^ 58) (hb : ∀ (f : Arr (Pat F)) p req, p < n →
      (∀ c q, c < 3 → q < n → Bd (dec F) (r + 2) (f c q)) → bound f p = some req →
        LeV e (dec binary64 req))
    {data : Arr (Pat F)} (hf : ∀ c q, c < 3 → q < n → LogSize F r (data c q)) (cT : Codec (Pat F))
    (E1 E2 : Env) {s' : State (Pat F)} {str : VMode.Streams (Pat F)}
    (h : VMode.compress (logMode3 (bitsL F tr lg lgT exT) lb thr pred 2 32768)
      (planLog3 (bitsL F tr lg lgT exT) tiny esc bound) n data = some (s', str))
    (hd : str.dq ≠ []) (hs : Shallow E2 (2 * 65536) str.dq) :
    ∃ bs, VMode.compressBytes (bitsL F tr lg lgT exT) cT E1 E2 (2 * 256) true
        (logMode3 (bitsL F tr lg lgT exT) lb thr pred) 2 32768
        (planLog3 (bitsL F tr lg lgT exT) tiny esc bound) n data = some (s'.val, bs) ∧
      ∀ rest m0, ∃ d, VMode.decompressBytes (bitsL F tr lg lgT exT) cT (2 * 256) true 3
          (logMode3 (bitsL F tr lg lgT exT) lb thr pred) n m0 (bs ++ rest) = some d ∧
        ∀ c q, c < 3 → q < n →
          (dec F (data c q) ≠ .fin 0 → LogClose F (e + p2 (-14)) (d c q) (data c q)) ∧
          (dec F (data c q) = .fin 0 → dec F (d c q) = .fin 0) := by
  obtain ⟨hw, hc1, hc2, hg⟩ := log3_runZ hF hp7 hp hu hemax hemin hlg hup H he0 he1 h0 h1 hlb hthr
    (by rcases hesc with rfl | rfl <;> norm_num) hep her hb hf h
  obtain ⟨l1, -, l3, l4⟩ := VMode.compress_lengths _ _ _ _ _ _ h
  change _ ≤ 3 * n at l3 l4
  have f1 : Fits E1 (2 * 256) str.eb := fits_of_low (ne_nil_of_length (by omega)) (by omega)
    (by norm_num) (by norm_num) (fun x hx => by have := hc1 x hx; omega)
  have f2 : Fits E2 (2 * 65536) str.dq := fits_of_range hd (by omega)
    (by norm_num) (fun x hx => by have := hc2 x hx; push_cast; omega) hs
  obtain ⟨bs, hbs, hd⟩ := log_roundtrip_fin (bitsL F tr lg lgT exT) (bitsL_laws hF) cT E1 E2 (2 * 256)
    true (logMode3 (bitsL F tr lg lgT exT) lb thr pred) 2 32768 _ n data
    (good_guard3 hF (escMax_bits hF hp hu hemax hlg hlb hthr h23) hesc hpred bound n) rfl
    (fun h => by cases h) hn ⟨by norm_num, by norm_num⟩ ⟨by norm_num, by norm_num⟩ s' str hg f1 f2
    (by omega)
  refine ⟨bs, ?_, fun rest m0 => ?_⟩
  · simp only [VMode.compressBytes, hg] at hbs
    simp only [VMode.compressBytes, h]
    exact hbs
  obtain ⟨d, d1, d2⟩ := hd rest m0
  refine ⟨d, d1, fun c q hc hq => ?_⟩
  obtain ⟨w1, w2⟩ := hw c q hc hq
  have ltv : ∀ l : ℚ, dec F (s'.cod c q) = .fin l →
      (bitsL F tr lg lgT exT).ltM99 (s'.cod c q) = decide (l < -99) := by
    intro l hl
    change Fp.lt (dec F (s'.cod c q)) (.fin (-99)) = _
    rw [hl]; rfl
  refine ⟨fun hne => ?_, fun hz => ?_⟩
  · obtain ⟨a1, l, a2, a3⟩ := w1 hne
    have : d c q = s'.val c q := by
      rcases d2 c q hc hq with ⟨k1, k2⟩ | k1
      · rw [k1, k2]
      · rw [k1, ltv l a2, decide_eq_false (by linarith)]; rfl
    rw [this]
    exact logClose_of_cl hep her (hf c q hc hq) a1
  · obtain ⟨l, a2, a3⟩ := w2 hz
    rcases d2 c q hc hq with ⟨k1, k2⟩ | k1
    · rw [k1]; exact hz
    · rw [k1, ltv l a2, decide_eq_true a3]
      change dec F (enc F false (.fin 0)) = _
      exact dec_enc hF _ (show Rep F 0 from rep_zero)

end

/-- **C98.**  The structured 3D log mode on data with zeros: finite components that are zero or of
magnitude between `2^-97` and `2^38` (`float`) or `2^124` (`double`), otherwise as in C95.  The
compressor runs; if there is a data code and no code word of the data codes is longer than 64 bits
it produces a stream, and whatever the decompressor finds behind it, every zero comes back as a zero
and every other component as a number with the sign of the original and a relative error of at most
the bound of the user plus `2^-14`. -/
theorem C98_log3_zeros (F : Fmt) (r : Int)
    (hFr : (F = binary32 ∧ r = 38) ∨ (F = binary64 ∧ r = 124)) (tr : Pat binary64 → Int)
    (lg : Pat binary64 → Pat binary64) (lgT exT : Pat F → Pat F) (eps : ℚ)
    (hlg : LogOk lg eps) (hup : LogUp lg) (H : ExpLogOk F lgT exT)
    (hlb : dec binary64 (lg (enc binary64 false (.fin 2))) = .fin 1)
    (h23 : ∀ a, dec binary64 a = .fin (p2 23) → dec binary64 (lg a) = .fin 23)
    (he0 : 0 ≤ eps) (he1 : eps ≤ p2 (-31)) (cT : Codec (Pat F)) (E1 E2 : Env)
    (r1 r2 r3 : Nat) (hn : 0 < r1 * r2 * r3) (hn2 : r1 * r2 * r3 < 2 ^ 58)
    (maxEb : Pat binary64) (e : ℚ) (hm : dec binary64 maxEb = .fin e) (hep : 0 ≤ e)
    (her : e ≤ 1) (data : Arr (Pat F))
    (hf : ∀ c q, c < 3 → q < r1 * r2 * r3 → LogSize F r (data c q)) :
    ∃ s' str, runLog3 F tr lg lgT exT r1 r2 r3 maxEb data = some (s', str) ∧
      (str.dq ≠ [] → Shallow E2 (2 * 65536) str.dq →
        ∃ bs, VMode.compressBytes (bitsL F tr lg lgT exT) cT E1 E2 (2 * 256) true
            (log3Mode F tr lg lgT exT r2 r3) 2 32768 (log3Plan F tr lg lgT exT r1 r2 r3 maxEb)
            (r1 * r2 * r3) data = some (s'.val, bs) ∧
          ∀ rest m0, ∃ d, VMode.decompressBytes (bitsL F tr lg lgT exT) cT (2 * 256) true 3
              (log3Mode F tr lg lgT exT r2 r3) (r1 * r2 * r3) m0 (bs ++ rest) = some d ∧
            ∀ c q, c < 3 → q < r1 * r2 * r3 →
              (dec F (data c q) ≠ .fin 0 → LogClose F (e + p2 (-14)) (d c q) (data c q)) ∧
              (dec F (data c q) = .fin 0 → dec F (d c q) = .fin 0)) := by
  obtain ⟨s', str, h⟩ := runLog3_defined F tr lg lgT exT r1 r2 r3 maxEb data
  refine ⟨s', str, h, fun hd hs => ?_⟩
  have hthr : dec binary64 thrL = .fin (p2 (-23)) := dec_enc ok64 _ (rep_p2 (by decide) (by decide))
  rcases hFr with ⟨rfl, rfl⟩ | ⟨rfl, rfl⟩
  · exact log3_bytesZ ok32 (by decide) (by decide) (by decide) (by decide) (by decide) hlg hup H he0
      he1 (by norm_num) (by norm_num) hlb hthr h23
      (Or.inr (escMax_bits ok32 (by decide) (by decide) (by decide) hlg hlb hthr h23))
      (lorenzo3_congr _ r2 r3) hep her hn hn2
      (fun f p req _ hbd hr => boundLog3_le ok32 (by decide) (by decide) (by decide) hlg (by norm_num)
        (by decide) (by norm_num) hm f p req hbd hr) hf cT E1 E2 h hd hs
  · exact log3_bytesZ ok64 (by decide) (by decide) (by decide) (by decide) (by decide) hlg hup H he0
      he1 (by norm_num) (by norm_num) hlb hthr h23
      (Or.inr (escMax_bits ok64 (by decide) (by decide) (by decide) hlg hlb hthr h23))
      (lorenzo3_congr _ r2 r3) hep her hn hn2
      (fun f p req _ hbd hr => boundLog3_le ok64 (by decide) (by decide) (by decide) hlg (by norm_num)
        (by decide) (by norm_num) hm f p req hbd hr) hf cT E1 E2 h hd hs

/-- One vertex with a zero component. -/
def zeroVertexL : Arr (Pat binary32) := fun c _ => if c = 1 then 0#32 else f32 3

theorem zeroVertexL_seen :
    seenL3 [0] (runLog3 binary32 (fun _ => 0) fineLog2 (libLog binary32) (libExp binary32) 1 1 1
      ebUnit zeroVertexL) =
    some (0, [23], [32769, 32718, 32769],
      [.fin 4, .fin (-p2 (-100)), .fin 4, .fin 2, .fin (-100), .fin 2]) := by
  decide +kernel

/-- The hypotheses of `C98_log3_zeros` are met by a vertex with the components 3, 0 and 3 and the
relative bound 1.  The vertex is coded; the compressor continues with `-2^-100` in the place of the
zero, but the bytes decode to a zero. -/
example (E1 E2 : Env) : ∃ s' str bs,
    runLog3 binary32 (fun _ => 0) fineLog2 (libLog binary32) (libExp binary32) 1 1 1 ebUnit
      zeroVertexL = some (s', str) ∧ str.eb = [23] ∧ dec binary32 (s'.val 1 0) = .fin (-p2 (-100)) ∧
    VMode.compressBytes (bitsL binary32 (fun _ => 0) fineLog2 (libLog binary32) (libExp binary32))
      (wordCodec 4) E1 E2 (2 * 256) true
      (log3Mode binary32 (fun _ => 0) fineLog2 (libLog binary32) (libExp binary32) 1 1) 2 32768
      (log3Plan binary32 (fun _ => 0) fineLog2 (libLog binary32) (libExp binary32) 1 1 1 ebUnit)
      (1 * 1 * 1) zeroVertexL = some (s'.val, bs) ∧
    ∀ m0, ∃ d, VMode.decompressBytes
        (bitsL binary32 (fun _ => 0) fineLog2 (libLog binary32) (libExp binary32)) (wordCodec 4)
        (2 * 256) true 3
        (log3Mode binary32 (fun _ => 0) fineLog2 (libLog binary32) (libExp binary32) 1 1) (1 * 1 * 1)
        m0 bs = some d ∧ dec binary32 (d 1 0) = .fin 0 ∧
      LogClose binary32 (1 + p2 (-14)) (d 0 0) (zeroVertexL 0 0) := by
  have hm : dec binary64 ebUnit = .fin 1 := by decide +kernel
  obtain ⟨s', str, h, hc⟩ := C98_log3_zeros binary32 38 (Or.inl ⟨rfl, rfl⟩) (fun _ => 0) fineLog2
    (libLog binary32) (libExp binary32) 0 fineLog2_ok fineLog2_up
    (lib_ok ok32 (by decide) (by decide) (by decide)) fineLog2_two fineLog2_23 (le_refl 0)
    (p2_pos _).le (wordCodec 4) E1 E2 1 1 1 (by norm_num) (by norm_num) ebUnit _ hm (by norm_num)
    (by norm_num) zeroVertexL (by
      intro c q hc hq
      have hq0 : q = 0 := by omega
      have hc3 : c = 0 ∨ c = 1 ∨ c = 2 := by omega
      rw [hq0]
      rcases hc3 with h1 | h1 | h1 <;> rw [h1]
      · obtain ⟨X, x1, x2, x3⟩ := logNz_of (F := binary32) (r := 38) (a := zeroVertexL 0 0)
          (by decide +kernel)
        exact ⟨X, x1, Or.inr x2, x3⟩
      · refine ⟨0, by decide +kernel, Or.inl rfl, ?_⟩
        rw [abs_zero]; exact (p2_pos _).le
      · obtain ⟨X, x1, x2, x3⟩ := logNz_of (F := binary32) (r := 38) (a := zeroVertexL 2 0)
          (by decide +kernel)
        exact ⟨X, x1, Or.inr x2, x3⟩)
  obtain ⟨f, t, h1, h2, h3, h4, h5⟩ := seenL3_some zeroVertexL_seen
  rw [h1] at h
  simp only [Option.some.injEq, Prod.mk.injEq] at h
  obtain ⟨rfl, rfl⟩ := h
  obtain ⟨bs, b1, b2⟩ := hc (by rw [h4]; simp)
    (shallow_of_short (by rw [h4]; simp) (by rw [h4]; simp) (by norm_num) (by rw [h4]; simp))
  refine ⟨f, t, bs, h1, h3, ?_, b1, fun m0 => ?_⟩
  · simp only [List.flatMap_cons, List.map_cons, List.cons_append, List.cons.injEq] at h5
    exact h5.2.1
  · obtain ⟨d, d1, d2⟩ := b2 [] m0
    rw [List.append_nil] at d1
    exact ⟨d, d1, (d2 1 0 (by norm_num) (by norm_num)).2 (by decide +kernel),
      (d2 0 0 (by norm_num) (by norm_num)).1 (by decide +kernel)⟩

end CpSZ.Ieee
