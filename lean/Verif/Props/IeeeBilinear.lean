import Verif.Ieee.Bilinear
import Verif.Props.Bilinear
import Verif.Props.IeeeLog
/-
Property C100: the bilinear mode in IEEE-754 arithmetic, from bytes to bytes.
-/

namespace CpSZ.Ieee
open CpSZ.VMode CpSZ.VMode.Bilinear

/-- The bound of a vertex (src/sz_compress_cp_preserve_2d_bilinear.cpp L830-849) on bit patterns;
the elements are converted to `double` in the call (L845-846). -/
def bilBound (F : Fmt) (tr : Pat binary64 → Int) (lg sq : Pat binary64 → Pat binary64) (r1 r2 : Nat)
    (maxEb : Pat binary64) : Online2D.Field (Pat F) → Nat → Option (Pat binary64) :=
  boundB r1 r2 maxEb (minfG (bitsD tr lg)) fun u0 u1 u2 u3 v0 v1 v2 v3 =>
    let t := (bitsOps F tr lg).toD
    deriveBG (bitsD tr lg) sq (t u0) (t u1) (t u2) (t u3) (t v0) (t v1) (t v2) (t v3)

/-- The verification (src/sz_compress_cp_preserve_2d_bilinear.cpp L892-1013) on bit patterns, for
any extraction and classification of critical points `C` and any `exp2` with a `double` result. -/
def bilVerify {J : Type} (F : Fmt) (tr : Pat binary64 → Int) (lg : Pat binary64 → Pat binary64)
    (lgT exT : Pat F → Pat F) (exp2D : Pat F → Pat binary64) (C : Check (Pat binary64) J)
    (r1 r2 : Nat) : State (Pat F) → Nat → List (Pat F) → Option Bool :=
  verifyB (bitsL F tr lg lgT exT) exp2D (bneg binary64) C r1 r2

/-- `sz_compress_cp_preserve_2d_bilinear_online_log`
(src/sz_compress_cp_preserve_2d_bilinear.cpp L755-1046): the run on bit patterns. -/
def runBil {J : Type} (F : Fmt) (tr : Pat binary64 → Int) (lg sq : Pat binary64 → Pat binary64)
    (lgT exT : Pat F → Pat F) (exp2D : Pat F → Pat binary64) (C : Check (Pat binary64) J)
    (r1 r2 : Nat) (maxEb : Pat binary64) (m : Online2D.Field (Pat F)) :
    Option (State (Pat F) × VMode.Streams (Pat F)) :=
  compressB (bitsL F tr lg lgT exT) (logMode F tr lg lgT exT r2 2 32768)
    (bilBound F tr lg sq r1 r2 maxEb) (bilVerify F tr lg lgT exT exp2D C r1 r2) (r1 * r2) (arr2 m)

section
variable {J : Type} {F : Fmt} {tr : Pat binary64 → Int} {lg sq : Pat binary64 → Pat binary64}
  {lgT exT : Pat F → Pat F} {exp2D : Pat F → Pat binary64} {C : Check (Pat binary64) J} {eps : ℚ}

/-- The bound of a vertex is at most the bound of the user. -/
theorem bilBound_le (hF : F.Ok) (hp : F.p ≤ binary64.p) (hu : binary64.umin ≤ F.umin)
    (hemax : F.emax ≤ binary64.emax) (hlg : LogOk lg eps) {k : Int} (h0 : 0 ≤ k)
    (h1 : 4 * k + 30 ≤ 1023) {r1 r2 : Nat} {maxEb : Pat binary64} {e : ℚ}
    (hm : dec binary64 maxEb = .fin e) {f : Online2D.Field (Pat F)}
    (hf : ∀ q, q < r1 * r2 → Bd (dec F) k (f.u q) ∧ Bd (dec F) k (f.v q)) {p : Nat}
    (hpn : p < r1 * r2) {req : Pat binary64}
    (h : bilBound F tr lg sq r1 r2 maxEb f p = some req) : LeV e (dec binary64 req) := by
  have hO := bits_ieee hF hp hu hemax tr hlg
  have hu' := fun q hq => (hf q hq).1
  have hv' := fun q hq => (hf q hq).2
  have rdB : ∀ {g : Nat → Pat F} {i : Int} {x : Pat F},
      (∀ q, q < r1 * r2 → Bd (dec F) k (g q)) → Mesh2D.rd (r1 * r2) g i = some x →
      Bd (dec F) k x := by
    intro g i x hg hx
    unfold Mesh2D.rd at hx
    split at hx
    · simp only [Option.some.injEq] at hx
      rw [← hx]
      exact hg _ (by omega)
    · cases hx
  unfold bilBound boundB at h
  have hr : LeV e (dec binary64 maxEb) := Or.inr ⟨e, hm, le_refl e⟩
  generalize maxEb = r at h hr
  generalize [0, 1, 2, 3] = ks at h
  induction ks generalizing r with
  | nil =>
    simp only [boundLoop, Option.some.injEq] at h
    rw [← h]; exact hr
  | cons i ks ih =>
    unfold boundLoop at h
    split at h
    · split at h
      · rename_i u0 u1 u2 v0 v1 v2 e0 e1 e2 e3 e4 e5
        refine ih _ (minf_le hO hr ?_) h
        exact deriveB_nan hO (bits_divZero F tr lg) h0 h1 (bd_toD hO (rdB hu' e0))
          (bd_toD hO (rdB hu' e1)) (bd_toD hO (rdB hu' e2)) (bd_toD hO (hu' p hpn))
          (bd_toD hO (rdB hv' e3)) (bd_toD hO (rdB hv' e4)) (bd_toD hO (rdB hv' e5))
          (bd_toD hO (hv' p hpn))
      · cases h
    · exact ih _ hr h

/-- The run, for data between `2^-97` and `2^r`. -/
theorem runBil_close (hF : F.Ok) (hp : F.p ≤ binary64.p) (hu : binary64.umin ≤ F.umin)
    (hemax : F.emax ≤ binary64.emax) (hemin : F.emin ≤ -23) (hlg : LogOk lg eps)
    (hup : LogUp lg) (H : ExpLogOk F lgT exT)
    (hlb : dec binary64 (lg (enc binary64 false (.fin 2))) = .fin 1)
    (he0 : 0 ≤ eps) (he1 : eps ≤ p2 (-31)) {r : Int} (h0 : 0 ≤ r) (h1 : r ≤ 124)
    {r1 r2 : Nat} {maxEb : Pat binary64}
    {e : ℚ} (hm : dec binary64 maxEb = .fin e) (hep : 0 ≤ e) (her : e ≤ 1)
    {m : Online2D.Field (Pat F)} {s' : State (Pat F)} {str : VMode.Streams (Pat F)}
    (hf : ∀ q, q < r1 * r2 → LogSize F r (m.u q) ∧ LogSize F r (m.v q))
    (h : runBil F tr lg sq lgT exT exp2D C r1 r2 maxEb m = some (s', str)) :
    (∀ c q, c < 2 → q < r1 * r2 → LogCl F e (s'.val c q) (arr2 m c q) ∧
      (dec F (arr2 m c q) ≠ .fin 0 → ∃ l, dec F (s'.cod c q) = .fin l ∧ -99 ≤ l)) ∧
    (∀ x ∈ str.eb, 0 ≤ x ∧ x ≤ 30) ∧ ∀ x ∈ str.dq, 0 ≤ x ∧ x ≤ 65536 := by
  have hO := bits_ieee hF hp hu hemax tr hlg
  have hd : ∀ c q, c < 2 → q < r1 * r2 → LogSize F r (arr2 m c q) := by
    intro c q hc hq
    unfold arr2
    split
    · exact (hf q hq).1
    · exact (hf q hq).2
  have hM : LogModeB (logMode F tr lg lgT exT r2 2 32768) (bitsL F tr lg lgT exT) :=
    ⟨rfl, rfl, hlb, dec_enc ok64 _ (rep_p2 (by decide) (by decide)), rfl, rfl, rfl, rfl⟩
  unfold runBil at h
  rw [compressB_eq] at h
  refine stateLogB hF hp hu hemax hemin hlg hup he0 he1 H hep her hM h1 hd ?_ ?_ h
  · intro s p a id hpn hval hbd hpl
    rcases planB_cases _ _ _ _ s p _ hpl with h' | ⟨req, hreq, hpos, z0, z1, h'⟩
    · cases h'
    · cases h'
      have nz : ∀ c, c < 2 → dec F (arr2 m c p) ≠ .fin 0 := by
        intro c hc
        rw [← hval c]
        have : c = 0 ∨ c = 1 := by omega
        rcases this with rfl | rfl
        · exact of_decide_eq_false z0
        · exact of_decide_eq_false z1
      refine ⟨?_, nz⟩
      have hle := bilBound_le hF hp hu hemax hlg (k := r + 2) (by omega) (by omega) hm
        (f := field2 s.val) (fun q hq => ⟨hbd 0 q (by change 0 < 2; decide) hq,
          hbd 1 q (by change 1 < 2; decide) hq⟩) hpn hreq
      have hpos' : Fp.lt (.fin 0) (dec binary64 req) = true := by
        have h2 := hO.lt ((bitsOps F tr lg).ofInt 0) req
        rw [hO.zero] at h2
        rw [← h2]; exact hpos
      obtain ⟨x, x1, x2, x5⟩ : ∃ x, dec binary64 req = .fin x ∧ 0 < x ∧ x ≤ e := by
        rcases hle with hi | ⟨x, x1, x2⟩
        · rw [hi] at hpos'
          simp [Fp.lt] at hpos'
        · rw [x1] at hpos'
          exact ⟨x, x1, by simpa [Fp.lt] using hpos', x2⟩
      have e2 : p2 1 = 2 := by rw [p2_eq]; norm_num
      obtain ⟨y, y1, y2⟩ := round_bounded ok64 (b := p2 1) (rep_p2 (by decide) (by decide))
        (x := 1 + x) (by rw [e2, abs_of_pos (by linarith)]; linarith)
      have hadd : dec binary64 ((bitsL F tr lg lgT exT).add ((bitsL F tr lg lgT exT).ofInt 1) req)
          = .fin y := by
        refine (hO.add _ _).trans ?_
        have : dec binary64 ((bitsL F tr lg lgT exT).ofInt 1) = .fin 1 := by
          have := hO.ofInt_small (n := 1) (by norm_num)
          rw [Int.cast_one] at this
          exact this
        rw [this, x1]
        exact y1
      refine ⟨_, y, rfl, hadd, ?_, ?_⟩
      · exact round_ge ok64 (b := 1)
          (by simpa [p2_zero] using rep_p2 (F := binary64) (k := 0) (by decide) (by decide))
          zero_le_one (by linarith) y1
      · have h3 := rmag_rel (F := binary64) (x := 1 + x)
          ((p2_le (show binary64.emin ≤ 0 by decide)).trans (by rw [p2_zero]; linarith))
        obtain ⟨h4, -, h5, -⟩ := round_fin y1
        rw [abs_of_nonneg (h5 (by linarith)), abs_of_pos (by linarith)] at h4
        rw [← h4] at h3
        have h6 := (abs_le.1 h3).2
        have e53 : p2 (-(binary64.p : Int)) = p2 (-53) := rfl
        rw [e53] at h6
        have := p2_pos (-53)
        nlinarith
  · intro s p id hid
    have : id = 0 := by
      rcases hid with hid | ⟨a, hid⟩ <;>
        rcases planB_cases _ _ _ _ s p _ hid with h' | ⟨_, _, _, _, _, h'⟩ <;> cases h' <;> rfl
    omega

/-- From the run to the bytes. -/
theorem bil_bytes (hF : F.Ok) (cT : Codec (Pat F)) (E1 E2 : Env) (r1 r2 : Nat)
    (maxEb : Pat binary64) (m : Online2D.Field (Pat F)) (s' : State (Pat F))
    (str : VMode.Streams (Pat F))
    (h : runBil F tr lg sq lgT exT exp2D C r1 r2 maxEb m = some (s', str))
    (hn : 0 < r1 * r2) (f1 : Fits E1 (2 * 1024) str.eb) (f2 : Fits E2 (2 * 65536) str.dq)
    (hun : str.un.length < 2 ^ 64)
    (hsmall : ∀ c q, c < 2 → q < r1 * r2 → dec F (arr2 m 0 q) ≠ .fin 0 →
      dec F (arr2 m 1 q) ≠ .fin 0 → ∃ l, dec F (s'.cod c q) = .fin l ∧ -99 ≤ l) :
    ∃ bs, compressBytesB (bitsL F tr lg lgT exT) cT E1 E2 (logMode F tr lg lgT exT r2) 2 32768
        (bilBound F tr lg sq r1 r2 maxEb) (bilVerify F tr lg lgT exT exp2D C r1 r2) (r1 * r2)
        (arr2 m) = some (s'.val, bs) ∧
      ∀ rest m0, ∃ d, VMode.decompressBytes (bitsL F tr lg lgT exT) cT (2 * 1024) false 2
          (logMode F tr lg lgT exT r2) (r1 * r2) m0 (bs ++ rest) = some d ∧
        ∀ c q, c < 2 → q < r1 * r2 → d c q = s'.val c q := by
  refine C47_roundtrip (bitsL F tr lg lgT exT) (bitsL_laws hF) cT E1 E2 _ _ r1 r2 2 32768 _ _ m s'
    str h hn ⟨by norm_num, by norm_num⟩ ⟨by norm_num, by norm_num⟩ f1 f2 hun ?_
  intro c q hc hq z0 z1
  obtain ⟨l, l1, l2⟩ := hsmall c q hc hq (of_decide_eq_false z0) (of_decide_eq_false z1)
  change Fp.lt (dec F (s'.cod c q)) (.fin (-99)) = false
  rw [l1]
  simpa [Fp.lt] using l2

end

/-- The run, the bytes and the values. -/
theorem bil_full {J : Type} (F : Fmt) (hFr : F = binary32 ∨ F = binary64)
    (tr : Pat binary64 → Int) (lg sq : Pat binary64 → Pat binary64) (lgT exT : Pat F → Pat F)
    (exp2D : Pat F → Pat binary64) (C : Check (Pat binary64) J) (eps : ℚ) (hlg : LogOk lg eps)
    (hup : LogUp lg) (H : ExpLogOk F lgT exT)
    (hlb : dec binary64 (lg (enc binary64 false (.fin 2))) = .fin 1)
    (he0 : 0 ≤ eps) (he1 : eps ≤ p2 (-31)) (cT : Codec (Pat F)) (E1 E2 : Env)
    (r1 r2 : Nat) (hn : 0 < r1 * r2) (hn2 : r1 * r2 < 2 ^ 59)
    (maxEb : Pat binary64) (e : ℚ) (hm : dec binary64 maxEb = .fin e) (hep : 0 ≤ e)
    (her : e ≤ 1) (m : Online2D.Field (Pat F))
    (hf : ∀ q, q < r1 * r2 → LogSize F 124 (m.u q) ∧ LogSize F 124 (m.v q)) :
    ∃ s' str, runBil F tr lg sq lgT exT exp2D C r1 r2 maxEb m = some (s', str) ∧
      (Shallow E2 (2 * 65536) str.dq →
        ∃ bs, compressBytesB (bitsL F tr lg lgT exT) cT E1 E2 (logMode F tr lg lgT exT r2) 2 32768
            (bilBound F tr lg sq r1 r2 maxEb) (bilVerify F tr lg lgT exT exp2D C r1 r2)
            (r1 * r2) (arr2 m) = some (s'.val, bs) ∧
          ∀ rest m0, ∃ d, VMode.decompressBytes (bitsL F tr lg lgT exT) cT (2 * 1024) false 2
              (logMode F tr lg lgT exT r2) (r1 * r2) m0 (bs ++ rest) = some d ∧
            (∀ c q, c < 2 → q < r1 * r2 → d c q = s'.val c q) ∧
            ∀ q, q < r1 * r2 → LogClose F (e + p2 (-14)) (d 0 q) (m.u q) ∧
              LogClose F (e + p2 (-14)) (d 1 q) (m.v q)) := by
  obtain ⟨s', str, h⟩ : ∃ s' str, runBil F tr lg sq lgT exT exp2D C r1 r2 maxEb m =
      some (s', str) :=
    C47_defined (bitsL F tr lg lgT exT) exp2D (bneg binary64) C _ _ r1 r2 2 32768 maxEb _ _ m
  have hF : F.Ok := by
    rcases hFr with rfl | rfl
    · exact ok32
    · exact ok64
  have key : (∀ c q, c < 2 → q < r1 * r2 → LogCl F e (s'.val c q) (arr2 m c q) ∧
      (dec F (arr2 m c q) ≠ .fin 0 → ∃ l, dec F (s'.cod c q) = .fin l ∧ -99 ≤ l)) ∧
      (∀ x ∈ str.eb, 0 ≤ x ∧ x ≤ 30) ∧ ∀ x ∈ str.dq, 0 ≤ x ∧ x ≤ 65536 := by
    rcases hFr with rfl | rfl
    · exact runBil_close ok32 (by decide) (by decide) (by decide) (by decide) hlg hup H
        hlb he0 he1 (by norm_num) (by norm_num) hm hep her hf h
    · exact runBil_close ok64 (by decide) (by decide) (by decide) (by decide) hlg hup H
        hlb he0 he1 (by norm_num) (by norm_num) hm hep her hf h
  obtain ⟨hw, hc1, hc2⟩ := key
  have h' := h
  unfold runBil at h'
  rw [compressB_eq] at h'
  obtain ⟨l1, -, l3, l4⟩ := VMode.compress_lengths _ _ _ _ _ _ h'
  have l2 := (VMode.compress_lengths _ _ _ _ _ _ h').2.1 rfl
  change _ = 2 * (r1 * r2) at l2
  change _ ≤ 2 * (r1 * r2) at l4
  refine ⟨s', str, h, fun hs => ?_⟩
  have f1 : Fits E1 (2 * 1024) str.eb := fits_of_low (ne_nil_of_length (by omega)) (by omega)
    (by norm_num) (by norm_num) (fun x hx => by have := hc1 x hx; omega)
  have f2 : Fits E2 (2 * 65536) str.dq := fits_of_range (ne_nil_of_length (by omega)) (by omega)
    (by norm_num) (fun x hx => by have := hc2 x hx; push_cast; omega) hs
  obtain ⟨bs, hbs, hd⟩ := bil_bytes hF cT E1 E2 r1 r2 maxEb m s' str h hn f1 f2 (by omega)
    (fun c q hc hq n0 n1 => (hw c q hc hq).2 (by
      have : c = 0 ∨ c = 1 := by omega
      rcases this with rfl | rfl
      · exact n0
      · exact n1))
  refine ⟨bs, hbs, fun rest m0 => ?_⟩
  obtain ⟨d, d1, d2⟩ := hd rest m0
  refine ⟨d, d1, d2, fun q hq => ?_⟩
  rw [d2 0 q (by norm_num) hq, d2 1 q (by norm_num) hq]
  exact ⟨logClose_of_cl hep her (hf q hq).1 (hw 0 q (by norm_num) hq).1,
    logClose_of_cl hep her (hf q hq).2 (hw 1 q (by norm_num) hq).1⟩

/-- C100.  Data are bit patterns of numbers, zero or of magnitude between `2^-97` and `2^124`, fewer
than `2^59` vertices, and the relative bound of the user is at most 1; the code computes with
IEEE-754 arithmetic, `log2` of a `double` is accurate to `2^-31` (and exact for 2), the logarithm of
an element is off by at most `2^-16` and `exp2` by at most `2^-22` of its value; `sqrt`, the `exp2`
of the verification and the extraction and classification of critical points return anything.  The
compressor runs; if no code word of the data codes is longer than 64 bits it produces a stream, and
whatever the decompressor finds behind it, every component it returns is a number with the sign of
the original and a relative error of at most the bound of the user plus `2^-14`, and zeros come back
bit for bit. -/
theorem C100_bilinear {J : Type} (F : Fmt) (hFr : F = binary32 ∨ F = binary64)
    (tr : Pat binary64 → Int) (lg sq : Pat binary64 → Pat binary64) (lgT exT : Pat F → Pat F)
    (exp2D : Pat F → Pat binary64) (C : Check (Pat binary64) J) (eps : ℚ) (hlg : LogOk lg eps)
    (hup : LogUp lg) (H : ExpLogOk F lgT exT)
    (hlb : dec binary64 (lg (enc binary64 false (.fin 2))) = .fin 1)
    (he0 : 0 ≤ eps) (he1 : eps ≤ p2 (-31)) (cT : Codec (Pat F)) (E1 E2 : Env)
    (r1 r2 : Nat) (hn : 0 < r1 * r2) (hn2 : r1 * r2 < 2 ^ 59)
    (maxEb : Pat binary64) (e : ℚ) (hm : dec binary64 maxEb = .fin e) (hep : 0 ≤ e)
    (her : e ≤ 1) (m : Online2D.Field (Pat F))
    (hf : ∀ q, q < r1 * r2 → LogSize F 124 (m.u q) ∧ LogSize F 124 (m.v q)) :
    ∃ s' str, runBil F tr lg sq lgT exT exp2D C r1 r2 maxEb m = some (s', str) ∧
      (Shallow E2 (2 * 65536) str.dq →
        ∃ bs, compressBytesB (bitsL F tr lg lgT exT) cT E1 E2 (logMode F tr lg lgT exT r2) 2 32768
            (bilBound F tr lg sq r1 r2 maxEb) (bilVerify F tr lg lgT exT exp2D C r1 r2)
            (r1 * r2) (arr2 m) = some (s'.val, bs) ∧
          ∀ rest m0, ∃ d, VMode.decompressBytes (bitsL F tr lg lgT exT) cT (2 * 1024) false 2
              (logMode F tr lg lgT exT r2) (r1 * r2) m0 (bs ++ rest) = some d ∧
            ∀ q, q < r1 * r2 → LogClose F (e + p2 (-14)) (d 0 q) (m.u q) ∧
              LogClose F (e + p2 (-14)) (d 1 q) (m.v q)) := by
  obtain ⟨s', str, h, hc⟩ := bil_full F hFr tr lg sq lgT exT exp2D C eps hlg hup H hlb he0 he1 cT E1
    E2 r1 r2 hn hn2 maxEb e hm hep her m hf
  refine ⟨s', str, h, fun hs => ?_⟩
  obtain ⟨bs, hbs, hd⟩ := hc hs
  refine ⟨bs, hbs, fun rest m0 => ?_⟩
  obtain ⟨d, d1, -, d2⟩ := hd rest m0
  exact ⟨d, d1, d2⟩

/-! ### Example and witness -/

/-- A verification for the examples: the signs of both components at the four corners. -/
def signCheck : Check (Pat binary64) (List (Pat binary64)) where
  extract q := [[q.p0.1, q.p1.1, q.p2.1, q.p3.1], [q.p0.2, q.p1.2, q.p2.2, q.p3.2]]
  ctype l := l.foldl (fun a x => 2 * a + (if Fp.lt (.fin 0) (dec binary64 x) then 1 else 0)) 0

/-- `exp2` with a `double` result: that of an element, converted. -/
noncomputable def libExpD (a : Pat binary32) : Pat binary64 :=
  (bitsOps binary32 (fun _ => 0) fineLog2).toD (libExp binary32 a)

/-- One cell. -/
def oneCell : Online2D.Field (Pat binary32) :=
  ⟨fun q => [f32 3, f32 5, f32 3, f32 (-7)].getD q 0,
   fun q => [f32 5, f32 1, f32 13, f32 3].getD q 0⟩

theorem cell_seen :
    seenL [0, 3] (runBil binary32 (fun _ => 0) fineLog2 bsqrt (libLog binary32) (libExp binary32)
      libExpD signCheck 2 2 ebUnit oneCell) =
    some (0, [22, 22, 22, 22], [32770, 32770, 32768, 32766, 32768, 32770, 32769, 32768],
      [.fin 4, .fin 4, .fin 2, .fin 2, .fin (-8), .fin 4, .fin 3, .fin 2]) := by
  decide +kernel

/-- The hypotheses of `C100_bilinear` are met by `oneCell` with the relative bound 1: all vertices
are coded, with the bounds derived from the cell, -7 becomes -8, and the bytes decode to numbers
within the bound. -/
example (E1 E2 : Env) : ∃ s' str bs,
    runBil binary32 (fun _ => 0) fineLog2 bsqrt (libLog binary32) (libExp binary32) libExpD signCheck
      2 2 ebUnit oneCell = some (s', str) ∧ str.eb = [22, 22, 22, 22] ∧
    dec binary32 (oneCell.u 3) = .fin (-7) ∧ dec binary32 (s'.val 0 3) = .fin (-8) ∧
    compressBytesB (bitsL binary32 (fun _ => 0) fineLog2 (libLog binary32) (libExp binary32))
      (wordCodec 4) E1 E2
      (logMode binary32 (fun _ => 0) fineLog2 (libLog binary32) (libExp binary32) 2) 2 32768
      (bilBound binary32 (fun _ => 0) fineLog2 bsqrt 2 2 ebUnit)
      (bilVerify binary32 (fun _ => 0) fineLog2 (libLog binary32) (libExp binary32) libExpD signCheck
        2 2) (2 * 2) (arr2 oneCell) = some (s'.val, bs) ∧
    ∀ m0, ∃ d, VMode.decompressBytes
        (bitsL binary32 (fun _ => 0) fineLog2 (libLog binary32) (libExp binary32)) (wordCodec 4)
        (2 * 1024) false 2
        (logMode binary32 (fun _ => 0) fineLog2 (libLog binary32) (libExp binary32) 2) (2 * 2) m0 bs =
          some d ∧
      ∀ q, q < 2 * 2 → LogClose binary32 (1 + p2 (-14)) (d 0 q) (oneCell.u q) := by
  have hm : dec binary64 ebUnit = .fin 1 := by decide +kernel
  obtain ⟨s', str, h, hc⟩ := C100_bilinear binary32 (Or.inl rfl) (fun _ => 0) fineLog2 bsqrt
    (libLog binary32) (libExp binary32) libExpD signCheck 0 fineLog2_ok fineLog2_up
    (lib_ok ok32 (by decide) (by decide) (by decide)) fineLog2_two (le_refl 0) (p2_pos _).le
    (wordCodec 4) E1 E2 2 2 (by norm_num) (by norm_num) ebUnit _ hm (by norm_num) (by norm_num)
    oneCell (by
      intro q hq
      have : ∀ q ∈ [0, 1, 2, 3], logSizeB binary32 124 (oneCell.u q) = true ∧
        logSizeB binary32 124 (oneCell.v q) = true := by decide +kernel
      obtain ⟨a, b⟩ := this q (by simp; omega)
      exact ⟨logSize_of a, logSize_of b⟩)
  obtain ⟨f, t, h1, h2, h3, h4, h5⟩ := seenL_some cell_seen
  rw [h1] at h
  simp only [Option.some.injEq, Prod.mk.injEq] at h
  obtain ⟨rfl, rfl⟩ := h
  obtain ⟨bs, b1, b2⟩ := hc
    (shallow_of_short (by rw [h4]; simp) (by rw [h4]; simp) (by norm_num) (by rw [h4]; simp))
  refine ⟨f, t, bs, h1, h3, by decide +kernel, ?_, b1, fun m0 => ?_⟩
  · simp only [List.flatMap_cons, List.map_cons, List.cons_append, List.nil_append, List.map_nil,
      List.cons.injEq] at h5
    exact h5.2.2.2.2.1
  · obtain ⟨d, d1, d2⟩ := b2 [] m0
    rw [List.append_nil] at d1
    exact ⟨d, d1, fun q hq => (d2 q hq).1⟩

theorem big_seen_bil :
    seenL [0] (runBil binary32 (fun _ => 0) fineLog2 bsqrt (libLog binary32) (libExp binary32)
      libExpD signCheck 1 1 ebUnit bigVertex) =
    some (0, [23], [32832, 32769], [.inf false, .fin 4, .fin 128, .fin 2]) := by
  decide +kernel

/-- The size limit of C100 is needed: the verification looks only at cells, so a vertex without a
cell, with the finite components `1.5 * 2^127` and 3 and the relative bound 1, comes back from the
bytes as infinity and 4. -/
theorem C100_overflow (E1 E2 : Env) :
    ExpLogOk binary32 (libLog binary32) (libExp binary32) ∧
    dec binary32 (bigVertex.u 0) = .fin (3 / 2 * p2 127) ∧
    dec binary32 (bigVertex.v 0) = .fin 3 ∧ dec binary64 ebUnit = .fin 1 ∧
    ∃ s' bs, compressBytesB
        (bitsL binary32 (fun _ => 0) fineLog2 (libLog binary32) (libExp binary32))
        (wordCodec 4) E1 E2
        (logMode binary32 (fun _ => 0) fineLog2 (libLog binary32) (libExp binary32) 1) 2 32768
        (bilBound binary32 (fun _ => 0) fineLog2 bsqrt 1 1 ebUnit)
        (bilVerify binary32 (fun _ => 0) fineLog2 (libLog binary32) (libExp binary32) libExpD
          signCheck 1 1) (1 * 1) (arr2 bigVertex) = some (s', bs) ∧
      ∀ rest m0, ∃ d, VMode.decompressBytes
          (bitsL binary32 (fun _ => 0) fineLog2 (libLog binary32) (libExp binary32)) (wordCodec 4)
          (2 * 1024) false 2
          (logMode binary32 (fun _ => 0) fineLog2 (libLog binary32) (libExp binary32) 1) (1 * 1) m0
          (bs ++ rest) = some d ∧
        dec binary32 (d 0 0) = .inf false ∧ dec binary32 (d 1 0) = .fin 4 := by
  refine ⟨lib_ok ok32 (by decide) (by decide) (by decide), by decide +kernel, by decide +kernel,
    by decide +kernel, ?_⟩
  obtain ⟨f, t, h1, h2, h3, h4, h5⟩ := seenL_some big_seen_bil
  simp only [List.flatMap_cons, List.flatMap_nil, List.append_nil, List.map_cons, List.map_nil,
    List.cons.injEq, and_true] at h5
  obtain ⟨v0, v1, c0, c1⟩ := h5
  have f1 : Fits E1 (2 * 1024) t.eb :=
    fits_of_short _ _ _ (by rw [h3]; simp) (by rw [h3]; simp) (by norm_num) (by rw [h3]; simp)
  have f2 : Fits E2 (2 * 65536) t.dq :=
    fits_of_short _ _ _ (by rw [h4]; simp) (by rw [h4]; simp) (by norm_num) (by rw [h4]; simp)
  obtain ⟨bs, hbs, hd⟩ := bil_bytes ok32 (wordCodec 4) E1 E2 1 1 ebUnit bigVertex f t h1
    (by norm_num) f1 f2 (by rw [h2]; norm_num) (by
      intro c q hc hq _ _
      have : q = 0 := by omega
      subst this
      have : c = 0 ∨ c = 1 := by omega
      rcases this with rfl | rfl
      · exact ⟨128, c0, by norm_num⟩
      · exact ⟨2, c1, by norm_num⟩)
  refine ⟨f.val, bs, hbs, fun rest m0 => ?_⟩
  obtain ⟨d, d1, d2⟩ := hd rest m0
  refine ⟨d, d1, ?_, ?_⟩
  · rw [d2 0 0 (by norm_num) (by norm_num)]; exact v0
  · rw [d2 1 0 (by norm_num) (by norm_num)]; exact v1

end CpSZ.Ieee
