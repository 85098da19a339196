import Verif.Ieee.LogLib
import Verif.Props.Log2D
import Verif.Props.IeeeRel
/-
Property C93: the log mode in IEEE-754 arithmetic, from bytes to bytes.
-/

namespace CpSZ.Ieee
open CpSZ.VMode

/-- `y` stands for a number whose relative distance from the number `x` stands for is at most `e`;
the signs agree, and a zero is the same zero. -/
def LogClose (F : Fmt) (e : ℚ) (y x : Pat F) : Prop :=
  ∃ Y X : ℚ, dec F y = .fin Y ∧ dec F x = .fin X ∧ |Y - X| ≤ e * |X| ∧ (X ≠ 0 → 0 < X * Y) ∧
    (X = 0 → y = x)

/-- A number that is zero or at least `2^-97`, and at most `2^r`. -/
def LogSize (F : Fmt) (r : Int) (x : Pat F) : Prop :=
  ∃ X : ℚ, dec F x = .fin X ∧ (X = 0 ∨ p2 (-97) ≤ |X|) ∧ |X| ≤ p2 r

/-- The mode of the 2D log mode on bit patterns (src/sz_compress_cp_preserve_2d.cpp L799-802):
threshold `FLT_EPSILON`, `log_of_base` is `log2(2)`; `base` and `radius` are read from the stream. -/
def logMode (F : Fmt) (tr : Pat binary64 → Int) (lg : Pat binary64 → Pat binary64)
    (lgT exT : Pat F → Pat F) (r2 : Nat) : Int → Int → Mode (Pat F) (Pat binary64) :=
  mode2 (bitsL F tr lg lgT exT) (lg (enc binary64 false (.fin 2)))
    (enc binary64 false (.fin (p2 (-23)))) r2

/-- The bound of a vertex (src/sz_compress_cp_preserve_2d.cpp L862-890). -/
def logPlan (F : Fmt) (tr : Pat binary64 → Int) (lg sq : Pat binary64 → Pat binary64)
    (lgT exT : Pat F → Pat F) (ov : Bool) (r1 r2 : Nat) (maxEb : Pat binary64) :
    State (Pat F) → Nat → Option (Plan (Pat binary64)) :=
  plan2 (bitsL F tr lg lgT exT)
    (boundRelT (bitsOps F tr lg) (bitsR F tr lg sq ov) r1 r2 maxEb)

/-- `sz_compress_cp_preserve_2d_online_log` (src/sz_compress_cp_preserve_2d.cpp L773-979): the run
on bit patterns. -/
def runLog (F : Fmt) (tr : Pat binary64 → Int) (lg sq : Pat binary64 → Pat binary64)
    (lgT exT : Pat F → Pat F) (ov : Bool) (r1 r2 : Nat) (maxEb : Pat binary64)
    (m : Online2D.Field (Pat F)) : Option (State (Pat F) × VMode.Streams (Pat F)) :=
  VMode.compress (logMode F tr lg lgT exT r2 2 32768)
    (logPlan F tr lg sq lgT exT ov r1 r2 maxEb) (r1 * r2) (arr2 m)

section
variable {F : Fmt} {tr : Pat binary64 → Int} {lg sq : Pat binary64 → Pat binary64}
  {lgT exT : Pat F → Pat F} {eps : ℚ}

theorem runLog_defined (F : Fmt) (tr lg sq) (lgT exT : Pat F → Pat F) (ov) (r1 r2 : Nat)
    (maxEb : Pat binary64) (m : Online2D.Field (Pat F)) :
    ∃ s' str, runLog F tr lg sq lgT exT ov r1 r2 maxEb m = some (s', str) := by
  apply VMode.compress_defined
  intro s p hp
  have hb := bound_defined (r1 := r1) (r2 := r2) maxEb (minfG (bitsOps F tr lg).toDOps)
    (deriveRelT (bitsOps F tr lg) (bitsR F tr lg sq ov)) (field2 s.val) hp
  obtain ⟨b, hb⟩ := Option.isSome_iff_exists.1 hb
  have : boundRelT (bitsOps F tr lg) (bitsR F tr lg sq ov) r1 r2 maxEb (field2 s.val) p =
    some b := hb
  unfold logPlan plan2
  rw [this]
  rfl

theorem logClose_of_cl {e : ℚ} (he0 : 0 ≤ e) (he : e ≤ 1) {y x : Pat F} {r : Int}
    (hx : LogSize F r x) (h : LogCl F e y x) : LogClose F (e + p2 (-14)) y x := by
  have e14 : p2 (-14) = 1 / 2 ^ 14 := by rw [p2_eq]; norm_num
  rcases h with rfl | ⟨Y, X, h1, h2, h3, h4⟩
  · obtain ⟨X, x1, -⟩ := hx
    refine ⟨X, X, x1, x1, ?_, fun h => mul_self_pos.2 h, fun _ => rfl⟩
    rw [sub_self, abs_zero, e14]
    positivity
  · refine ⟨Y, X, h1, h2, ?_, fun _ => h3, fun h => ?_⟩
    · refine h4.le.trans (mul_le_mul_of_nonneg_right ?_ (abs_nonneg _))
      rw [e14]
      norm_num
      linarith
    · rw [h, zero_mul] at h3
      exact absurd h3 (lt_irrefl _)

/-- The run, for data between `2^-97` and `2^r`. -/
theorem runLog_close (hF : F.Ok) (hp : F.p ≤ binary64.p) (hu : binary64.umin ≤ F.umin)
    (hemax : F.emax ≤ binary64.emax) (hemin : F.emin ≤ -23)
    (hcf : ∀ k, k < 6 → ∀ q, q < 4 → dec F (coefBits F k q) = .fin (coefN k q)) (hlg : LogOk lg eps)
    (hup : LogUp lg) (hsq : SqrtOk sq) (H : ExpLogOk F lgT exT)
    (hlb : dec binary64 (lg (enc binary64 false (.fin 2))) = .fin 1)
    (he0 : 0 ≤ eps) (he1 : eps ≤ p2 (-31)) {r : Int} (h0 : 0 ≤ r) (h1 : r ≤ 124)
    (h2 : 2 * r + 8 ≤ F.emax) {ov : Bool} {r1 r2 : Nat} {maxEb : Pat binary64}
    {e : ℚ} (hm : dec binary64 maxEb = .fin e) (hep : 0 ≤ e) (her : e ≤ 1)
    {m : Online2D.Field (Pat F)} {s' : State (Pat F)} {str : VMode.Streams (Pat F)}
    (hf : ∀ q, q < r1 * r2 → LogSize F r (m.u q) ∧ LogSize F r (m.v q))
    (h : runLog F tr lg sq lgT exT ov r1 r2 maxEb m = some (s', str)) :
    (∀ c q, c < 2 → q < r1 * r2 → LogCl F e (s'.val c q) (arr2 m c q) ∧
      (dec F (arr2 m c q) ≠ .fin 0 → ∃ l, dec F (s'.cod c q) = .fin l ∧ -99 ≤ l)) ∧
    (∀ x ∈ str.eb, 0 ≤ x ∧ x ≤ 30) ∧ ∀ x ∈ str.dq, 0 ≤ x ∧ x ≤ 65536 := by
  have hO := bits_ieee hF hp hu hemax tr hlg
  have hd : ∀ c q, c < 2 → q < r1 * r2 → LogSize F r (arr2 m c q) := by
    intro c q hc hq
    unfold arr2
    split
    · exact (hf q hq).1
    · exact (hf q hq).2
  have hM : LogModeB (logMode F tr lg lgT exT r2 2 32768) (bitsL F tr lg lgT exT) :=
    ⟨rfl, rfl, hlb, dec_enc ok64 _ (rep_p2 (by decide) (by decide)), rfl, rfl, rfl, rfl⟩
  refine stateLogB hF hp hu hemax hemin hlg hup he0 he1 H hep her hM h1 hd ?_ ?_ h
  · intro s p a id hpn hval hbd hpl
    rcases plan2_cases _ _ s p _ hpl with h' | ⟨req, hreq, hpos, z0, z1, h'⟩
    · cases h'
    · cases h'
      have nz : ∀ c, c < 2 → dec F (arr2 m c p) ≠ .fin 0 := by
        intro c hc
        rw [← hval c]
        have : c = 0 ∨ c = 1 := by omega
        rcases this with rfl | rfl
        · exact of_decide_eq_false z0
        · exact of_decide_eq_false z1
      refine ⟨?_, nz⟩
      have big : ∀ c, c < 2 → ∃ x, dec F (arr2 m c p) = .fin x ∧ p2 (-97) ≤ |x| := by
        intro c hc
        obtain ⟨X, x1, x2, -⟩ := hd c p hc hpn
        exact ⟨X, x1, x2.resolve_left (by rintro rfl; exact nz c hc x1)⟩
      obtain ⟨x, x1, x2, x3, x4⟩ := boundRelT_le hO (bits_ieeeR hF hp hu hemax tr hlg hsq hcf ov) hF
        (k := r + 2) (l := 97) (by omega) (by omega) (by omega) (by norm_num) hm (by linarith)
        (f := field2 s.val) (fun q hq => ⟨hbd 0 q (by change 0 < 2; decide) hq,
          hbd 1 q (by change 1 < 2; decide) hq⟩) hpn hreq hpos
      have x5 : x ≤ e := by
        obtain ⟨X, a1, a2⟩ := big 0 (by decide)
        obtain ⟨Y, b1, b2⟩ := big 1 (by decide)
        rw [← hval] at a1 b1
        exact x4 ⟨X, Y, a1, b1, a2, b2⟩
      have e2 : p2 1 = 2 := by rw [p2_eq]; norm_num
      obtain ⟨y, y1, y2⟩ := round_bounded ok64 (b := p2 1) (rep_p2 (by decide) (by decide))
        (x := 1 + x) (by rw [e2, abs_of_pos (by linarith)]; linarith)
      have hadd : dec binary64 ((bitsL F tr lg lgT exT).add ((bitsL F tr lg lgT exT).ofInt 1) req)
          = .fin y := by
        refine (hO.add _ _).trans ?_
        have : dec binary64 ((bitsL F tr lg lgT exT).ofInt 1) = .fin 1 := by
          have := hO.ofInt_small (n := 1) (by norm_num)
          rw [Int.cast_one] at this
          exact this
        rw [this, x1]
        exact y1
      refine ⟨_, y, rfl, hadd, ?_, ?_⟩
      · exact round_ge ok64 (b := 1)
          (by simpa [p2_zero] using rep_p2 (F := binary64) (k := 0) (by decide) (by decide))
          zero_le_one (by linarith) y1
      · have h3 := rmag_rel (F := binary64) (x := 1 + x)
          ((p2_le (show binary64.emin ≤ 0 by decide)).trans (by rw [p2_zero]; linarith))
        obtain ⟨h4, -, h5, -⟩ := round_fin y1
        rw [abs_of_nonneg (h5 (by linarith)), abs_of_pos (by linarith)] at h4
        rw [← h4] at h3
        have h6 := (abs_le.1 h3).2
        have e53 : p2 (-(binary64.p : Int)) = p2 (-53) := rfl
        rw [e53] at h6
        have := p2_pos (-53)
        nlinarith
  · intro s p id hid
    have : id = 0 := by
      rcases hid with hid | ⟨a, hid⟩ <;>
        rcases plan2_cases _ _ s p _ hid with h' | ⟨_, _, _, _, _, h'⟩ <;> cases h' <;> rfl
    omega

/-- From the run to the bytes. -/
theorem log_bytes (hF : F.Ok) (cT : Codec (Pat F)) (E1 E2 : Env) (ov : Bool) (r1 r2 : Nat)
    (maxEb : Pat binary64) (m : Online2D.Field (Pat F)) (s' : State (Pat F))
    (str : VMode.Streams (Pat F))
    (h : runLog F tr lg sq lgT exT ov r1 r2 maxEb m = some (s', str))
    (hn : 0 < r1 * r2) (f1 : Fits E1 (2 * 1024) str.eb) (f2 : Fits E2 (2 * 65536) str.dq)
    (hun : str.un.length < 2 ^ 64)
    (hsmall : ∀ c q, c < 2 → q < r1 * r2 → dec F (arr2 m 0 q) ≠ .fin 0 →
      dec F (arr2 m 1 q) ≠ .fin 0 → ∃ l, dec F (s'.cod c q) = .fin l ∧ -99 ≤ l) :
    ∃ bs, VMode.compressBytes (bitsL F tr lg lgT exT) cT E1 E2 (2 * 1024) false
        (logMode F tr lg lgT exT r2) 2 32768 (logPlan F tr lg sq lgT exT ov r1 r2 maxEb) (r1 * r2)
        (arr2 m) = some (s'.val, bs) ∧
      ∀ rest m0, ∃ d, VMode.decompressBytes (bitsL F tr lg lgT exT) cT (2 * 1024) false 2
          (logMode F tr lg lgT exT r2) (r1 * r2) m0 (bs ++ rest) = some d ∧
        ∀ c q, c < 2 → q < r1 * r2 → d c q = s'.val c q := by
  refine C18_log_roundtrip (bitsL F tr lg lgT exT) (bitsL_laws hF) cT E1 E2 _ _ r1 r2 2 32768 _ m s'
    str h hn ⟨by norm_num, by norm_num⟩ ⟨by norm_num, by norm_num⟩ f1 f2 hun ?_
  intro c q hc hq z0 z1
  obtain ⟨l, l1, l2⟩ := hsmall c q hc hq (of_decide_eq_false z0) (of_decide_eq_false z1)
  change Fp.lt (dec F (s'.cod c q)) (.fin (-99)) = false
  rw [l1]
  simpa [Fp.lt] using l2

end

/-- C93.  Data are bit patterns of numbers, zero or of magnitude between `2^-97` and `2^58`
(`float`) or `2^124` (`double`), fewer than `2^59` vertices, and the relative bound of the user is
at most 1; the code computes with IEEE-754 arithmetic, `log2` of a `double` is accurate to `2^-31`
(and exact for 2), the logarithm of an element is off by at most `2^-16` and `exp2` by at most
`2^-22` of its value, `sqrt` of a number is a number or infinite, the conversions to `int` that C++
leaves undefined give anything, `fabs` is either overload.  The compressor runs; if no code word of
the data codes is longer than 64 bits it produces a stream, and whatever the decompressor finds
behind it, every component it returns is a number with the sign of the original and a relative
error of at most the bound of the user plus `2^-14`, and zeros come back bit for bit. -/
theorem C93_log (F : Fmt) (r : Int)
    (hFr : (F = binary32 ∧ r = 58) ∨ (F = binary64 ∧ r = 124)) (tr : Pat binary64 → Int)
    (lg sq : Pat binary64 → Pat binary64) (lgT exT : Pat F → Pat F) (eps : ℚ)
    (hlg : LogOk lg eps) (hup : LogUp lg) (hsq : SqrtOk sq) (H : ExpLogOk F lgT exT)
    (hlb : dec binary64 (lg (enc binary64 false (.fin 2))) = .fin 1)
    (he0 : 0 ≤ eps) (he1 : eps ≤ p2 (-31)) (ov : Bool) (cT : Codec (Pat F)) (E1 E2 : Env)
    (r1 r2 : Nat) (hn : 0 < r1 * r2) (hn2 : r1 * r2 < 2 ^ 59)
    (maxEb : Pat binary64) (e : ℚ) (hm : dec binary64 maxEb = .fin e) (hep : 0 ≤ e)
    (her : e ≤ 1) (m : Online2D.Field (Pat F))
    (hf : ∀ q, q < r1 * r2 → LogSize F r (m.u q) ∧ LogSize F r (m.v q)) :
    ∃ s' str, runLog F tr lg sq lgT exT ov r1 r2 maxEb m = some (s', str) ∧
      (Shallow E2 (2 * 65536) str.dq →
        ∃ bs, VMode.compressBytes (bitsL F tr lg lgT exT) cT E1 E2 (2 * 1024) false
            (logMode F tr lg lgT exT r2) 2 32768 (logPlan F tr lg sq lgT exT ov r1 r2 maxEb)
            (r1 * r2) (arr2 m) = some (s'.val, bs) ∧
          ∀ rest m0, ∃ d, VMode.decompressBytes (bitsL F tr lg lgT exT) cT (2 * 1024) false 2
              (logMode F tr lg lgT exT r2) (r1 * r2) m0 (bs ++ rest) = some d ∧
            ∀ q, q < r1 * r2 → LogClose F (e + p2 (-14)) (d 0 q) (m.u q) ∧
              LogClose F (e + p2 (-14)) (d 1 q) (m.v q)) := by
  obtain ⟨s', str, h⟩ := runLog_defined F tr lg sq lgT exT ov r1 r2 maxEb m
  have hF : F.Ok := by
    rcases hFr with ⟨rfl, rfl⟩ | ⟨rfl, rfl⟩
    · exact ok32
    · exact ok64
  have key : (∀ c q, c < 2 → q < r1 * r2 → LogCl F e (s'.val c q) (arr2 m c q) ∧
      (dec F (arr2 m c q) ≠ .fin 0 → ∃ l, dec F (s'.cod c q) = .fin l ∧ -99 ≤ l)) ∧
      (∀ x ∈ str.eb, 0 ≤ x ∧ x ≤ 30) ∧ ∀ x ∈ str.dq, 0 ≤ x ∧ x ≤ 65536 := by
    rcases hFr with ⟨rfl, rfl⟩ | ⟨rfl, rfl⟩
    · exact runLog_close ok32 (by decide) (by decide) (by decide) (by decide) coef32 hlg hup hsq H
        hlb he0 he1 (by norm_num) (by norm_num) (by decide) hm hep her hf h
    · exact runLog_close ok64 (by decide) (by decide) (by decide) (by decide) coef64 hlg hup hsq H
        hlb he0 he1 (by norm_num) (by norm_num) (by decide) hm hep her hf h
  obtain ⟨hw, hc1, hc2⟩ := key
  obtain ⟨l1, -, l3, l4⟩ := VMode.compress_lengths _ _ _ _ _ _ h
  have l2 := (VMode.compress_lengths _ _ _ _ _ _ h).2.1 rfl
  change _ = 2 * (r1 * r2) at l2
  change _ ≤ 2 * (r1 * r2) at l4
  refine ⟨s', str, h, fun hs => ?_⟩
  have f1 : Fits E1 (2 * 1024) str.eb := fits_of_low (ne_nil_of_length (by omega)) (by omega)
    (by norm_num) (by norm_num) (fun x hx => by have := hc1 x hx; omega)
  have f2 : Fits E2 (2 * 65536) str.dq := fits_of_range (ne_nil_of_length (by omega)) (by omega)
    (by norm_num) (fun x hx => by have := hc2 x hx; push_cast; omega) hs
  obtain ⟨bs, hbs, hd⟩ := log_bytes hF cT E1 E2 ov r1 r2 maxEb m s' str h hn f1 f2 (by omega)
    (fun c q hc hq n0 n1 => (hw c q hc hq).2 (by
      have : c = 0 ∨ c = 1 := by omega
      rcases this with rfl | rfl
      · exact n0
      · exact n1))
  refine ⟨bs, hbs, fun rest m0 => ?_⟩
  obtain ⟨d, d1, d2⟩ := hd rest m0
  refine ⟨d, d1, fun q hq => ?_⟩
  rw [d2 0 q (by norm_num) hq, d2 1 q (by norm_num) hq]
  exact ⟨logClose_of_cl hep her (hf q hq).1 (hw 0 q (by norm_num) hq).1,
    logClose_of_cl hep her (hf q hq).2 (hw 1 q (by norm_num) hq).1⟩

/-! ### Examples and witness -/

/-- What can be observed of a run: number of values stored verbatim, indices, and values and
logarithms of both components of the vertices in a list. -/
def seenL (l : List Nat) (r : Option (State (Pat binary32) × VMode.Streams (Pat binary32))) :
    Option (Nat × List Int × List Int × List (Fp ℚ)) :=
  r.map fun (f, s) => (s.un.length, s.eb, s.dq,
    l.flatMap fun q => [f.val 0 q, f.val 1 q, f.cod 0 q, f.cod 1 q].map (dec binary32))

theorem seenL_some {l : List Nat}
    {r : Option (State (Pat binary32) × VMode.Streams (Pat binary32))} {k a b x}
    (h : seenL l r = some (k, a, b, x)) :
    ∃ f s, r = some (f, s) ∧ s.un.length = k ∧ s.eb = a ∧ s.dq = b ∧
      (l.flatMap fun q => [f.val 0 q, f.val 1 q, f.cod 0 q, f.cod 1 q].map (dec binary32)) = x := by
  unfold seenL at h
  obtain ⟨⟨f, s⟩, hr, h1⟩ := Option.map_eq_some_iff.1 h
  simp only [Prod.mk.injEq] at h1
  exact ⟨f, s, hr, h1.1, h1.2.1, h1.2.2.1, h1.2.2.2⟩

theorem fineLog2_two : dec binary64 (fineLog2 (enc binary64 false (.fin 2))) = .fin 1 := by
  decide +kernel

/-- The relative bound 1. -/
def ebUnit : Pat binary64 := enc binary64 false (.fin 1)

/-- A field of small numbers. -/
def smallField : Online2D.Field (Pat binary32) :=
  ⟨fun q => [f32 3, f32 3, f32 3, f32 (-1)].getD q 0,
   fun q => [f32 5, f32 1, f32 3, f32 3].getD q 0⟩

/-- Whether a pattern stands for a number between `2^-97` and `2^r`. -/
def logSizeB (F : Fmt) (r : Int) (a : Pat F) : Bool :=
  match dec F a with
  | .fin x => decide (p2 (-97) ≤ |x|) && decide (|x| ≤ p2 r)
  | _ => false

theorem logSize_of {F : Fmt} {r : Int} {a : Pat F} (h : logSizeB F r a = true) :
    LogSize F r a := by
  unfold logSizeB at h
  split at h
  · rename_i x hx
    simp only [Bool.and_eq_true, decide_eq_true_eq] at h
    exact ⟨x, hx, Or.inr h.1, h.2⟩
  · cases h

theorem small_seen_log (ov : Bool) :
    seenL [0, 2] (runLog binary32 (fun _ => 0) fineLog2 bsqrt (libLog binary32) (libExp binary32) ov
      2 2 ebUnit smallField) =
    some (2, [23, 23, 22, 0], [32769, 32769, 32768, 32767, 32768, 32768, 32768, 32768],
      [.fin 4, .fin 4, .fin 2, .fin 2, .fin 4, .fin 4, .fin 2, .fin 2]) := by
  cases ov <;> decide +kernel

/-- The hypotheses of `C93_log` are met by `smallField` with the relative bound 1: the first three of
its four vertices are coded, with reconstructions that differ from the data, and the bytes decode
to numbers within the bound. -/
example (ov : Bool) (E1 E2 : Env) : ∃ s' str bs,
    runLog binary32 (fun _ => 0) fineLog2 bsqrt (libLog binary32) (libExp binary32) ov 2 2 ebUnit
      smallField = some (s', str) ∧ str.eb = [23, 23, 22, 0] ∧
    dec binary32 (s'.val 0 0) ≠ dec binary32 (smallField.u 0) ∧
    VMode.compressBytes (bitsL binary32 (fun _ => 0) fineLog2 (libLog binary32) (libExp binary32))
      (wordCodec 4) E1 E2 (2 * 1024) false
      (logMode binary32 (fun _ => 0) fineLog2 (libLog binary32) (libExp binary32) 2) 2 32768
      (logPlan binary32 (fun _ => 0) fineLog2 bsqrt (libLog binary32) (libExp binary32) ov 2 2
        ebUnit) (2 * 2) (arr2 smallField) = some (s'.val, bs) ∧
    ∀ m0, ∃ d, VMode.decompressBytes
        (bitsL binary32 (fun _ => 0) fineLog2 (libLog binary32) (libExp binary32)) (wordCodec 4)
        (2 * 1024) false 2
        (logMode binary32 (fun _ => 0) fineLog2 (libLog binary32) (libExp binary32) 2) (2 * 2) m0 bs =
          some d ∧
      ∀ q, q < 2 * 2 → LogClose binary32 (1 + p2 (-14)) (d 0 q) (smallField.u q) := by
  have hm : dec binary64 ebUnit = .fin 1 := by decide +kernel
  obtain ⟨s', str, h, hc⟩ := C93_log binary32 58 (Or.inl ⟨rfl, rfl⟩) (fun _ => 0) fineLog2 bsqrt
    (libLog binary32) (libExp binary32) 0 fineLog2_ok fineLog2_up bsqrt_ok
    (lib_ok ok32 (by decide) (by decide) (by decide)) fineLog2_two (le_refl 0) (p2_pos _).le ov
    (wordCodec 4) E1 E2 2 2 (by norm_num) (by norm_num) ebUnit _ hm (by norm_num) (by norm_num)
    smallField (by
      intro q hq
      have : ∀ q ∈ [0, 1, 2, 3], logSizeB binary32 58 (smallField.u q) = true ∧
        logSizeB binary32 58 (smallField.v q) = true := by decide +kernel
      obtain ⟨a, b⟩ := this q (by simp; omega)
      exact ⟨logSize_of a, logSize_of b⟩)
  obtain ⟨f, t, h1, h2, h3, h4, h5⟩ := seenL_some (small_seen_log ov)
  rw [h1] at h
  simp only [Option.some.injEq, Prod.mk.injEq] at h
  obtain ⟨rfl, rfl⟩ := h
  obtain ⟨bs, b1, b2⟩ := hc
    (shallow_of_short (by rw [h4]; simp) (by rw [h4]; simp) (by norm_num) (by rw [h4]; simp))
  refine ⟨f, t, bs, h1, h3, ?_, b1, fun m0 => ?_⟩
  · have e : dec binary32 (f.val 0 0) = .fin 4 := by
      simp only [List.flatMap_cons, List.map_cons, List.cons_append, List.cons.injEq] at h5
      exact h5.1
    rw [e]
    decide +kernel
  · obtain ⟨d, d1, d2⟩ := b2 [] m0
    rw [List.append_nil] at d1
    exact ⟨d, d1, fun q hq => (d2 q hq).1⟩

/-- One vertex, with the components `1.5 * 2^127` and 3. -/
def bigVertex : Online2D.Field (Pat binary32) := ⟨fun _ => 0x7F400000#32, fun _ => f32 3⟩

theorem big_seen_log (ov : Bool) :
    seenL [0] (runLog binary32 (fun _ => 0) fineLog2 bsqrt (libLog binary32) (libExp binary32) ov
      1 1 ebUnit bigVertex) =
    some (0, [23], [32832, 32769], [.inf false, .fin 4, .fin 128, .fin 2]) := by
  cases ov <;> decide +kernel

/-- C93 for all finite data is false: a vertex with the finite components `1.5 * 2^127` and 3 and
the relative bound 1 comes back from the bytes as infinity and 4.  The logarithm is coded within
the bound, as 128; nothing checks the result of `exp2`. -/
theorem C93_overflow (ov : Bool) (E1 E2 : Env) :
    ExpLogOk binary32 (libLog binary32) (libExp binary32) ∧
    dec binary32 (bigVertex.u 0) = .fin (3 / 2 * p2 127) ∧
    dec binary32 (bigVertex.v 0) = .fin 3 ∧ dec binary64 ebUnit = .fin 1 ∧
    ∃ s' bs, VMode.compressBytes
        (bitsL binary32 (fun _ => 0) fineLog2 (libLog binary32) (libExp binary32))
        (wordCodec 4) E1 E2 (2 * 1024) false
        (logMode binary32 (fun _ => 0) fineLog2 (libLog binary32) (libExp binary32) 1) 2 32768
        (logPlan binary32 (fun _ => 0) fineLog2 bsqrt (libLog binary32) (libExp binary32) ov 1 1
          ebUnit) (1 * 1) (arr2 bigVertex) = some (s', bs) ∧
      ∀ rest m0, ∃ d, VMode.decompressBytes
          (bitsL binary32 (fun _ => 0) fineLog2 (libLog binary32) (libExp binary32)) (wordCodec 4)
          (2 * 1024) false 2
          (logMode binary32 (fun _ => 0) fineLog2 (libLog binary32) (libExp binary32) 1) (1 * 1) m0
          (bs ++ rest) = some d ∧
        dec binary32 (d 0 0) = .inf false ∧ dec binary32 (d 1 0) = .fin 4 := by
  refine ⟨lib_ok ok32 (by decide) (by decide) (by decide), by decide +kernel, by decide +kernel,
    by decide +kernel, ?_⟩
  obtain ⟨f, t, h1, h2, h3, h4, h5⟩ := seenL_some (big_seen_log ov)
  simp only [List.flatMap_cons, List.flatMap_nil, List.append_nil, List.map_cons, List.map_nil,
    List.cons.injEq, and_true] at h5
  obtain ⟨v0, v1, c0, c1⟩ := h5
  have f1 : Fits E1 (2 * 1024) t.eb :=
    fits_of_short _ _ _ (by rw [h3]; simp) (by rw [h3]; simp) (by norm_num) (by rw [h3]; simp)
  have f2 : Fits E2 (2 * 65536) t.dq :=
    fits_of_short _ _ _ (by rw [h4]; simp) (by rw [h4]; simp) (by norm_num) (by rw [h4]; simp)
  obtain ⟨bs, hbs, hd⟩ := log_bytes ok32 (wordCodec 4) E1 E2 ov 1 1 ebUnit bigVertex f t h1
    (by norm_num) f1 f2 (by rw [h2]; norm_num) (by
      intro c q hc hq _ _
      have : q = 0 := by omega
      subst this
      have : c = 0 ∨ c = 1 := by omega
      rcases this with rfl | rfl
      · exact ⟨128, c0, by norm_num⟩
      · exact ⟨2, c1, by norm_num⟩)
  refine ⟨f.val, bs, hbs, fun rest m0 => ?_⟩
  obtain ⟨d, d1, d2⟩ := hd rest m0
  refine ⟨d, d1, ?_, ?_⟩
  · rw [d2 0 0 (by norm_num) (by norm_num)]; exact v0
  · rw [d2 1 0 (by norm_num) (by norm_num)]; exact v1

end CpSZ.Ieee
