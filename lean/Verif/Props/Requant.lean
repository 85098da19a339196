import Verif.Requant
import Verif.Props.Block3
/-
C72: recompressing a decompressed field with the same bounds gives the same stream.
-/

namespace CpSZ.Block

open Buf3

variable {T F D : Type}

/-- The quantiser with this bound finds the same code for its own reconstruction. -/
def Stable (O : QOps T F D) (ok : T → Prop) (prec : D) (cap radius : Int) : Prop :=
  ∀ pred cur, ok cur → quantize O pred (quantize O pred cur prec cap radius).2.1 prec cap radius =
    quantize O pred cur prec cap radius

theorem encPt_again (G : Cfg T F D) (ok : T → Prop) (hm : G.mean = none) (data data' : Nat → T)
    (s : St T F) (p : Pt) (hok : ok (data p.pos))
    (hL : (G.zeroCheck && G.isZero (G.prec p.pos)) = false →
      Stable G.O ok (G.prec p.pos) G.capL G.radius)
    (hR : (G.zeroCheck && G.isZero (G.prec p.pos)) = false →
      Stable G.O ok (G.prec p.pos) G.cap G.radius)
    (h : data' p.pos = (encPt G data s p).2.2) : encPt G data' s p = encPt G data s p := by
  unfold encPt at h ⊢
  simp only [hm] at h ⊢
  cases hz : G.zeroCheck && G.isZero (G.prec p.pos) with
  | true =>
    rw [hz] at h
    simp only [if_true] at h ⊢
    rw [h]
  | false =>
    rw [hz] at h
    simp only [Bool.false_eq_true, if_false] at h ⊢
    cases hmo : s.mode with
    | none =>
      rw [hmo] at h
      simp only at h ⊢
      rw [h, hL hz _ _ hok]
    | some c =>
      rw [hmo] at h
      simp only at h ⊢
      rw [h, hR hz _ _ hok]

/-- The encoder emits the same streams for its own reconstruction. -/
theorem runEnc_again (G : Cfg T F D) (ok : T → Prop) (hm : G.mean = none) (data data' : Nat → T)
    (es : List Ev) (hok : ∀ p ∈ positions es, ok (data p))
    (hL : ∀ p ∈ positions es, (G.zeroCheck && G.isZero (G.prec p)) = false →
      Stable G.O ok (G.prec p) G.capL G.radius)
    (hR : ∀ p ∈ positions es, (G.zeroCheck && G.isZero (G.prec p)) = false →
      Stable G.O ok (G.prec p) G.cap G.radius) (s : St T F)
    (h : ∀ w ∈ (runEnc G data es s).recon, data' w.1 = w.2) :
    runEnc G data' es s = runEnc G data es s := by
  induction es generalizing s with
  | nil => rfl
  | cons e es ih =>
    cases e with
    | start o sx sy sz =>
      have e0 : encEv G data' s (.start o sx sy sz) = encEv G data s (.start o sx sy sz) := rfl
      unfold runEnc at h ⊢
      rw [e0]
      simp only
      rw [ih hok hL hR _ (fun w hw => h w (by
        simp only [Out.app, List.mem_append]; exact Or.inr hw))]
    | copy src len =>
      have e0 : encEv G data' s (.copy src len) = encEv G data s (.copy src len) := rfl
      unfold runEnc at h ⊢
      rw [e0]
      simp only
      rw [ih hok hL hR _ (fun w hw => h w (by
        simp only [Out.app, List.mem_append]; exact Or.inr hw))]
    | pt p =>
      have hp : p.pos ∈ positions (.pt p :: es) := by simp [positions]
      have hsub : ∀ q ∈ positions es, q ∈ positions (.pt p :: es) := by
        intro q hq; simp [positions, hq]
      unfold runEnc at h ⊢
      have e1 : encPt G data' s p = encPt G data s p := by
        refine encPt_again G ok hm data data' s p (hok _ hp) (hL _ hp) (hR _ hp) ?_
        exact h (p.pos, (encPt G data s p).2.2) (by simp [encEv, Out.app])
      have e0 : encEv G data' s (.pt p) = encEv G data s (.pt p) := by
        simp only [encEv, e1]
      rw [e0]
      simp only
      rw [ih (fun q hq => hok q (hsub q hq)) (fun q hq => hL q (hsub q hq))
        (fun q hq => hR q (hsub q hq)) _ (fun w hw => h w (by
          simp only [Out.app, List.mem_append]; exact Or.inr hw))]

/-- 2D, any arithmetic: the run over the reconstruction is the run over the input. -/
theorem outEb2_again (B : BOps T F D) (ok : T → Prop) (data : Nat → T) (prec : Nat → D)
    (r1 r2 bs : Nat) (h1 : 0 < r1) (h2 : 0 < r2) (hb : 0 < bs)
    (hok : ∀ p < r1 * r2, ok (data p))
    (hs : ∀ p < r1 * r2, B.isZero (prec p) = false → Stable B.O ok (prec p) 65536 32768)
    (out0 : Nat → T) :
    outEb2 B (writes out0 (outEb2 B data prec r1 r2 bs).recon) prec r1 r2 bs =
      outEb2 B data prec r1 r2 bs := by
  have hperm := tiling2 r1 r2 bs h1 h2 hb
  have hlt : ∀ p ∈ positions (planC2 r1 r2 bs), p < r1 * r2 := fun p hp =>
    List.mem_range.1 (hperm.mem_iff.1 hp)
  refine runEnc_again (cfg2 B r2 bs (false, B.zeroT) 32768 prec true B.tenth
    (fun _ _ _ _ => none)) ok rfl data _ (planC2 r1 r2 bs) (fun p hp => hok p (hlt p hp))
    (fun p hp hz => hs p (hlt p hp) (by simpa [cfg2] using hz))
    (fun p hp hz => hs p (hlt p hp) (by simpa [cfg2] using hz)) (initSt B 3) ?_
  intro w hw
  refine writes_mem out0 _ ?_ w hw
  rw [outEb2, runEnc_recon_pos]
  exact hperm.nodup_iff.2 List.nodup_range

/-- 3D, any arithmetic. -/
theorem outEb3_again (B : BOps T F D) (ok : T → Prop) (data : Nat → T) (prec : Nat → D)
    (r1 r2 r3 bs : Nat) (h1 : 0 < r1) (h2 : 0 < r2) (h3 : 0 < r3) (hb : 0 < bs)
    (hok : ∀ p < r1 * r2 * r3, ok (data p))
    (hs : ∀ p < r1 * r2 * r3, B.isZero (prec p) = false → Stable B.O ok (prec p) 32768 16384)
    (out0 : Nat → T) :
    outEb3 B (writes out0 (outEb3 B data prec r1 r2 r3 bs).recon) prec r1 r2 r3 bs =
      outEb3 B data prec r1 r2 r3 bs := by
  have hperm : (positions (plan3 r1 r2 r3 bs)).Perm (List.range (r1 * r2 * r3)) :=
    tiling3 r1 r2 r3 bs h1 h2 h3 hb
  have hlt : ∀ p ∈ positions (plan3 r1 r2 r3 bs), p < r1 * r2 * r3 := fun p hp =>
    List.mem_range.1 (hperm.mem_iff.1 hp)
  refine runEnc_again (cfgEb3 B r2 r3 bs prec) ok rfl data _ (plan3 r1 r2 r3 bs)
    (fun p hp => hok p (hlt p hp))
    (fun p hp hz => hs p (hlt p hp) (by simpa [cfgEb3, cfg3] using hz))
    (fun p hp hz => hs p (hlt p hp) (by simpa [cfgEb3, cfg3] using hz)) (initSt B 4) ?_
  intro w hw
  refine writes_mem out0 _ ?_ w hw
  rw [outEb3, runEnc_recon_pos]
  exact hperm.nodup_iff.2 List.nodup_range

/-! ### The streams -/

/-- **C72** For any arithmetic in which the quantiser finds the same code for its own
reconstruction: the field that `sz_decompress_2d_with_eb` returns is compressed, with the same
bounds, to the same bytes as the original field.  Compressing and decompressing again and again
changes nothing after the first time.  (`E1'`, `E2'` are uninitialised memory in the second run.) -/
theorem C72_recompress_2d (B : BOps T F D) (f : Fmt T F D) (hskip : f.skip = f.cT.size)
    (E1 E2 : Env) (data : Nat → T) (prec : Nat → D) (r1 r2 bs : Nat) (indep : Bool)
    (h1 : 0 < r1) (h2 : 0 < r2) (hb : 0 < bs) (hb31 : bs < 2 ^ 31) (hn : r1 * r2 < 2 ^ 58)
    (hcode : ∀ p < r1 * r2, B.isZero (prec p) = false → ∀ diff q,
      linQuant B.O.toDOps diff (prec p) 65536 32768 = some q → 0 < q ∧ q < 65536)
    (hd : DepthOK E2 131072 (outEb2 B data prec r1 r2 bs).ty)
    (ok : T → Prop) (hok : ∀ p < r1 * r2, ok (data p))
    (hs : ∀ p < r1 * r2, B.isZero (prec p) = false → ∀ pred cur, ok cur →
      quantize B.O pred (quantize B.O pred cur (prec p) 65536 32768).2.1 (prec p) 65536 32768 =
        quantize B.O pred cur (prec p) 65536 32768) :
    ∃ bytes, compressEb2 B f E1 E2 data prec r1 r2 bs indep = some bytes ∧
      ∀ rest out0, ∃ out, decompressEb2 B f prec r1 r2 out0 (bytes ++ rest) = some out ∧
        ∀ E1' E2' indep', compressEb2 B f E1' E2' out prec r1 r2 bs indep' =
          compressEb2 B f E1' E2' data prec r1 r2 bs indep' := by
  obtain ⟨bytes, e, r⟩ := eb2_roundtrip B f hskip E1 E2 data prec r1 r2 bs indep h1 h2 hb hb31 hn
    hcode hd
  refine ⟨bytes, e, fun rest out0 => ?_⟩
  obtain ⟨out, ho, -, -, hw⟩ := r rest out0
  refine ⟨out, ho, fun E1' E2' indep' => ?_⟩
  unfold compressEb2
  rw [hw, outEb2_again B ok data prec r1 r2 bs h1 h2 hb hok hs out0]

/-- **C72** in 3D, for the field determined by the stream of `sz_compress_3d_with_eb` (C60). -/
theorem C72_recompress_3d (B : BOps T F D) (f : Fmt T F D)
    (E1 E2 : Env) (data : Nat → T) (prec : Nat → D) (r1 r2 r3 bs : Nat) (indep : Bool)
    (h1 : 0 < r1) (h2 : 0 < r2) (h3 : 0 < r3) (hb : 0 < bs) (hb31 : bs < 2 ^ 31)
    (hn : r1 * r2 * r3 < 2 ^ 58)
    (hcode : ∀ p < r1 * r2 * r3, B.isZero (prec p) = false → ∀ diff q,
      linQuant B.O.toDOps diff (prec p) 32768 16384 = some q → 0 < q ∧ q < 32768)
    (hd : DepthOK E2 65536 (outEb3 B data prec r1 r2 r3 bs).ty)
    (ok : T → Prop) (hok : ∀ p < r1 * r2 * r3, ok (data p))
    (hs : ∀ p < r1 * r2 * r3, B.isZero (prec p) = false → ∀ pred cur, ok cur →
      quantize B.O pred (quantize B.O pred cur (prec p) 32768 16384).2.1 (prec p) 32768 16384 =
        quantize B.O pred cur (prec p) 32768 16384) :
    ∃ bytes, compressEb3 B f E1 E2 data prec r1 r2 r3 bs indep = some bytes ∧
      ∀ rest out0, ∃ out, readEb3 B f prec r1 r2 r3 out0 (bytes ++ rest) = some out ∧
        ∀ E1' E2' indep', compressEb3 B f E1' E2' out prec r1 r2 r3 bs indep' =
          compressEb3 B f E1' E2' data prec r1 r2 r3 bs indep' := by
  obtain ⟨bytes, e, r⟩ := C60_decodable B f E1 E2 data prec r1 r2 r3 bs indep h1 h2 h3 hb hb31 hn
    hcode hd
  refine ⟨bytes, e, fun rest out0 => ?_⟩
  obtain ⟨out, ho, -, hout, hrec⟩ := r rest out0
  refine ⟨out, ho, fun E1' E2' indep' => ?_⟩
  have hw : out = writes out0 (outEb3 B data prec r1 r2 r3 bs).recon := by
    funext p
    rcases Nat.lt_or_ge p (r1 * r2 * r3) with hp | hp
    · have hX : p / (r2 * r3) < r1 := by
        rw [Nat.div_lt_iff_lt_mul (Nat.mul_pos h2 h3)]; rwa [← Nat.mul_assoc]
      have hY : p % (r2 * r3) / r3 < r2 := by
        rw [Nat.div_lt_iff_lt_mul h3]; exact Nat.mod_lt _ (Nat.mul_pos h2 h3)
      have hZ : p % (r2 * r3) % r3 < r3 := Nat.mod_lt _ h3
      have hpe : idx3 r2 r3 (p / (r2 * r3)) (p % (r2 * r3) / r3) (p % (r2 * r3) % r3) = p := by
        unfold idx3
        have a := Nat.div_add_mod p (r2 * r3)
        have b := Nat.div_add_mod (p % (r2 * r3)) r3
        nlinarith
      have := Buf3.isRecon_unique B ⟨r1, r2, r3, bs, false⟩ (cfgEb3 B r2 r3 bs prec)
        (fun _ _ _ _ => rfl) data out (writes out0 (outEb3 B data prec r1 r2 r3 bs).recon)
        (fun X hX Y hY Z hZ _ => by
          rw [hrec X hX Y hY Z hZ]
          unfold lorStep org
          simp only [cfgEb3, cfg3, Bool.true_and, Bool.false_eq_true, if_false]
          split <;> rfl)
        (eb3_recon B data prec r1 r2 r3 bs h1 h2 h3 hb out0) _ hX _ hY _ hZ
      rw [hpe] at this
      exact this
    · rw [hout p hp, writes_not_mem]
      rw [outEb3, runEnc_recon_pos]
      intro hc
      have := List.mem_range.1 ((tiling3 r1 r2 r3 bs h1 h2 h3 hb).mem_iff.1 hc)
      omega
  unfold compressEb3
  rw [hw, outEb3_again B ok data prec r1 r2 r3 bs h1 h2 h3 hb hok hs out0]

/-! ### Floating point -/

/-- **C72** for `float` data and rounding to nearest (the `double` operations may round
otherwise): all streams of the run over the reconstructed field, for all fields of `float` values,
all bounds, grids and block sizes, are those of the run over the input. -/
theorem C72_float_2d {rnd rnd' : ℝ → ℤ} (hr : IsNearest rnd) (hr' : IsIntRounding rnd')
    (rF lg : ℝ → ℝ) (data prec : Nat → ℝ) (r1 r2 bs : Nat) (h1 : 0 < r1) (h2 : 0 < r2)
    (hb : 0 < bs) (hok : ∀ p < r1 * r2, fl rnd 24 (data p) = data p) (out0 : Nat → ℝ) :
    let B := roundedB (fl rnd 24) rF (fl rnd' 53) lg
    outEb2 B (writes out0 (outEb2 B data prec r1 r2 bs).recon) prec r1 r2 bs =
      outEb2 B data prec r1 r2 bs := by
  intro B
  exact outEb2_again B (fun x => fl rnd 24 x = x) data prec r1 r2 bs h1 h2 hb hok
    (fun p _ _ pred cur hc => quantize_again_float hr hr' lg (R := 32768) (by norm_num) hc) out0

/-- **C72** for `double` data. -/
theorem C72_double_2d {rnd : ℝ → ℤ} (hr : IsNearest rnd)
    (rF lg : ℝ → ℝ) (data prec : Nat → ℝ) (r1 r2 bs : Nat) (h1 : 0 < r1) (h2 : 0 < r2)
    (hb : 0 < bs) (hok : ∀ p < r1 * r2, fl rnd 53 (data p) = data p) (out0 : Nat → ℝ) :
    let B := roundedB (fl rnd 53) rF (fl rnd 53) lg
    outEb2 B (writes out0 (outEb2 B data prec r1 r2 bs).recon) prec r1 r2 bs =
      outEb2 B data prec r1 r2 bs := by
  intro B
  exact outEb2_again B (fun x => fl rnd 53 x = x) data prec r1 r2 bs h1 h2 hb hok
    (fun p _ _ pred cur hc => quantize_again_double hr lg (R := 32768) (by norm_num) hc) out0

/-- **C72** for `float` data in 3D. -/
theorem C72_float_3d {rnd rnd' : ℝ → ℤ} (hr : IsNearest rnd) (hr' : IsIntRounding rnd')
    (rF lg : ℝ → ℝ) (data prec : Nat → ℝ) (r1 r2 r3 bs : Nat) (h1 : 0 < r1) (h2 : 0 < r2)
    (h3 : 0 < r3) (hb : 0 < bs) (hok : ∀ p < r1 * r2 * r3, fl rnd 24 (data p) = data p)
    (out0 : Nat → ℝ) :
    let B := roundedB (fl rnd 24) rF (fl rnd' 53) lg
    outEb3 B (writes out0 (outEb3 B data prec r1 r2 r3 bs).recon) prec r1 r2 r3 bs =
      outEb3 B data prec r1 r2 r3 bs := by
  intro B
  exact outEb3_again B (fun x => fl rnd 24 x = x) data prec r1 r2 r3 bs h1 h2 h3 hb hok
    (fun p _ _ pred cur hc => quantize_again_float hr hr' lg (R := 16384) (by norm_num) hc) out0

/-- **C72** for `double` data in 3D. -/
theorem C72_double_3d {rnd : ℝ → ℤ} (hr : IsNearest rnd)
    (rF lg : ℝ → ℝ) (data prec : Nat → ℝ) (r1 r2 r3 bs : Nat) (h1 : 0 < r1) (h2 : 0 < r2)
    (h3 : 0 < r3) (hb : 0 < bs) (hok : ∀ p < r1 * r2 * r3, fl rnd 53 (data p) = data p)
    (out0 : Nat → ℝ) :
    let B := roundedB (fl rnd 53) rF (fl rnd 53) lg
    outEb3 B (writes out0 (outEb3 B data prec r1 r2 r3 bs).recon) prec r1 r2 r3 bs =
      outEb3 B data prec r1 r2 r3 bs := by
  intro B
  exact outEb3_again B (fun x => fl rnd 53 x = x) data prec r1 r2 r3 bs h1 h2 h3 hb hok
    (fun p _ _ pred cur hc => quantize_again_double hr lg (R := 16384) (by norm_num) hc) out0

/-- **C72** in exact arithmetic. -/
theorem C72_exact (data prec : Nat → ℝ) (r1 r2 bs : Nat) (h1 : 0 < r1) (h2 : 0 < r2)
    (hb : 0 < bs) (out0 : Nat → ℝ) :
    outEb2 realB (writes out0 (outEb2 realB data prec r1 r2 bs).recon) prec r1 r2 bs =
      outEb2 realB data prec r1 r2 bs :=
  outEb2_again realB (fun _ => True) data prec r1 r2 bs h1 h2 hb (fun _ _ => trivial)
    (fun _ _ _ _ _ _ => quantize_again_real (R := 32768) (by norm_num)) out0

/-! ### Examples -/

theorem satQ_code (d : W) : linQuant satQ.toDOps d 4#64 65536 32768 =
    if -262140 < d.toInt ∧ d.toInt < 262140 then
      some ((if 0 < d.toInt then (d.toInt / 4 + 1) / 2 else -((-d.toInt / 4 + 1) / 2)) + 32768)
    else none := by
  unfold linQuant
  simp only [satQ, sat_toInt, decide_eq_true_eq, show (4#64).toInt = 4 from rfl]
  generalize d.toInt = x
  have hax : (0 : Int) ≤ |x| := abs_nonneg x
  rw [show (max (-2 ^ 62) (min (2 ^ 62) |x|) : Int).tdiv 4 =
    (max (-2 ^ 62) (min (2 ^ 62) |x|) : Int) / 4 from Int.tdiv_eq_ediv_of_nonneg (by omega)]
  have habs : |x| = if 0 < x then x else -x := by
    split
    · exact abs_of_pos ‹_›
    · exact abs_of_nonpos (by omega)
  rw [habs] at hax ⊢
  by_cases hx : 0 < x
  · simp only [hx, if_true] at hax ⊢
    rw [if_pos (by omega : (max (-2 ^ 62) (min (2 ^ 62) 0) : Int) < x), sat_toInt,
      show (max (-2 ^ 62) (min (2 ^ 62) 2) : Int) = 2 by omega,
      Int.tdiv_eq_ediv_of_nonneg (by omega)]
    by_cases h : x < 262140
    · rw [if_pos (by omega), if_pos (by omega)]
      congr 1
      omega
    · rw [if_neg (by omega), if_neg (by omega)]
  · simp only [hx, if_false] at hax ⊢
    rw [if_neg (by omega : ¬ (max (-2 ^ 62) (min (2 ^ 62) 0) : Int) < x), sat_toInt,
      show (max (-2 ^ 62) (min (2 ^ 62) 2) : Int) = 2 by omega]
    have e : ∀ z : Int, 0 ≤ z → (max (-2 ^ 62) (min (2 ^ 62) (-(max (-2 ^ 62) (min (2 ^ 62) z)))) : Int)
        = -(min (2 ^ 62) z) := by intro z hz; omega
    rw [e _ (by omega), Int.neg_tdiv, Int.tdiv_eq_ediv_of_nonneg (by omega)]
    by_cases h : -262140 < x
    · rw [if_pos (by omega), if_pos (by omega)]
      congr 1
      omega
    · rw [if_neg (by omega), if_neg (by omega)]

theorem satQ_stable (p : Nat) (hz : satB.isZero (exPrec p) = false) (pred cur : W)
    (hc : -2 ^ 62 ≤ cur.toInt ∧ cur.toInt ≤ 2 ^ 62) :
    quantize satB.O pred (quantize satB.O pred cur (exPrec p) 65536 32768).2.1 (exPrec p)
      65536 32768 = quantize satB.O pred cur (exPrec p) 65536 32768 := by
  unfold exPrec at hz ⊢
  by_cases hp : p = 4
  · simp [hp, satB] at hz
  rw [if_neg hp]
  apply quantize_again
  intro q hq dec hle _
  have hdec : dec.toInt = max (-2 ^ 62) (min (2 ^ 62) (pred.toInt +
      max (-2 ^ 62) (min (2 ^ 62) (max (-2 ^ 62) (min (2 ^ 62) (2 * (q - 32768))) * 4)))) := by
    show (sat (pred.toInt + (sat ((sat (2 * (q - 32768))).toInt * (4#64).toInt)).toInt)).toInt = _
    rw [sat_toInt, sat_toInt, sat_toInt]
    rfl
  clear_value dec
  have hle' : max (-2 ^ 62) (min (2 ^ 62) |dec.toInt - cur.toInt|) ≤ 4 := by
    have : (sat |dec.toInt - cur.toInt|).toInt ≤ 4 := of_decide_eq_true hle
    rwa [sat_toInt] at this
  have hle2 : |dec.toInt - cur.toInt| ≤ 4 := by omega
  rw [abs_le] at hle2
  constructor
  · have hq1 : linQuant satQ.toDOps (sat (cur.toInt - pred.toInt)) 4#64 65536 32768 = some q := hq
    show linQuant satQ.toDOps (sat (dec.toInt - pred.toInt)) 4#64 65536 32768 = some q
    rw [satQ_code, sat_toInt] at hq1 ⊢
    generalize cur.toInt = c at *
    generalize pred.toInt = f at *
    generalize dec.toInt = d at *
    split at hq1
    case isFalse => cases hq1
    rename_i hr
    simp only [Option.some.injEq] at hq1
    split at hq1
    · rw [if_pos (by omega)]
      congr 1
      split <;> omega
    · rw [if_pos (by omega)]
      congr 1
      split <;> omega
  · show decide ((sat |dec.toInt - dec.toInt|).toInt ≤ (4#64).toInt) = true
    rw [sub_self, abs_zero]
    decide

-- The hypotheses of `C72_recompress_2d` hold for fields on a 3 x 4 grid with mixed bounds.
example (E1 E2 : Env) (data : Nat → W)
    (h : ∀ p, -2 ^ 62 ≤ (data p).toInt ∧ (data p).toInt ≤ 2 ^ 62) :
    ∃ bytes, compressEb2 satB (satFmt 8) E1 E2 data exPrec 3 4 2 false = some bytes ∧
      ∀ rest out0, ∃ out,
        decompressEb2 satB (satFmt 8) exPrec 3 4 out0 (bytes ++ rest) = some out ∧
        ∀ E1' E2' indep', compressEb2 satB (satFmt 8) E1' E2' out exPrec 3 4 2 indep' =
          compressEb2 satB (satFmt 8) E1' E2' data exPrec 3 4 2 indep' := by
  refine C72_recompress_2d satB (satFmt 8) rfl E1 E2 data exPrec 3 4 2 false (by decide)
    (by decide) (by decide) (by decide) (by decide) (fun p _ => exPrec_codes p) ?_
    (fun x => -2 ^ 62 ≤ x.toInt ∧ x.toInt ≤ 2 ^ 62) (fun p _ => h p)
    (fun p _ hz pred cur hc => satQ_stable p hz pred cur hc)
  have hty : (outEb2 satB data exPrec 3 4 2).ty.length = 12 := rfl
  refine depthOK_of_short E2 131072 _ ?_ (by rw [hty]; omega) (by norm_num) ?_
  · intro h
    rw [h] at hty
    cases hty
  · intro t ht
    have hG : Good (cfg2 satB 4 2 (false, satB.zeroT) 32768 exPrec true satB.tenth
        (fun _ _ _ _ => none)) (fun _ => True) := by
      refine ⟨fun p _ hz d q h => ?_, fun p _ hz d q h => ?_, by decide, ?_, by decide, ?_⟩
      · have := exPrec_codes p (by simpa [cfg2] using hz) d q h
        refine ⟨this.1, ?_, fun h => by simp [cfg2] at h⟩
        show q < 2 * ((32768 : Nat) : Int)
        omega
      · have := exPrec_codes p (by simpa [cfg2] using hz) d q h
        refine ⟨this.1, ?_⟩
        show q < 2 * ((32768 : Nat) : Int)
        omega
      · rintro ⟨_, _, _, _, _, h⟩
        cases h
      · intro _ _ _ _ _ h
        cases h
    have := (runEnc_codes _ _ hG data (planC2 3 4 2) (fun _ _ => trivial) (initSt satB 3)).1 t ht
    have h2 : t < 2 * ((32768 : Nat) : Int) := this.2
    refine ⟨this.1, ?_⟩
    push_cast
    omega

-- The first run changes every value of this field (100, 105, 110, 115).
example : ((outEb2 satB (fun p => BitVec.ofNat 64 (100 + 5 * p)) exPrec 2 2 2).recon.map fun w =>
    (w.1, w.2.toInt)) = [(0, 104), (1, 104), (2, 112), (3, 112)] := by
  decide +kernel

-- `float` and `double` data with rounding to nearest meet the hypotheses: fields of integers.
example (data : Nat → Int) (h : ∀ p, |data p| ≤ 2 ^ 24) (prec : Nat → ℝ) (out0 : Nat → ℝ) :
    let B := roundedB (fl nearest 24) (fl nearest 24) (fl nearest 53) (Real.logb 2)
    outEb2 B (writes out0 (outEb2 B (fun p => (data p : ℝ)) prec 100 500 12).recon) prec 100 500 12 =
      outEb2 B (fun p => (data p : ℝ)) prec 100 500 12 :=
  C72_float_2d nearest_isNearest nearest_rounding _ _ _ prec 100 500 12 (by norm_num)
    (by norm_num) (by norm_num)
    (fun p _ => (fl_isFloat nearest_rounding (by norm_num)).int _ (h p)) out0

end CpSZ.Block
