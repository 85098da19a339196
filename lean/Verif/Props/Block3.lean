import Verif.Block.Buffer3
import Verif.Props.BlockMore
/-
C59: what the 3D block codecs predict from.
C60: the 3D encoder with one bound per point.
C36 for that encoder.
-/

namespace CpSZ.Block

open Buf3

variable {T F D : Type}

theorem regAt3_buf (B : BOps T F D) (c : List F) (p : Pt) (b : Nat) :
    regAt3 B c { p with buf := b } = regAt3 B c p := by
  unfold regAt3
  rcases c with _ | ⟨_, _ | ⟨_, _ | ⟨_, _ | ⟨_, _ | ⟨_, _⟩⟩⟩⟩⟩ <;> rfl

theorem cfg3_lor (B : BOps T F D) (r1 r2 r3 bs : Nat) (indep : Bool) (mean : Bool × T)
    (radius : Nat) (prec : Nat → D) (rp : D) (sel : Nat → Nat → Nat → Nat → Option (List F)) :
    (cfg3 B r2 r3 bs indep mean radius prec rp sel).lor =
      lorAt3 B ((⟨r1, r2, r3, bs, indep⟩ : Geo).n2 * (⟨r1, r2, r3, bs, indep⟩ : Geo).n3)
        (⟨r1, r2, r3, bs, indep⟩ : Geo).n3 := by
  cases indep <;> simp [cfg3, Geo.n2, Geo.n3]

theorem out3_recon (B : BOps T F D) (data : Nat → T) (prec : D) (r1 r2 r3 bs : Nat)
    (indep : Bool) (radius : Nat) (mean : Bool × T)
    (sel : Nat → Nat → Nat → Nat → Option (List F))
    (h1 : 0 < r1) (h2 : 0 < r2) (h3 : 0 < r3) (hb : 0 < bs) (out0 : Nat → T) :
    Buf3.IsRecon B ⟨r1, r2, r3, bs, indep⟩ (cfg3 B r2 r3 bs indep mean radius (fun _ => prec) prec sel)
      data (writes out0 (out3 B data prec r1 r2 r3 bs indep radius mean sel).recon) :=
  Buf3.plan_recon B ⟨r1, r2, r3, bs, indep⟩ h1 h2 h3 hb
    (cfg3 B r2 r3 bs indep mean radius (fun _ => prec) prec sel)
    (cfg3_lor B r1 r2 r3 bs indep mean radius _ _ sel) rfl (regAt3_buf B) data
    (List.replicate 4 B.zeroF) out0

/-! ### C59: predictions of `sz_compress_3d` and `sz_decompress_3d` -/

/-- At every point of a Lorenzo block, the value that `sz_decompress_3d` returns is the mean, if
the mean is in use and the input is close to it, and otherwise the result of quantising the
input against the Lorenzo prediction from the returned values of the seven neighbours: those
of the whole grid (zero outside) if blocks depend on each other, those in the same block (zero
outside) if blocks are independent.  In particular the buffer, of which only `block_size + 1`
layers exist, never delivers a stale or foreign value, also not after regression blocks and at
partial blocks. -/
theorem C59_prediction_3d (B : BOps T F D) (f : Fmt T F D) (hskip : f.skip = f.cT.size)
    (E1 E2 : Env) (data : Nat → T) (prec : D) (r1 r2 r3 bs : Nat) (indep : Bool) (radius : Nat)
    (mean : Bool × T) (sel : Nat → Nat → Nat → Nat → Option (List F))
    (h1 : 0 < r1) (h2 : 0 < r2) (h3 : 0 < r3) (hb : 0 < bs) (hb31 : bs < 2 ^ 31)
    (hn : r1 * r2 * r3 < 2 ^ 58) (hrad0 : 0 < radius) (hrad : radius ≤ 2 ^ 24)
    (hsel : ∀ o sx sy sz c, sel o sx sy sz = some c → c.length = 4)
    (hcode : ∀ diff q,
      linQuant B.O.toDOps diff prec (2 * radius) radius = some q → 0 < q ∧ q < 2 * radius)
    (hmean : mean.1 = true → ∀ diff q,
      linQuant B.O.toDOps diff prec (2 * radius - 2) radius = some q → 1 < q ∧ q < 2 * radius)
    (hcoef : ∀ p ∈ regPrecs B 4 prec bs, ∀ diff q,
      linQuant B.C.toDOps diff p 65536 32768 = some q → 0 < q ∧ q < 65536)
    (hd1 : (out3 B data prec r1 r2 r3 bs indep radius mean sel).coefs.length ≠ 0 →
      DepthOK E1 131072 (out3 B data prec r1 r2 r3 bs indep radius mean sel).rty)
    (hd2 : DepthOK E2 (4 * radius) (out3 B data prec r1 r2 r3 bs indep radius mean sel).ty) :
    ∃ bytes, compress3 B f E1 E2 data prec r1 r2 r3 bs indep radius mean sel = some bytes ∧
      ∀ rest out0, ∃ out, decompress3 B f r1 r2 r3 out0 (bytes ++ rest) = some out ∧
        ∀ X < r1, ∀ Y < r2, ∀ Z < r3, selAt sel r1 r2 r3 bs X Y Z = none →
          out (idx3 r2 r3 X Y Z) =
            if mean.1 = true ∧ B.O.lt (B.O.dist (data (idx3 r2 r3 X Y Z)) mean.2) prec = true
            then mean.2
            else (quantize B.O
              (lorGrid3 B r2 r3 (if indep then corner bs X Y Z else (0, 0, 0)) out X Y Z)
              (data (idx3 r2 r3 X Y Z)) prec
              (if mean.1 then 2 * radius - 2 else 2 * radius) radius).2.1 := by
  obtain ⟨bytes, e, r⟩ := three_roundtrip B f hskip E1 E2 data prec r1 r2 r3 bs indep radius mean
    sel h1 h2 h3 hb hb31 hn hrad0 hrad hsel hcode hmean hcoef hd1 hd2
  refine ⟨bytes, e, fun rest out0 => ?_⟩
  obtain ⟨out, ho, -, -, hw⟩ := r rest out0
  refine ⟨out, ho, fun X hX Y hY Z hZ hs => ?_⟩
  have := out3_recon B data prec r1 r2 r3 bs indep radius mean sel h1 h2 h3 hb out0 X hX Y hY Z hZ
    hs
  rw [← hw] at this
  simp only at this
  rw [this]
  unfold lorStep org
  simp only [cfg3, Bool.false_and, Bool.false_eq_true, if_false]
  cases hm : mean.1 with
  | false => simp
  | true =>
    simp only [if_true, true_and]
    split <;> rfl

/-- Lorenzo blocks of the codec with independent blocks are independent: two fields that agree
on a block and use Lorenzo prediction there get the same values on that block, whatever they
are elsewhere and whatever predictors are chosen elsewhere. -/
theorem C59_independent_blocks (B : BOps T F D) (data data' : Nat → T) (prec : D)
    (r1 r2 r3 bs : Nat) (radius : Nat) (mean : Bool × T)
    (sel sel' : Nat → Nat → Nat → Nat → Option (List F))
    (h1 : 0 < r1) (h2 : 0 < r2) (h3 : 0 < r3) (hb : 0 < bs) (out0 out0' : Nat → T)
    (i j k : Nat)
    (hs : ∀ X Y Z, X / bs = i → Y / bs = j → Z / bs = k → selAt sel r1 r2 r3 bs X Y Z = none ∧
      selAt sel' r1 r2 r3 bs X Y Z = none)
    (hd : ∀ X < r1, ∀ Y < r2, ∀ Z < r3, X / bs = i → Y / bs = j → Z / bs = k →
      data (idx3 r2 r3 X Y Z) = data' (idx3 r2 r3 X Y Z)) :
    ∀ X < r1, ∀ Y < r2, ∀ Z < r3, X / bs = i → Y / bs = j → Z / bs = k →
      writes out0 (out3 B data prec r1 r2 r3 bs true radius mean sel).recon (idx3 r2 r3 X Y Z) =
        writes out0' (out3 B data' prec r1 r2 r3 bs true radius mean sel').recon
          (idx3 r2 r3 X Y Z) := by
  have a := out3_recon B data prec r1 r2 r3 bs true radius mean sel h1 h2 h3 hb out0
  have b := out3_recon B data' prec r1 r2 r3 bs true radius mean sel' h1 h2 h3 hb out0'
  generalize writes out0 (out3 B data prec r1 r2 r3 bs true radius mean sel).recon = R at a ⊢
  generalize writes out0' (out3 B data' prec r1 r2 r3 bs true radius mean sel').recon = R' at b ⊢
  have key : ∀ n X Y Z, X + Y + Z = n → X < r1 → Y < r2 → Z < r3 → X / bs = i → Y / bs = j →
      Z / bs = k → R (idx3 r2 r3 X Y Z) = R' (idx3 r2 r3 X Y Z) := by
    intro n
    induction n using Nat.strong_induction_on with
    | _ n ih =>
      intro X Y Z hn hX hY hZ hi hj hk
      have a' := a X hX Y hY Z hZ (hs X Y Z hi hj hk).1
      have b' := b X hX Y hY Z hZ (hs X Y Z hi hj hk).2
      simp only at a' b'
      rw [a', b', hd X hX Y hY Z hZ hi hj hk]
      have low : ∀ W w A, W / bs = w → W ≤ A → A ≤ W + 1 → ¬ A ≤ w * bs → (A - 1) / bs = w := by
        intro W w A hw h1 h2 h3
        have := (Nat.div_eq_iff hb).1 hw
        rw [Nat.div_eq_iff hb]
        omega
      rw [lorGrid3_congr B r2 r3 _ R R' X Y Z (fun A B' C a1 a2 b1 b2 c1 c2 hne hz => by
        simp only [org, corner, if_true, hi, hj, hk, not_or] at hz
        exact ih (A - 1 + (B' - 1) + (C - 1)) (by omega) _ _ _ rfl (by omega) (by omega) (by omega)
          (low X i A hi a1 a2 hz.1) (low Y j B' hj b1 b2 hz.2.1) (low Z k C hk c1 c2 hz.2.2))]
      rfl
  exact fun X hX Y hY Z hZ hi hj hk => key _ X Y Z rfl hX hY hZ hi hj hk

/-! ### C60: the 3D encoder with one bound per point -/

/-- Configuration of `prediction_and_quantization_3d_with_border_prediction_with_eb`
(src/sz_compress_3d.cpp L448-521) and `block_pred_and_quant_lorenzo_3d_with_eb`
(include/sz_compress_block_processing.hpp L240-280): Lorenzo prediction in all blocks, dependent
blocks, capacity 32768, no mean, zero bounds stored exactly.  `precision_pos` is advanced
together with `cur_data_pos`, so that the bound of a point is read at the offset of the
point. -/
def cfgEb3 (B : BOps T F D) (d2 d3 bs : Nat) (prec : Nat → D) : Cfg T F D :=
  { cfg3 B d2 d3 bs false (false, B.zeroT) 16384 prec B.tenth (fun _ _ _ _ => none) with
    zeroCheck := true }

/-- `sz_compress_3d_with_eb` (src/sz_compress_3d.cpp L524-567) up to the stream. -/
def outEb3 (B : BOps T F D) (data : Nat → T) (prec : Nat → D) (r1 r2 r3 bs : Nat) : Out T F :=
  runEnc (cfgEb3 B r2 r3 bs prec) data (plan3 r1 r2 r3 bs) (initSt B 4)

/-- The stream of `sz_compress_3d_with_eb` (src/sz_compress_3d.cpp L548-560): the flag
`block_independant` is written but has no effect; no precision is written. -/
def compressEb3 (B : BOps T F D) (f : Fmt T F D) (E1 E2 : Env) (data : Nat → T)
    (prec : Nat → D) (r1 r2 r3 bs : Nat) (indep : Bool) : Option (List Byte) :=
  encodeStream f E1 E2 32768 65536 ⟨bs, none, indep, 16384, (false, B.zeroT)⟩
    (outEb3 B data prec r1 r2 r3 bs)

/-- Specification; there is no such function in /repo.  A reader of the stream of
`sz_compress_3d_with_eb` that knows the grid and the bounds, made as
`sz_decompress_2d_with_eb` is made in 2D. -/
def readEb3 (B : BOps T F D) (f : Fmt T F D) (prec : Nat → D) (r1 r2 r3 : Nat) (out0 : Nat → T)
    (bytes : List Byte) : Option (Nat → T) :=
  match decodeStream { f with skip := f.cT.size } B.C B.zeroF 32768 65536 false (r1 * r2 * r3)
    (fun b => numBlk r1 b * numBlk r2 b * numBlk r3 b) (fun b _ => regPrecs B 4 B.tenth b)
    bytes with
  | none => none
  | some p =>
    match runDec (cfgEb3 B r2 r3 p.hdr.bs prec) (plan3 r1 r2 r3 p.hdr.bs)
        ⟨fun _ => B.zeroT, none, p.ind, p.coefs, p.ty, p.un, out0⟩ with
    | none => none
    | some d => some d.out

theorem eb3_good (B : BOps T F D) (prec : Nat → D) (r1 r2 r3 bs : Nat)
    (hcode : ∀ p < r1 * r2 * r3, B.isZero (prec p) = false → ∀ diff q,
      linQuant B.O.toDOps diff (prec p) 32768 16384 = some q → 0 < q ∧ q < 32768) :
    Good (cfgEb3 B r2 r3 bs prec) (· < r1 * r2 * r3) := by
  refine ⟨?_, ?_, ?_, ?_, ?_, ?_⟩
  · intro p hp hz diff q hq
    have := hcode p hp (by simpa [cfgEb3, cfg3] using hz) diff q hq
    refine ⟨this.1, ?_, fun h => ?_⟩
    · show q < 2 * ((16384 : Nat) : Int)
      omega
    · simp [cfgEb3, cfg3] at h
  · intro p hp hz diff q hq
    have := hcode p hp (by simpa [cfgEb3, cfg3] using hz) diff q hq
    refine ⟨this.1, ?_⟩
    show q < 2 * ((16384 : Nat) : Int)
    omega
  · show (1 : Int) < 2 * ((16384 : Nat) : Int)
    omega
  · rintro ⟨_, _, _, _, _, h⟩
    cases h
  · show (0 : Int) < 2 * 32768
    omega
  · intro _ _ _ _ _ h
    cases h

theorem eb3_recon (B : BOps T F D) (data : Nat → T) (prec : Nat → D) (r1 r2 r3 bs : Nat)
    (h1 : 0 < r1) (h2 : 0 < r2) (h3 : 0 < r3) (hb : 0 < bs) (out0 : Nat → T) :
    Buf3.IsRecon B ⟨r1, r2, r3, bs, false⟩ (cfgEb3 B r2 r3 bs prec) data
      (writes out0 (outEb3 B data prec r1 r2 r3 bs).recon) :=
  Buf3.plan_recon B ⟨r1, r2, r3, bs, false⟩ h1 h2 h3 hb (cfgEb3 B r2 r3 bs prec)
    (cfg3_lor B r1 r2 r3 bs false (false, B.zeroT) 16384 prec B.tenth (fun _ _ _ _ => none))
    rfl (regAt3_buf B) data (List.replicate 4 B.zeroF) out0

/-- For any arithmetic whose quantiser stays inside its code range: the stream of
`sz_compress_3d_with_eb` and the bounds determine a field whose every value is the input value or
passes the compressor's own comparison with the bound of that point; where the bound is zero
the value is the input value.  The values are those of Lorenzo prediction on the whole grid. -/
theorem C60_decodable (B : BOps T F D) (f : Fmt T F D)
    (E1 E2 : Env) (data : Nat → T) (prec : Nat → D) (r1 r2 r3 bs : Nat) (indep : Bool)
    (h1 : 0 < r1) (h2 : 0 < r2) (h3 : 0 < r3) (hb : 0 < bs) (hb31 : bs < 2 ^ 31)
    (hn : r1 * r2 * r3 < 2 ^ 58)
    (hcode : ∀ p < r1 * r2 * r3, B.isZero (prec p) = false → ∀ diff q,
      linQuant B.O.toDOps diff (prec p) 32768 16384 = some q → 0 < q ∧ q < 32768)
    (hd : DepthOK E2 65536 (outEb3 B data prec r1 r2 r3 bs).ty) :
    ∃ bytes, compressEb3 B f E1 E2 data prec r1 r2 r3 bs indep = some bytes ∧
      ∀ rest out0, ∃ out, readEb3 B f prec r1 r2 r3 out0 (bytes ++ rest) = some out ∧
        (∀ p < r1 * r2 * r3, (B.isZero (prec p) = true → out p = data p) ∧
          (out p = data p ∨ B.O.le (B.O.dist (out p) (data p)) (prec p) = true)) ∧
        (∀ p, r1 * r2 * r3 ≤ p → out p = out0 p) ∧
        ∀ X < r1, ∀ Y < r2, ∀ Z < r3, out (idx3 r2 r3 X Y Z) =
          if B.isZero (prec (idx3 r2 r3 X Y Z)) then data (idx3 r2 r3 X Y Z)
          else (quantize B.O (lorGrid3 B r2 r3 (0, 0, 0) out X Y Z) (data (idx3 r2 r3 X Y Z))
            (prec (idx3 r2 r3 X Y Z)) 32768 16384).2.1 := by
  have hG := eb3_good B prec r1 r2 r3 bs hcode
  have hperm : (positions (plan3 r1 r2 r3 bs)).Perm (List.range (r1 * r2 * r3)) :=
    tiling3 _ _ _ _ h1 h2 h3 hb
  have hst : starts (plan3 r1 r2 r3 bs) = numBlk r1 bs * numBlk r2 bs * numBlk r3 bs :=
    starts3 false r1 r2 r3 bs h3 hb
  have hst0 : 0 < starts (plan3 r1 r2 r3 bs) := by
    rw [hst]; unfold numBlk; positivity
  have hstn : starts (plan3 r1 r2 r3 bs) ≤ r1 * r2 * r3 := by
    rw [hst]
    exact Nat.mul_le_mul (Nat.mul_le_mul (numBlk_le _ _ h1) (numBlk_le _ _ h2))
      (numBlk_le _ _ h3)
  have hl4 := regPrecs_length B 4 (by omega) B.tenth bs
  obtain ⟨bytes, e, r⟩ := codec_roundtrip { f with skip := f.cT.size } rfl
    (cfgEb3 B r2 r3 bs prec)
    B.zeroF E1 E2 ⟨bs, none, indep, 16384, (false, B.zeroT)⟩ (r1 * r2 * r3)
    (fun b => numBlk r1 b * numBlk r2 b * numBlk r3 b)
    (fun b _ => regPrecs B 4 B.tenth b) data (plan3 r1 r2 r3 bs) (initSt B 4) hG hperm
    (by show _ = List.replicate (regPrecs B 4 B.tenth bs).length _; rw [hl4]; rfl)
    rfl rfl (by norm_num) hb31 (by omega) (Nat.mul_pos (Nat.mul_pos h1 h2) h3) hst.symm hst0
    (by show 0 < (regPrecs B 4 B.tenth bs).length; omega)
    (by show (regPrecs B 4 B.tenth bs).length * _ < _; rw [hl4]; omega) rfl
    (by
      rw [(runEnc_no_coefs _ (fun _ _ _ _ => rfl) _ _ _).1]
      exact fun h => absurd rfl h) hd
  refine ⟨bytes, e, fun rest out0 => ?_⟩
  obtain ⟨d, hd1, hd2, hd3, hd4⟩ := run_roundtrip
    (cfgEb3 B r2 r3 bs prec) (cfgEb3 B r2 r3 bs prec)
    (r1 * r2 * r3) hG rfl rfl rfl rfl rfl rfl rfl data (plan3 r1 r2 r3 bs) hperm (initSt B 4) out0
  refine ⟨d.out, ?_, fun p hp => ?_, hd3, fun X hX Y hY Z hZ => ?_⟩
  · have r' := r rest
    simp only [Option.isSome_none] at r'
    unfold readEb3
    rw [show B.C = (cfgEb3 B r2 r3 bs prec).C from rfl, r']
    simp only
    rw [show (initSt B 4 : St T F).buf = fun _ => B.zeroT from rfl,
      show (initSt B 4 : St T F).mode = none from rfl] at hd1
    rw [hd1]
  · rcases hd2 p hp with h | ⟨hz, h | ⟨hm, -⟩⟩
    · exact ⟨fun _ => h, Or.inl h⟩
    · refine ⟨fun hz' => ?_, Or.inr h⟩
      simp [cfgEb3, cfg3, hz'] at hz
    · simp [cfgEb3, cfg3] at hm
  · have := eb3_recon B data prec r1 r2 r3 bs h1 h2 h3 hb out0 X hX Y hY Z hZ rfl
    rw [show writes out0 (outEb3 B data prec r1 r2 r3 bs).recon = d.out from hd4.symm] at this
    simp only at this
    rw [this]
    unfold lorStep org
    simp only [cfgEb3, cfg3, Bool.true_and, Bool.false_eq_true, if_false]
    split <;> rfl

/-- The values do not depend on the block size. -/
theorem C60_block_size_irrelevant (B : BOps T F D) (data : Nat → T) (prec : Nat → D)
    (r1 r2 r3 bs bs' : Nat) (h1 : 0 < r1) (h2 : 0 < r2) (h3 : 0 < r3) (hb : 0 < bs)
    (hb' : 0 < bs') (out0 : Nat → T) :
    ∀ X < r1, ∀ Y < r2, ∀ Z < r3,
      writes out0 (outEb3 B data prec r1 r2 r3 bs).recon (idx3 r2 r3 X Y Z) =
      writes out0 (outEb3 B data prec r1 r2 r3 bs').recon (idx3 r2 r3 X Y Z) := by
  have a := eb3_recon B data prec r1 r2 r3 bs h1 h2 h3 hb out0
  have b := eb3_recon B data prec r1 r2 r3 bs' h1 h2 h3 hb' out0
  refine Buf3.isRecon_unique B ⟨r1, r2, r3, bs, false⟩ (cfgEb3 B r2 r3 bs prec)
    (fun _ _ _ _ => rfl) data _ _ a (fun X hX Y hY Z hZ _ => ?_)
  exact b X hX Y hY Z hZ rfl

/-- Rounded arithmetic: the values are within the bounds as the compressor computes them, and
exact where the bound is zero, for all fields, bounds, grids and block sizes. -/
theorem C60_rounded (rT rF rD lg : ℝ → ℝ) (hr : IsRounding rD) (hT : rT 0 = 0)
    (data prec : Nat → ℝ) (r1 r2 r3 bs : Nat) (h1 : 0 < r1) (h2 : 0 < r2) (h3 : 0 < r3)
    (hb : 0 < bs) (hp : ∀ p < r1 * r2 * r3, 0 ≤ prec p) (out0 : Nat → ℝ) :
    ∃ d, runDec (cfgEb3 (roundedB rT rF rD lg) r2 r3 bs prec) (plan3 r1 r2 r3 bs)
        ⟨fun _ => 0, none, (outEb3 (roundedB rT rF rD lg) data prec r1 r2 r3 bs).ind,
          (outEb3 (roundedB rT rF rD lg) data prec r1 r2 r3 bs).coefs,
          (outEb3 (roundedB rT rF rD lg) data prec r1 r2 r3 bs).ty,
          (outEb3 (roundedB rT rF rD lg) data prec r1 r2 r3 bs).un, out0⟩ = some d ∧
      ∀ p < r1 * r2 * r3, |rT (d.out p - data p)| ≤ prec p ∧ (prec p = 0 → d.out p = data p) := by
  have hG := eb3_good (roundedB rT rF rD lg) prec r1 r2 r3 bs (by
    intro p hp' hz diff q hq
    have hp0 : 0 < prec p := lt_of_le_of_ne (hp p hp') (by
      intro h0
      simp [roundedB, ← h0] at hz)
    exact linQuant_range (rT := rT) (lg := lg) hr diff (prec p) 16384 hp0 (by norm_num) q hq)
  obtain ⟨d, hd1, hd2, -⟩ := run_roundtrip _
    (cfgEb3 (roundedB rT rF rD lg) r2 r3 bs prec) (r1 * r2 * r3) hG rfl rfl rfl rfl rfl rfl rfl
    data (plan3 r1 r2 r3 bs) (tiling3 r1 r2 r3 bs h1 h2 h3 hb) (initSt (roundedB rT rF rD lg) 4)
    out0
  refine ⟨d, hd1, fun p hp' => ?_⟩
  rcases hd2 p hp' with h | ⟨hz, h | ⟨hm, -⟩⟩
  · rw [h, sub_self, hT, abs_zero]
    exact ⟨hp p hp', fun _ => rfl⟩
  · refine ⟨by simpa [cfgEb3, cfg3, roundedB, roundedQ, roundedOps] using h, fun h0 => ?_⟩
    simp [cfgEb3, cfg3, roundedB, h0] at hz
  · simp [cfgEb3, cfg3] at hm

/-! ### C36 for this encoder -/

/-- Every point with bound zero needs a place in the buffer of unpredictable values. -/
theorem zero_un (G : Cfg T F D) (hz : G.zeroCheck = true) (data : Nat → T) (es : List Ev)
    (s : St T F) :
    ((positions es).filter fun p => G.isZero (G.prec p)).length ≤ (runEnc G data es s).un.length := by
  induction es generalizing s with
  | nil => simp [positions]
  | cons e es ih =>
    cases e with
    | start o sx sy sz =>
      simp only [positions, runEnc, Out.app, List.length_append]
      have := ih (encEv G data s (.start o sx sy sz)).2
      omega
    | copy src len =>
      simp only [positions, runEnc, Out.app, List.length_append]
      have := ih (encEv G data s (.copy src len)).2
      omega
    | pt p =>
      simp only [positions, runEnc, Out.app, List.length_append]
      have := ih (encEv G data s (.pt p)).2
      rw [List.filter_cons]
      split
      · rename_i h
        have h1 : ((encEv G data s (.pt p)).1.un).length = 1 := by
          simp [encEv, encPt, hz, h]
        rw [List.length_cons]
        omega
      · omega

/-- The claim is false for `sz_compress_3d_with_eb`: whenever more than one point in twenty has
the bound zero, the unpredictable values do not fit into the allocated buffer, whatever the
field. -/
theorem C36_overflow_3d_with_eb (B : BOps T F D) (data : Nat → T) (prec : Nat → D)
    (r1 r2 r3 bs size : Nat) (h1 : 0 < r1) (h2 : 0 < r2) (h3 : 0 < r3) (hb : 0 < bs)
    (hsz : 0 < size)
    (hz : r1 * r2 * r3 < 20 * ((List.range (r1 * r2 * r3)).filter fun p =>
      B.isZero (prec p)).length) :
    unpredAlloc (r1 * r2 * r3) size < (outEb3 B data prec r1 r2 r3 bs).un.length * size := by
  have hperm : (positions (plan3 r1 r2 r3 bs)).Perm (List.range (r1 * r2 * r3)) :=
    tiling3 _ _ _ _ h1 h2 h3 hb
  have key : ((positions (plan3 r1 r2 r3 bs)).filter fun p => B.isZero (prec p)).length ≤
      (outEb3 B data prec r1 r2 r3 bs).un.length :=
    zero_un (cfgEb3 B r2 r3 bs prec) rfl data (plan3 r1 r2 r3 bs) (initSt B 4)
  rw [(hperm.filter _).length_eq] at key
  generalize ((List.range (r1 * r2 * r3)).filter fun p => B.isZero (prec p)).length = m at *
  generalize (outEb3 B data prec r1 r2 r3 bs).un.length = u at *
  generalize r1 * r2 * r3 = n at *
  unfold unpredAlloc
  rw [Nat.floor_lt (by positivity)]
  have hs0 : (0 : ℝ) < size := by exact_mod_cast hsz
  have a : (n : ℝ) < 20 * u := by
    have : n < 20 * u := by omega
    exact_mod_cast this
  push_cast
  nlinarith

/-! ### Instances -/

-- A 2 x 3 x 3 grid in blocks of 2 with one zero bound.
example (E1 E2 : Env) : ∃ bytes,
    compressEb3 satB (satFmt 8) E1 E2 exData3 exPrec 2 3 3 2 true = some bytes :=
  let ⟨b, h, _⟩ := C60_decodable satB (satFmt 8) E1 E2 exData3 exPrec 2 3 3 2 true
    (by decide) (by decide) (by decide) (by decide) (by decide) (by decide) (by
      intro p _ hz diff q h
      unfold exPrec at hz h
      by_cases hp : p = 4
      · simp [hp, satB] at hz
      · rw [if_neg hp] at h
        have := satQ_codes 4#64 (by decide) 16384 (by norm_num) 16384 (by norm_num) diff q h
        omega)
    (depthOK_of_short E2 _ _ (by decide +kernel) (by decide +kernel) (by norm_num)
      (by decide +kernel))
  ⟨b, h⟩

-- The order of the codes depends on the block size, the values do not.
example : (outEb3 satB exData3 exPrec 2 3 3 2).ty =
      [16389, 16384, 16385, 0, 16394, 16387, 16391, 16383, 16385, 16384, 16385, 16386, 16388, 0,
        16390, 0, 0, 0] ∧
    (outEb3 satB exData3 exPrec 2 3 3 3).ty =
      [16389, 16384, 16385, 16385, 0, 16384, 16388, 0, 0, 16394, 16387, 16385, 16391, 16383,
        16386, 16390, 0, 0] ∧
    ∀ X < 2, ∀ Y < 3, ∀ Z < 3,
      writes exData3 (outEb3 satB exData3 exPrec 2 3 3 2).recon (idx3 3 3 X Y Z) =
      writes exData3 (outEb3 satB exData3 exPrec 2 3 3 3).recon (idx3 3 3 X Y Z) :=
  ⟨by decide +kernel, by decide +kernel, C60_block_size_irrelevant satB exData3 exPrec 2 3 3 2 3
    (by decide) (by decide) (by decide) (by decide) (by decide) exData3⟩

-- Three of eighteen bounds are zero.
example (data : Nat → W) : unpredAlloc (2 * 3 * 3) 8 <
    (outEb3 satB data (fun p => if p % 6 = 1 then 0#64 else 4#64) 2 3 3 2).un.length * 8 :=
  C36_overflow_3d_with_eb satB data _ 2 3 3 2 8 (by decide) (by decide) (by decide) (by decide)
    (by decide) (by decide +kernel)

/-- Regression in the block that starts at offset 2 only. -/
def oneSel : Nat → Nat → Nat → Nat → Option (List W) :=
  fun o _ _ _ => if o = 2 then some (List.replicate 4 24#64) else none

-- Both kinds of blocks occur, with dependent and with independent blocks.
example : ∀ indep, (out3 satB exData3 4#64 2 3 3 2 indep 16 (true, 40#64) oneSel).ind =
    [false, true, false, false] := by decide +kernel

example (indep : Bool) (E1 E2 : Env) : ∃ bytes, compress3 satB (satFmt 8) E1 E2 exData3 4#64 2 3 3
    2 indep 16 (true, 40#64) oneSel = some bytes :=
  let ⟨b, h, _⟩ := C59_prediction_3d satB (satFmt 8) rfl E1 E2 exData3 4#64 2 3 3 2 indep 16
    (true, 40#64) oneSel (by decide) (by decide) (by decide) (by decide) (by decide) (by decide)
    (by decide) (by decide) (by
      intro o sx sy sz c h
      unfold oneSel at h
      split at h
      · injection h with h; rw [← h]; simp
      · cases h) (by
      intro diff q h
      have := satB_codes _ _ 16 (by norm_num) (by norm_num) (by norm_num) diff q h
      push_cast
      omega) (by
      intro _ diff q h
      have := satB_codes _ _ 15 (by norm_num) (by norm_num) (by norm_num) diff q h
      push_cast
      omega) (by
      intro p hp diff q h
      have : p = 4#64 := by simpa [regPrecs, satB] using hp
      subst this
      have := satQ_codes 4#64 (by decide) 32768 (by norm_num) 32768 (by norm_num) diff q h
      omega)
    (fun _ => by
      cases indep <;> exact depthOK_of_short E1 _ _ (by decide +kernel) (by decide +kernel)
        (by norm_num) (by decide +kernel))
    (by
      cases indep <;> exact depthOK_of_short E2 _ _ (by decide +kernel) (by decide +kernel)
        (by norm_num) (by decide +kernel))
  ⟨b, h⟩

-- A block that is not affected by a change elsewhere, not even by another choice of predictor.
example : ∀ X < 2, ∀ Y < 3, ∀ Z < 3, X / 2 = 0 → Y / 2 = 1 → Z / 2 = 0 →
    writes exData3 (out3 satB exData3 4#64 2 3 3 2 true 16 (true, 40#64) oneSel).recon
      (idx3 3 3 X Y Z) =
    writes exData3 (out3 satB (fun p => if p = 0 then 7#64 else exData3 p) 4#64 2 3 3 2 true 16
      (true, 40#64) (fun _ _ _ _ => none)).recon (idx3 3 3 X Y Z) :=
  C59_independent_blocks satB exData3 _ 4#64 2 3 3 2 16 (true, 40#64) oneSel _ (by decide)
    (by decide) (by decide) (by decide) exData3 exData3 0 1 0 (by
      intro X Y Z h1 h2 h3
      simp [selAt, oneSel, h1, h2, h3, idx3])
    (by
      intro X _ Y _ Z _ _ h2 _
      have : idx3 3 3 X Y Z ≠ 0 := by unfold idx3; omega
      simp [this])

end CpSZ.Block
