import Verif.Block.Real
import Verif.Block.Toy
/-
Property theorems for the block codecs: C31, C32, C36, C37, C39, C42, C43, C44.
-/

namespace CpSZ.Block

variable {T F D : Type}

/-! ### C32: block processing tiles the grid -/

/-- Compressor and decompressor visit the same points in the same order, start the same
blocks and shift the buffer at the same moments, although their cursors advance
differently. -/
theorem C32_same_order (d1 d2 bs : Nat) (h2 : 0 < d2) (hb : 0 < bs) :
    planD2 d1 d2 bs = planC2 d1 d2 bs := by
  rw [planD2_closed _ _ _ h2 hb, planC2_closed]

/-- The 2D traversal visits every grid point exactly once. -/
theorem C32_tiles_2d (d1 d2 bs : Nat) (h1 : 0 < d1) (h2 : 0 < d2) (hb : 0 < bs) :
    (positions (planC2 d1 d2 bs)).Perm (List.range (d1 * d2)) ∧
    (positions (planD2 d1 d2 bs)).Perm (List.range (d1 * d2)) ∧
    starts (planC2 d1 d2 bs) = ((d1 - 1) / bs + 1) * ((d2 - 1) / bs + 1) := by
  refine ⟨tiling2 d1 d2 bs h1 h2 hb, ?_, starts2 d1 d2 bs⟩
  rw [C32_same_order d1 d2 bs h2 hb]
  exact tiling2 d1 d2 bs h1 h2 hb

/-- The 3D traversals, with dependent and with independent blocks, visit every grid point
exactly once. -/
theorem C32_tiles_3d (indep : Bool) (d1 d2 d3 bs : Nat) (h1 : 0 < d1) (h2 : 0 < d2)
    (h3 : 0 < d3) (hb : 0 < bs) :
    (positions (plan3d indep d1 d2 d3 bs)).Perm (List.range (d1 * d2 * d3)) ∧
    starts (plan3d indep d1 d2 d3 bs) =
      ((d1 - 1) / bs + 1) * ((d2 - 1) / bs + 1) * ((d3 - 1) / bs + 1) := by
  refine ⟨?_, starts3 indep d1 d2 d3 bs h3 hb⟩
  unfold plan3d
  cases indep
  · exact tiling3 d1 d2 d3 bs h1 h2 h3 hb
  · exact tiling3i d1 d2 d3 bs h1 h2 h3 hb

/-- Every access to the 2D prediction buffer of `(bs+1)*(d2+1)` values stays inside it: the
Lorenzo predictor at a visited position reads at `buf-1`, `buf-(d2+1)`, `buf-(d2+1)-1`. -/
theorem C32_buffer_in_bounds (d1 d2 bs : Nat) (hb : 0 < bs) :
    ∀ e ∈ planC2 d1 d2 bs, match e with
      | .pt p => d2 + 2 ≤ p.buf ∧ p.buf < (bs + 1) * (d2 + 1)
      | .copy src len => src + len ≤ (bs + 1) * (d2 + 1) ∧ len ≤ src
      | .start .. => True :=
  plan2_bounds d1 d2 bs hb

/-- In 3D with dependent blocks the buffer has `(bs+1)*(d2+1)*(d3+1)` values and the
predictor reads at most `(d2+1)*(d3+1) + (d3+1) + 1` places before the current one. -/
theorem C32_buffer_in_bounds_3d (d1 d2 d3 bs : Nat) (h3 : 0 < d3) (hb : 0 < bs) :
    ∀ e ∈ plan3d false d1 d2 d3 bs, match e with
      | .pt p => (d2 + 1) * (d3 + 1) + (d3 + 1) + 1 ≤ p.buf ∧
          p.buf < (bs + 1) * ((d2 + 1) * (d3 + 1))
      | .copy src len => src + len ≤ (bs + 1) * ((d2 + 1) * (d3 + 1)) ∧ len ≤ src
      | .start .. => True := by
  intro e he
  have := plan3_bounds d1 d2 d3 bs h3 hb e he
  cases e with
  | start => trivial
  | copy => exact this
  | pt => exact this

/-- With independent blocks the buffer has `(bs+1)^3` values. -/
theorem C32_buffer_in_bounds_3d_independent (d1 d2 d3 bs : Nat) (h3 : 0 < d3) (hb : 0 < bs) :
    ∀ e ∈ plan3d true d1 d2 d3 bs, match e with
      | .pt p => (bs + 1) * (bs + 1) + (bs + 1) + 1 ≤ p.buf ∧
          p.buf < (bs + 1) * ((bs + 1) * (bs + 1))
      | .copy _ _ => False
      | .start .. => True := by
  intro e he
  have := plan3i_bounds d1 d2 d3 bs h3 hb e he
  cases e with
  | start => trivial
  | copy => exact this
  | pt => exact this

-- A 5 x 7 grid with blocks of 3: partial blocks in both directions.
example : starts (planC2 5 7 3) = 6 ∧ (positions (planC2 5 7 3)).length = 35 ∧
    (positions (planC2 5 7 3)).take 5 = [0, 1, 2, 7, 8] := by decide

example : (positions (plan3d true 3 4 5 2)).Perm (List.range 60) :=
  (C32_tiles_3d true 3 4 5 2 (by decide) (by decide) (by decide) (by decide)).1

/-! ### C31: the codec with one bound per point -/

/-- For any arithmetic whose quantiser stays inside its code range: what
`sz_compress_2d_with_eb` writes, `sz_decompress_2d_with_eb` turns, with the same bounds, into a
field whose every value is the input value or passes the compressor's own comparison with
the bound of that point; where the bound is zero the value is the input value. -/
theorem C31_roundtrip (B : BOps T F D) (f : Fmt T F D) (hskip : f.skip = f.cT.size)
    (E1 E2 : Env) (data : Nat → T) (prec : Nat → D) (r1 r2 bs : Nat) (indep : Bool)
    (h1 : 0 < r1) (h2 : 0 < r2) (hb : 0 < bs) (hb31 : bs < 2 ^ 31) (hn : r1 * r2 < 2 ^ 58)
    (hcode : ∀ p < r1 * r2, B.isZero (prec p) = false → ∀ diff q,
      linQuant B.O.toDOps diff (prec p) 65536 32768 = some q → 0 < q ∧ q < 65536)
    (hd : DepthOK E2 131072 (outEb2 B data prec r1 r2 bs).ty) :
    ∃ bytes, compressEb2 B f E1 E2 data prec r1 r2 bs indep = some bytes ∧
      ∀ rest out0, ∃ out, decompressEb2 B f prec r1 r2 out0 (bytes ++ rest) = some out ∧
        ∀ p < r1 * r2, (B.isZero (prec p) = true → out p = data p) ∧
          (out p = data p ∨ B.O.le (B.O.dist (out p) (data p)) (prec p) = true) := by
  obtain ⟨bytes, e, r⟩ := eb2_roundtrip B f hskip E1 E2 data prec r1 r2 bs indep h1 h2 hb hb31 hn
    hcode hd
  refine ⟨bytes, e, fun rest out0 => ?_⟩
  obtain ⟨out, ho, ha, -⟩ := r rest out0
  refine ⟨out, ho, fun p hp => ?_⟩
  rcases ha p hp with h | ⟨hz, h | ⟨hm, -⟩⟩
  · exact ⟨fun _ => h, Or.inl h⟩
  · refine ⟨fun hz' => ?_, Or.inr h⟩
    simp [cfg2, hz'] at hz
  · simp [cfg2] at hm

/-- The condition on the quantiser holds under rounding, for all positive bounds. -/
theorem C31_codes_rounded (rT rF rD lg : ℝ → ℝ) (hr : IsRounding rD) (prec : ℝ)
    (hp : 0 ≤ prec) (hz : (roundedB rT rF rD lg).isZero prec = false) (diff : ℝ) (q : Int)
    (h : linQuant (roundedB rT rF rD lg).O.toDOps diff prec 65536 32768 = some q) :
    0 < q ∧ q < 65536 := by
  have hp' : 0 < prec := lt_of_le_of_ne hp (by
    intro h0
    simp [roundedB, ← h0] at hz)
  exact linQuant_range (rT := rT) (lg := lg) hr diff prec 32768 hp' (by norm_num) q h

/-- Under rounding of `float` and `double` operations, for all fields, bounds, grids and
block sizes: the decompressor's traversal, fed with what the compressor's traversal emits,
fills the output with values whose computed distance to the input is within the bound of the
point, exactly the input where the bound is zero. -/
theorem C31_rounded (rT rF rD lg : ℝ → ℝ) (hr : IsRounding rD) (hT : rT 0 = 0)
    (data prec : Nat → ℝ) (r1 r2 bs : Nat) (h1 : 0 < r1) (h2 : 0 < r2) (hb : 0 < bs)
    (hp : ∀ p < r1 * r2, 0 ≤ prec p) (out0 : Nat → ℝ) :
    ∃ d, runDec (cfg2 (roundedB rT rF rD lg) r2 bs (false, 0) 32768 prec true (rD (1 / 10))
        (fun _ _ _ _ => none)) (planD2 r1 r2 bs)
        ⟨fun _ => 0, none, (outEb2 (roundedB rT rF rD lg) data prec r1 r2 bs).ind,
          (outEb2 (roundedB rT rF rD lg) data prec r1 r2 bs).coefs,
          (outEb2 (roundedB rT rF rD lg) data prec r1 r2 bs).ty,
          (outEb2 (roundedB rT rF rD lg) data prec r1 r2 bs).un, out0⟩ = some d ∧
      ∀ p < r1 * r2, |rT (d.out p - data p)| ≤ prec p ∧ (prec p = 0 → d.out p = data p) := by
  have hG : Good (cfg2 (roundedB rT rF rD lg) r2 bs (false, 0) 32768 prec true (rD (1 / 10))
      (fun _ _ _ _ => none)) (· < r1 * r2) := by
    refine ⟨?_, ?_, ?_, ?_, ?_, ?_⟩
    · intro p hp' hz diff q hq
      have := C31_codes_rounded rT rF rD lg hr (prec p) (hp p hp') (by simpa [cfg2] using hz)
        diff q hq
      refine ⟨this.1, ?_, fun h => by simp [cfg2] at h⟩
      show q < 2 * ((32768 : Nat) : Int)
      omega
    · intro p hp' hz diff q hq
      have := C31_codes_rounded rT rF rD lg hr (prec p) (hp p hp') (by simpa [cfg2] using hz)
        diff q hq
      refine ⟨this.1, ?_⟩
      show q < 2 * ((32768 : Nat) : Int)
      omega
    · show (1 : Int) < 2 * ((32768 : Nat) : Int)
      omega
    · rintro ⟨_, _, _, _, _, h⟩
      cases h
    · show (0 : Int) < 2 * 32768
      omega
    · intro _ _ _ _ _ h
      cases h
  obtain ⟨d, hd1, hd2, -⟩ := run_roundtrip _
    (cfg2 (roundedB rT rF rD lg) r2 bs (false, 0) 32768 prec true (rD (1 / 10))
      (fun _ _ _ _ => none)) (r1 * r2) hG rfl rfl rfl rfl rfl rfl rfl data (planC2 r1 r2 bs)
    (tiling2 r1 r2 bs h1 h2 hb) (initSt (roundedB rT rF rD lg) 3) out0
  rw [C32_same_order r1 r2 bs h2 hb]
  refine ⟨d, hd1, fun p hp' => ?_⟩
  rcases hd2 p hp' with h | ⟨hz, h | ⟨hm, -⟩⟩
  · rw [h, sub_self, hT, abs_zero]
    exact ⟨hp p hp', fun _ => rfl⟩
  · refine ⟨by simpa [cfg2, roundedB, roundedQ, roundedOps] using h, fun h0 => ?_⟩
    simp [cfg2, roundedB, h0] at hz
  · simp [cfg2] at hm

/-- Exact arithmetic: every value within its own bound. -/
theorem C31_exact (data prec : Nat → ℝ) (r1 r2 bs : Nat) (h1 : 0 < r1) (h2 : 0 < r2)
    (hb : 0 < bs) (hp : ∀ p < r1 * r2, 0 ≤ prec p) (out0 : Nat → ℝ) :
    ∃ d, runDec (cfg2 realB r2 bs (false, 0) 32768 prec true (1 / 10)
        (fun _ _ _ _ => none)) (planD2 r1 r2 bs)
        ⟨fun _ => 0, none, (outEb2 realB data prec r1 r2 bs).ind,
          (outEb2 realB data prec r1 r2 bs).coefs, (outEb2 realB data prec r1 r2 bs).ty,
          (outEb2 realB data prec r1 r2 bs).un, out0⟩ = some d ∧
      ∀ p < r1 * r2, |d.out p - data p| ≤ prec p := by
  obtain ⟨d, h, h'⟩ := C31_rounded id id id (Real.logb 2) IsRounding.id rfl data prec r1 r2 bs
    h1 h2 hb hp out0
  exact ⟨d, h, fun p hp => (h' p hp).1⟩

/-- Bounds of a concrete field: zero at point 4, otherwise 4. -/
def exPrec : Nat → W := fun p => if p = 4 then 0#64 else 4#64

theorem exPrec_codes (p : Nat) (hz : satB.isZero (exPrec p) = false) (diff : W) (q : Int)
    (h : linQuant satB.O.toDOps diff (exPrec p) 65536 32768 = some q) : 0 < q ∧ q < 65536 := by
  unfold exPrec at h hz
  by_cases hp : p = 4
  · simp [hp, satB] at hz
  · rw [if_neg hp] at h
    have := satQ_codes 4#64 (by decide) 32768 (by norm_num) 32768 (by norm_num) diff q h
    omega

-- The hypotheses of `C31_roundtrip` hold for a 3 x 4 grid with blocks of 2 and mixed bounds,
-- and codes other than 0 occur.
example (E1 E2 : Env) (data : Nat → W) :
    ∃ bytes, compressEb2 satB (satFmt 8) E1 E2 data exPrec 3 4 2 false = some bytes ∧
      ∀ rest out0, ∃ out,
        decompressEb2 satB (satFmt 8) exPrec 3 4 out0 (bytes ++ rest) = some out ∧
        ∀ p < 3 * 4, (satB.isZero (exPrec p) = true → out p = data p) ∧
          (out p = data p ∨ satB.O.le (satB.O.dist (out p) (data p)) (exPrec p) = true) := by
  have hty : (outEb2 satB data exPrec 3 4 2).ty.length = 12 := rfl
  refine C31_roundtrip satB (satFmt 8) rfl E1 E2 data exPrec 3 4 2 false (by decide) (by decide)
    (by decide) (by decide) (by decide) (fun p _ => exPrec_codes p) ?_
  refine depthOK_of_short E2 131072 _ ?_ (by rw [hty]; omega) (by norm_num) ?_
  · intro h
    rw [h] at hty
    cases hty
  · intro t ht
    have hG : Good (cfg2 satB 4 2 (false, satB.zeroT) 32768 exPrec true satB.tenth
        (fun _ _ _ _ => none)) (fun _ => True) := by
      refine ⟨fun p _ hz d q h => ?_, fun p _ hz d q h => ?_, by decide, ?_, by decide, ?_⟩
      · have := exPrec_codes p (by simpa [cfg2] using hz) d q h
        refine ⟨this.1, ?_, fun h => by simp [cfg2] at h⟩
        show q < 2 * ((32768 : Nat) : Int)
        omega
      · have := exPrec_codes p (by simpa [cfg2] using hz) d q h
        refine ⟨this.1, ?_⟩
        show q < 2 * ((32768 : Nat) : Int)
        omega
      · rintro ⟨_, _, _, _, _, h⟩
        cases h
      · intro _ _ _ _ _ h
        cases h
    have := (runEnc_codes _ _ hG data (planC2 3 4 2) (fun _ _ => trivial) (initSt satB 3)).1 t ht
    have h2 : t < 2 * ((32768 : Nat) : Int) := this.2
    refine ⟨this.1, ?_⟩
    push_cast
    omega

example : (outEb2 satB (fun p => BitVec.ofNat 64 (100 + 8 * p)) exPrec 3 4 2).ty =
    [32781, 32769, 0, 32768, 32769, 32769, 32768, 32768, 32772, 32768, 32768, 32768] := by
  decide +kernel

/-! ### C43: block size does not matter -/

theorem regAt2_buf (B : BOps T F D) (c : List F) (p : Pt) (b : Nat) :
    regAt2 B c { p with buf := b } = regAt2 B c p := by
  unfold regAt2
  rcases c with _ | ⟨_, _ | ⟨_, _ | ⟨_, _ | ⟨_, _⟩⟩⟩⟩ <;> rfl

/-- The value that `sz_decompress_2d_with_eb` returns at a point is the result of quantising
the input against the Lorenzo prediction from the returned values of its three neighbours in
the whole grid (zero outside the grid): the rolling buffer is a faithful window on the
reconstructed grid, across all block borders. -/
theorem C43_prediction_on_grid (B : BOps T F D) (f : Fmt T F D) (hskip : f.skip = f.cT.size)
    (E1 E2 : Env) (data : Nat → T) (prec : Nat → D) (r1 r2 bs : Nat) (indep : Bool)
    (h1 : 0 < r1) (h2 : 0 < r2) (hb : 0 < bs) (hb31 : bs < 2 ^ 31) (hn : r1 * r2 < 2 ^ 58)
    (hcode : ∀ p < r1 * r2, B.isZero (prec p) = false → ∀ diff q,
      linQuant B.O.toDOps diff (prec p) 65536 32768 = some q → 0 < q ∧ q < 65536)
    (hd : DepthOK E2 131072 (outEb2 B data prec r1 r2 bs).ty) :
    ∃ bytes, compressEb2 B f E1 E2 data prec r1 r2 bs indep = some bytes ∧
      ∀ rest out0, ∃ out, decompressEb2 B f prec r1 r2 out0 (bytes ++ rest) = some out ∧
        ∀ X < r1, ∀ Y < r2, out (X * r2 + Y) =
          if B.isZero (prec (X * r2 + Y)) then data (X * r2 + Y)
          else (quantize B.O (lorGrid2 B r2 out X Y) (data (X * r2 + Y)) (prec (X * r2 + Y))
            65536 32768).2.1 := by
  obtain ⟨bytes, e, r⟩ := eb2_roundtrip B f hskip E1 E2 data prec r1 r2 bs indep h1 h2 hb hb31 hn
    hcode hd
  refine ⟨bytes, e, fun rest out0 => ?_⟩
  obtain ⟨out, ho, -, -, hw⟩ := r rest out0
  refine ⟨out, ho, fun X hX Y hY => ?_⟩
  have := (plan_recon B r1 r2 bs h1 h2 hb (cfg2 B r2 bs (false, B.zeroT) 32768 prec true B.tenth
    (fun _ _ _ _ => none)) rfl rfl
    (regAt2_buf B) (fun _ _ _ _ => rfl) data
    (List.replicate 3 B.zeroF) out0).1
  have hlt : X * r2 + Y < r1 * r2 := by
    have : (X + 1) * r2 ≤ r1 * r2 := Nat.mul_le_mul_right _ hX
    rw [Nat.add_mul] at this
    omega
  have h := this (X * r2 + Y) hlt
  rw [(grid_div hY).1, (grid_div hY).2] at h
  rw [show writes out0 (runEnc (cfg2 B r2 bs (false, B.zeroT) 32768 prec true B.tenth
    (fun _ _ _ _ => none)) data (planC2 r1 r2 bs)
      ⟨fun _ => B.zeroT, none, List.replicate 3 B.zeroF⟩).recon = out from hw.symm] at h
  rw [h]
  unfold lorStep
  simp only [cfg2, Bool.true_and, Bool.false_eq_true, if_false]
  by_cases hz : B.isZero (prec (X * r2 + Y)) = true
  · rw [if_pos hz, if_pos hz]
  · rw [if_neg hz, if_neg hz]
    rfl

/-- The decompressed field does not depend on the block size. -/
theorem C43_block_size_irrelevant (B : BOps T F D) (data : Nat → T) (prec : Nat → D)
    (r1 r2 bs bs' : Nat) (h1 : 0 < r1) (h2 : 0 < r2) (hb : 0 < bs) (hb' : 0 < bs')
    (out0 : Nat → T) :
    ∀ p < r1 * r2, writes out0 (outEb2 B data prec r1 r2 bs).recon p =
      writes out0 (outEb2 B data prec r1 r2 bs').recon p := by
  have key : ∀ b, 0 < b → IsRecon B (cfg2 B r2 bs (false, B.zeroT) 32768 prec true B.tenth
      (fun _ _ _ _ => none)) r2 (r1 * r2) data
      (writes out0 (outEb2 B data prec r1 r2 b).recon) := by
    intro b hb p hp
    exact (plan_recon B r1 r2 b h1 h2 hb (cfg2 B r2 b (false, B.zeroT) 32768 prec true B.tenth
      (fun _ _ _ _ => none)) rfl rfl
      (regAt2_buf B) (fun _ _ _ _ => rfl) data
      (List.replicate 3 B.zeroF) out0).1 p hp
  exact isRecon_unique B _ r2 (r1 * r2) h2 data _ _ (key bs hb) (key bs' hb')

-- Different block sizes, same values, different order of the codes.
example : (outEb2 satB (fun p => BitVec.ofNat 64 (100 + 8 * p)) exPrec 3 4 2).ty ≠
      (outEb2 satB (fun p => BitVec.ofNat 64 (100 + 8 * p)) exPrec 3 4 3).ty ∧
    ∀ p < 12, writes (fun _ => 0#64)
        (outEb2 satB (fun p => BitVec.ofNat 64 (100 + 8 * p)) exPrec 3 4 2).recon p =
      writes (fun _ => 0#64)
        (outEb2 satB (fun p => BitVec.ofNat 64 (100 + 8 * p)) exPrec 3 4 3).recon p := by
  constructor
  · decide +kernel
  · exact C43_block_size_irrelevant satB _ exPrec 3 4 2 3 (by decide) (by decide) (by decide)
      (by decide) _

end CpSZ.Block
