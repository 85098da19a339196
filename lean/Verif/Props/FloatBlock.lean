import Verif.Props.Rounded
import Verif.Props.BlockMore
import Verif.Props.Sz3
/-
Property C58: error bounds of the block codecs and of the interpolation based mode in floating
point arithmetic.

These codecs accept a reconstructed value `dec` if `fabs(dec - cur) <= precision`, with the
difference rounded to the element type.  The comparison is not strict, so a difference that is
rounded down to the precision is accepted: the bound can be exceeded by half a unit in the last
place (`C58_block_exceeded`, `C58_sz3_exceeded`), but not by more (the other theorems).
-/

namespace CpSZ.Rounded
open CpSZ

/-! ### How far a rounded difference can be from the exact one -/

/-- The exact value is at most `κ` times the rounded one. -/
def Back (r : ℝ → ℝ) (κ : ℝ) : Prop := ∀ x, |x| ≤ κ * |r x|

theorem flPos_back {rnd : ℝ → ℤ} (hr : IsIntRounding rnd) {p : ℕ} (hp : 1 ≤ p) {h : ℝ}
    (hh : ∀ x, |(rnd x : ℝ) - x| ≤ h) {y : ℝ} (hy : 0 < y) :
    y ≤ (1 + h * (2 : ℝ) ^ (1 - (p : ℤ))) * flPos rnd p y := by
  have h2 : (0 : ℝ) < (2 : ℝ) ^ ulpExp p y := zpow_pos (by norm_num) _
  have h0 : 0 ≤ h := (abs_nonneg _).trans (hh 0)
  have l1 := (flPos_range hr hp hy).1
  have e : y - flPos rnd p y =
      (y / (2 : ℝ) ^ ulpExp p y - (rnd (y / (2 : ℝ) ^ ulpExp p y) : ℝ)) * (2 : ℝ) ^ ulpExp p y := by
    rw [sub_mul, div_mul_cancel₀ _ h2.ne']; rfl
  have k1 : y - flPos rnd p y ≤ h * (2 : ℝ) ^ ulpExp p y := by
    rw [e]
    refine mul_le_mul_of_nonneg_right ?_ h2.le
    have := (abs_le.1 (hh (y / (2 : ℝ) ^ ulpExp p y))).1
    linarith
  have k2 : (2 : ℝ) ^ ulpExp p y = (2 : ℝ) ^ (1 - (p : ℤ)) * (2 : ℝ) ^ Int.log 2 y := by
    rw [← zpow_add₀ (by norm_num : (2 : ℝ) ≠ 0), ulpExp]; congr 1; omega
  have k3 : h * (2 : ℝ) ^ ulpExp p y ≤ h * ((2 : ℝ) ^ (1 - (p : ℤ)) * flPos rnd p y) := by
    rw [k2]
    exact mul_le_mul_of_nonneg_left
      (mul_le_mul_of_nonneg_left l1 (zpow_pos (by norm_num) _).le) h0
  nlinarith

theorem fl_back {rnd : ℝ → ℤ} (hr : IsIntRounding rnd) {p : ℕ} (hp : 1 ≤ p) {h : ℝ}
    (hh : ∀ x, |(rnd x : ℝ) - x| ≤ h) : Back (fl rnd p) (1 + h * (2 : ℝ) ^ (1 - (p : ℤ))) := by
  intro x
  rcases lt_trichotomy x 0 with hx | rfl | hx
  · have : fl rnd p x = -flPos rnd p (-x) := by unfold fl; rw [if_neg (by linarith)]
    rw [this, abs_neg, abs_of_neg hx, abs_of_nonneg (flPos_nonneg hr (by linarith))]
    exact flPos_back hr hp hh (by linarith)
  · have : fl rnd p 0 = 0 := by simp [fl, flPos_zero hr]
    rw [this]; simp
  · have : fl rnd p x = flPos rnd p x := by unfold fl; rw [if_pos hx.le]
    rw [this, abs_of_pos hx, abs_of_nonneg (flPos_nonneg hr hx.le)]
    exact flPos_back hr hp hh hx

/-- `float`, rounding to nearest. -/
theorem back_float {rnd : ℝ → ℤ} (hr : IsNearest rnd) : Back (fl rnd 24) (1 + 1 / 2 ^ 24) := by
  have := fl_back hr.toIsIntRounding (p := 24) (by norm_num) hr.half
  norm_num at this ⊢
  exact this

/-- `double`, any rounding. -/
theorem back_double {rnd : ℝ → ℤ} (hr : IsIntRounding rnd) :
    Back (fl rnd 53) (1 + 1 / 2 ^ 52) := by
  have := fl_back hr (p := 53) (by norm_num) hr.near
  norm_num at this ⊢
  exact this

theorem Back.le {r : ℝ → ℝ} {κ : ℝ} (h : Back r κ) (hκ : 0 ≤ κ) {x P : ℝ} (hx : |r x| ≤ P) :
    |x| ≤ κ * P := (h x).trans (mul_le_mul_of_nonneg_left hx hκ)

theorem _root_.CpSZ.IsFloat.pos {r : ℝ → ℝ} {u : ℝ} (h : IsFloat r u) (hu : u < 1) {x : ℝ} (hx : 0 < x) :
    0 < r x := by
  have := (abs_le.1 (h.rel x)).1
  rw [abs_of_pos hx] at this
  nlinarith

/-! ### Block codecs -/

section block
open CpSZ.Block

/-- Common part in 2D with one precision. -/
theorem block2 {rT rF rD lg : ℝ → ℝ} {uF uD κ : ℝ} (hB : Back rT κ) (hκ : 1 ≤ κ)
    (hF : IsFloat rF uF) (huF : uF < 1) (hD : IsFloat rD uD) (huD : uD < 1)
    (data : Nat → ℝ) (prec : ℝ) (hp : 0 < prec) (r1 r2 bs : Nat) (h1 : 0 < r1) (h2 : 0 < r2)
    (hb : 0 < bs) (sel : Nat → Nat → Nat → Nat → Option (List ℝ))
    (hsel : ∀ o sx sy sz c, sel o sx sy sz = some c → c.length = 3) (out0 : Nat → ℝ) :
    ∃ d, runDec (cfg2 (roundedB rT rF rD lg) r2 bs (false, 0) 16384 (fun _ => prec) false prec
        (fun _ _ _ _ => none)) (planD2 r1 r2 bs)
        ⟨fun _ => 0, none, (out2 (roundedB rT rF rD lg) data prec r1 r2 bs sel).ind,
          (out2 (roundedB rT rF rD lg) data prec r1 r2 bs sel).coefs,
          (out2 (roundedB rT rF rD lg) data prec r1 r2 bs sel).ty,
          (out2 (roundedB rT rF rD lg) data prec r1 r2 bs sel).un, out0⟩ = some d ∧
      (∀ p < r1 * r2, |d.out p - data p| ≤ κ * prec) ∧
      d.out = writes out0 (out2 (roundedB rT rF rD lg) data prec r1 r2 bs sel).recon := by
  have key : ∀ diff q, linQuant (roundedB rT rF rD lg).O.toDOps diff prec 32768 16384 = some q →
      0 < q ∧ q < 32768 := fun diff q h =>
    linQuant_range (rT := rT) (lg := lg) hD.toIsRounding diff prec 16384 hp (by norm_num) q h
  have hbr : (0 : ℝ) < bs := by exact_mod_cast hb
  have hG : Good (cfg2 (roundedB rT rF rD lg) r2 bs (false, 0) 16384 (fun _ => prec) false prec
      sel) (· < r1 * r2) := by
    refine ⟨?_, ?_, ?_, ?_, ?_, ?_⟩
    · intro p _ _ diff q hq
      have := key diff q hq
      refine ⟨this.1, ?_, fun h => by simp [cfg2] at h⟩
      show q < 2 * ((16384 : Nat) : Int)
      omega
    · intro p _ _ diff q hq
      have := key diff q hq
      refine ⟨this.1, ?_⟩
      show q < 2 * ((16384 : Nat) : Int)
      omega
    · show (1 : Int) < 2 * ((16384 : Nat) : Int)
      omega
    · intro _ p hpm diff q hq
      have hpr : 0 < rF (rD (rD (rD (1 / 10) * prec) / (3 : ℕ))) := by
        refine hF.pos huF (hD.pos huD (div_pos (hD.pos huD (mul_pos (hD.pos huD (by norm_num)) hp))
          (by norm_num)))
      have hpp : 0 < p := by
        simp only [cfg2, regPrecs, roundedB, List.mem_append, List.mem_replicate,
          List.mem_singleton] at hpm
        rcases hpm with ⟨-, rfl⟩ | rfl
        · exact hF.pos huF (div_pos hpr hbr)
        · exact hpr
      exact linQuant_range (rT := rF) (lg := lg) hD.toIsRounding diff p 32768 hpp
        (by norm_num) q hq
    · show (0 : Int) < 2 * 32768
      omega
    · intro o sx sy sz c h
      rw [hsel o sx sy sz c h]
      exact (regPrecs_length _ 3 (by omega) prec bs).symm
  obtain ⟨d, hd1, hd2, -, hd3⟩ := run_roundtrip
    (cfg2 (roundedB rT rF rD lg) r2 bs (false, 0) 16384 (fun _ => prec) false prec sel)
    (cfg2 (roundedB rT rF rD lg) r2 bs (false, 0) 16384 (fun _ => prec) false prec
      (fun _ _ _ _ => none))
    (r1 * r2) hG rfl rfl rfl rfl rfl rfl rfl data (planC2 r1 r2 bs)
    (tiling2 r1 r2 bs h1 h2 hb) (initSt (roundedB rT rF rD lg) 3) out0
  rw [C32_same_order r1 r2 bs h2 hb]
  refine ⟨d, hd1, fun p hp' => ?_, hd3⟩
  rcases hd2 p hp' with h | ⟨hz, h | ⟨hm, -⟩⟩
  · rw [h, sub_self, abs_zero]
    exact mul_nonneg (by linarith) hp.le
  · exact hB.le (by linarith) (by simpa [cfg2, roundedB, roundedQ, roundedOps] using h)
  · simp [cfg2] at hm

/-- Common part in 3D; mean and radius as `optimize_quant_invl_3d` may choose them. -/
theorem block3 {rT rF rD lg : ℝ → ℝ} {uF uD κ : ℝ} (hB : Back rT κ) (hκ : 1 ≤ κ)
    (hTn : ∀ x, rT (-x) = - rT x)
    (hF : IsFloat rF uF) (huF : uF < 1) (hD : IsFloat rD uD) (huD : uD < 1)
    (data : Nat → ℝ) (prec : ℝ) (hp : 0 < prec) (r1 r2 r3 bs : Nat) (h1 : 0 < r1) (h2 : 0 < r2)
    (h3 : 0 < r3) (hb : 0 < bs) (indep : Bool) (radius : Nat) (hr0 : 0 < radius)
    (hr1 : 2 * radius ≤ 2 ^ 24) (mean : Bool × ℝ)
    (sel : Nat → Nat → Nat → Nat → Option (List ℝ))
    (hsel : ∀ o sx sy sz c, sel o sx sy sz = some c → c.length = 4) (out0 : Nat → ℝ) :
    ∃ d, runDec (cfg3 (roundedB rT rF rD lg) r2 r3 bs indep mean radius (fun _ => prec) prec
        (fun _ _ _ _ => none)) (plan3d indep r1 r2 r3 bs)
        ⟨fun _ => 0, none,
          (out3 (roundedB rT rF rD lg) data prec r1 r2 r3 bs indep radius mean sel).ind,
          (out3 (roundedB rT rF rD lg) data prec r1 r2 r3 bs indep radius mean sel).coefs,
          (out3 (roundedB rT rF rD lg) data prec r1 r2 r3 bs indep radius mean sel).ty,
          (out3 (roundedB rT rF rD lg) data prec r1 r2 r3 bs indep radius mean sel).un, out0⟩ =
        some d ∧
      (∀ p < r1 * r2 * r3, |d.out p - data p| ≤ κ * prec) ∧
      d.out = writes out0
        (out3 (roundedB rT rF rD lg) data prec r1 r2 r3 bs indep radius mean sel).recon := by
  have hbr : (0 : ℝ) < bs := by exact_mod_cast hb
  have hR : (2 * (radius : Int)) ≤ 2 ^ 24 := by exact_mod_cast hr1
  have key : ∀ diff q, linQuant (roundedB rT rF rD lg).O.toDOps diff prec (2 * radius) radius =
      some q → 0 < q ∧ q < 2 * (radius : Int) := fun diff q h =>
    linQuant_range (rT := rT) (lg := lg) hD.toIsRounding diff prec radius hp hR q h
  have keym : ∀ diff q, linQuant (roundedB rT rF rD lg).O.toDOps diff prec (2 * radius - 2) radius =
      some q → 1 < q ∧ q < 2 * (radius : Int) := fun diff q h => by
    have := linQuant_mean (rT := rT) (lg := lg) hD.toIsRounding diff prec radius hp hR q h
    omega
  have hG : Good (cfg3 (roundedB rT rF rD lg) r2 r3 bs indep mean radius (fun _ => prec) prec
      sel) (· < r1 * r2 * r3) := by
    refine ⟨?_, ?_, ?_, ?_, ?_, ?_⟩
    · intro p _ _ diff q hq
      cases hm : mean.1 with
      | true =>
        simp only [cfg3, hm, if_true] at hq ⊢
        have := keym diff q hq
        exact ⟨by omega, this.2, fun _ => this.1⟩
      | false =>
        simp only [cfg3, hm, Bool.false_eq_true, if_false] at hq ⊢
        have := key diff q hq
        exact ⟨this.1, this.2, fun h => by simp at h⟩
    · intro p _ _ diff q hq
      exact key diff q hq
    · show (1 : Int) < 2 * (radius : Int)
      omega
    · intro _ p hpm diff q hq
      have hpr : 0 < rF (rD (rD (rD (1 / 10) * prec) / (4 : ℕ))) := by
        refine hF.pos huF (hD.pos huD (div_pos (hD.pos huD (mul_pos (hD.pos huD (by norm_num)) hp))
          (by norm_num)))
      have hpp : 0 < p := by
        simp only [cfg3, regPrecs, roundedB, List.mem_append, List.mem_replicate,
          List.mem_singleton] at hpm
        rcases hpm with ⟨-, rfl⟩ | rfl
        · exact hF.pos huF (div_pos hpr hbr)
        · exact hpr
      exact linQuant_range (rT := rF) (lg := lg) hD.toIsRounding diff p 32768 hpp
        (by norm_num) q hq
    · show (0 : Int) < 2 * 32768
      omega
    · intro o sx sy sz c h
      rw [hsel o sx sy sz c h]
      exact (regPrecs_length _ 4 (by omega) prec bs).symm
  obtain ⟨d, hd1, hd2, -, hd3⟩ := run_roundtrip
    (cfg3 (roundedB rT rF rD lg) r2 r3 bs indep mean radius (fun _ => prec) prec sel)
    (cfg3 (roundedB rT rF rD lg) r2 r3 bs indep mean radius (fun _ => prec) prec
      (fun _ _ _ _ => none))
    (r1 * r2 * r3) hG rfl rfl rfl rfl rfl rfl rfl data (plan3d indep r1 r2 r3 bs)
    (C32_tiles_3d indep r1 r2 r3 bs h1 h2 h3 hb).1 (initSt (roundedB rT rF rD lg) 4) out0
  refine ⟨d, hd1, fun p hp' => ?_, hd3⟩
  rcases hd2 p hp' with h | ⟨hz, h | ⟨hm, h⟩⟩
  · rw [h, sub_self, abs_zero]
    exact mul_nonneg (by linarith) hp.le
  · exact hB.le (by linarith) (by simpa [cfg3, roundedB, roundedQ, roundedOps] using h)
  · refine hB.le (by linarith) ?_
    have h' : |rT (data p - d.out p)| < prec := by
      simpa [cfg3, roundedB, roundedQ, roundedOps] using h
    rw [show d.out p - data p = -(data p - d.out p) by ring, hTn, abs_neg]
    exact h'.le

/-- C58, `sz_compress_2d_with_eb` on `float` data, operations rounded to nearest: whatever the
bounds of the points, the decompressed value is within `1 + 2^-24` times the bound of its point.

Missing: the bound itself, which can be exceeded, see `C58_block_exceeded`. -/
theorem C58_with_eb_float_partial {rnd rnd' : ℝ → ℤ} (hr : IsNearest rnd) (hr' : IsIntRounding rnd') {lg : ℝ → ℝ}
    (data prec : Nat → ℝ) (r1 r2 bs : Nat) (h1 : 0 < r1) (h2 : 0 < r2) (hb : 0 < bs)
    (hp : ∀ p < r1 * r2, 0 ≤ prec p) (out0 : Nat → ℝ) :
    ∃ d, runDec (cfg2 (roundedB (fl rnd 24) (fl rnd 24) (fl rnd' 53) lg) r2 bs (false, 0) 32768 prec true ((fl rnd' 53) (1 / 10))
        (fun _ _ _ _ => none)) (planD2 r1 r2 bs)
        ⟨fun _ => 0, none, (outEb2 (roundedB (fl rnd 24) (fl rnd 24) (fl rnd' 53) lg) data prec r1 r2 bs).ind,
          (outEb2 (roundedB (fl rnd 24) (fl rnd 24) (fl rnd' 53) lg) data prec r1 r2 bs).coefs,
          (outEb2 (roundedB (fl rnd 24) (fl rnd 24) (fl rnd' 53) lg) data prec r1 r2 bs).ty,
          (outEb2 (roundedB (fl rnd 24) (fl rnd 24) (fl rnd' 53) lg) data prec r1 r2 bs).un, out0⟩ = some d ∧
      ∀ p < r1 * r2, |d.out p - data p| ≤ (1 + 1 / 2 ^ 24) * prec p := by
  obtain ⟨d, hd, h⟩ := C31_rounded (fl rnd 24) (fl rnd 24) (fl rnd' 53) lg
    (fl_isFloat hr' (p := 53) (by norm_num)).toIsRounding
    (by simpa using (fl_isFloat hr.toIsIntRounding (p := 24) (by norm_num)).int 0 (by norm_num))
    data prec r1 r2 bs h1 h2 hb hp out0
  exact ⟨d, hd, fun p hp' => (back_float hr).le (by positivity) (h p hp').1⟩

/-- C58, `sz_compress_2d_with_eb` on `double` data, any rounding.

Missing: the bound itself, which can be exceeded, see `C58_block_exceeded`. -/
theorem C58_with_eb_double_partial {rnd : ℝ → ℤ} (hr : IsIntRounding rnd) {lg : ℝ → ℝ}
    (data prec : Nat → ℝ) (r1 r2 bs : Nat) (h1 : 0 < r1) (h2 : 0 < r2) (hb : 0 < bs)
    (hp : ∀ p < r1 * r2, 0 ≤ prec p) (out0 : Nat → ℝ) :
    ∃ d, runDec (cfg2 (roundedB (fl rnd 53) (fl rnd 24) (fl rnd 53) lg) r2 bs (false, 0) 32768 prec true ((fl rnd 53) (1 / 10))
        (fun _ _ _ _ => none)) (planD2 r1 r2 bs)
        ⟨fun _ => 0, none, (outEb2 (roundedB (fl rnd 53) (fl rnd 24) (fl rnd 53) lg) data prec r1 r2 bs).ind,
          (outEb2 (roundedB (fl rnd 53) (fl rnd 24) (fl rnd 53) lg) data prec r1 r2 bs).coefs,
          (outEb2 (roundedB (fl rnd 53) (fl rnd 24) (fl rnd 53) lg) data prec r1 r2 bs).ty,
          (outEb2 (roundedB (fl rnd 53) (fl rnd 24) (fl rnd 53) lg) data prec r1 r2 bs).un, out0⟩ = some d ∧
      ∀ p < r1 * r2, |d.out p - data p| ≤ (1 + 1 / 2 ^ 52) * prec p := by
  obtain ⟨d, hd, h⟩ := C31_rounded (fl rnd 53) (fl rnd 24) (fl rnd 53) lg
    (fl_isFloat hr (p := 53) (by norm_num)).toIsRounding
    (by simpa using (fl_isFloat hr (p := 53) (by norm_num)).int 0 (by norm_num))
    data prec r1 r2 bs h1 h2 hb hp out0
  exact ⟨d, hd, fun p hp' => (back_double hr).le (by positivity) (h p hp').1⟩

/-- C58, `sz_compress_2d` on `float` data; any selection of regression blocks.

Missing: the bound itself, which can be exceeded, see `C58_block_exceeded`. -/
theorem C58_2d_float_partial {rnd rnd' : ℝ → ℤ} (hr : IsNearest rnd) (hr' : IsIntRounding rnd') {lg : ℝ → ℝ}
    (data : Nat → ℝ) (prec : ℝ) (hp : 0 < prec) (r1 r2 bs : Nat) (h1 : 0 < r1) (h2 : 0 < r2)
    (hb : 0 < bs) (sel : Nat → Nat → Nat → Nat → Option (List ℝ))
    (hsel : ∀ o sx sy sz c, sel o sx sy sz = some c → c.length = 3) (out0 : Nat → ℝ) :
    ∃ d, runDec (cfg2 (roundedB (fl rnd 24) (fl rnd 24) (fl rnd' 53) lg) r2 bs (false, 0) 16384 (fun _ => prec) false prec
        (fun _ _ _ _ => none)) (planD2 r1 r2 bs)
        ⟨fun _ => 0, none, (out2 (roundedB (fl rnd 24) (fl rnd 24) (fl rnd' 53) lg) data prec r1 r2 bs sel).ind,
          (out2 (roundedB (fl rnd 24) (fl rnd 24) (fl rnd' 53) lg) data prec r1 r2 bs sel).coefs,
          (out2 (roundedB (fl rnd 24) (fl rnd 24) (fl rnd' 53) lg) data prec r1 r2 bs sel).ty,
          (out2 (roundedB (fl rnd 24) (fl rnd 24) (fl rnd' 53) lg) data prec r1 r2 bs sel).un, out0⟩ = some d ∧
      ∀ p < r1 * r2, |d.out p - data p| ≤ (1 + 1 / 2 ^ 24) * prec := by
  obtain ⟨d, h, h', -⟩ := block2 (back_float hr) (by norm_num) (fl_isFloat hr.toIsIntRounding (p := 24) (by norm_num)) (by norm_num)
    (fl_isFloat hr' (p := 53) (by norm_num)) (by norm_num) data prec hp r1 r2 bs h1 h2 hb sel hsel out0
  exact ⟨d, h, h'⟩

/-- C58, `sz_compress_2d` on `double` data (coefficients in `float`), any rounding.

Missing: the bound itself, which can be exceeded, see `C58_block_exceeded`. -/
theorem C58_2d_double_partial {rnd : ℝ → ℤ} (hr : IsIntRounding rnd) {lg : ℝ → ℝ}
    (data : Nat → ℝ) (prec : ℝ) (hp : 0 < prec) (r1 r2 bs : Nat) (h1 : 0 < r1) (h2 : 0 < r2)
    (hb : 0 < bs) (sel : Nat → Nat → Nat → Nat → Option (List ℝ))
    (hsel : ∀ o sx sy sz c, sel o sx sy sz = some c → c.length = 3) (out0 : Nat → ℝ) :
    ∃ d, runDec (cfg2 (roundedB (fl rnd 53) (fl rnd 24) (fl rnd 53) lg) r2 bs (false, 0) 16384 (fun _ => prec) false prec
        (fun _ _ _ _ => none)) (planD2 r1 r2 bs)
        ⟨fun _ => 0, none, (out2 (roundedB (fl rnd 53) (fl rnd 24) (fl rnd 53) lg) data prec r1 r2 bs sel).ind,
          (out2 (roundedB (fl rnd 53) (fl rnd 24) (fl rnd 53) lg) data prec r1 r2 bs sel).coefs,
          (out2 (roundedB (fl rnd 53) (fl rnd 24) (fl rnd 53) lg) data prec r1 r2 bs sel).ty,
          (out2 (roundedB (fl rnd 53) (fl rnd 24) (fl rnd 53) lg) data prec r1 r2 bs sel).un, out0⟩ = some d ∧
      ∀ p < r1 * r2, |d.out p - data p| ≤ (1 + 1 / 2 ^ 52) * prec := by
  obtain ⟨d, h, h', -⟩ := block2 (back_double hr) (by norm_num) (fl_isFloat hr (p := 24) (by norm_num)) (by norm_num)
    (fl_isFloat hr (p := 53) (by norm_num)) (by norm_num) data prec hp r1 r2 bs h1 h2 hb sel hsel out0
  exact ⟨d, h, h'⟩

/-- C58, `sz_compress_3d` on `float` data; any selection of regression blocks, any mean and any
number of intervals up to `2^24`, dependent and independent blocks.

Missing: the bound itself, which can be exceeded, see `C58_block_exceeded`. -/
theorem C58_3d_float_partial {rnd rnd' : ℝ → ℤ} (hr : IsNearest rnd) (hr' : IsIntRounding rnd') {lg : ℝ → ℝ}
    (data : Nat → ℝ) (prec : ℝ) (hp : 0 < prec) (r1 r2 r3 bs : Nat) (h1 : 0 < r1) (h2 : 0 < r2)
    (h3 : 0 < r3) (hb : 0 < bs) (indep : Bool) (radius : Nat) (hr0 : 0 < radius)
    (hr1 : 2 * radius ≤ 2 ^ 24) (mean : Bool × ℝ)
    (sel : Nat → Nat → Nat → Nat → Option (List ℝ))
    (hsel : ∀ o sx sy sz c, sel o sx sy sz = some c → c.length = 4) (out0 : Nat → ℝ) :
    ∃ d, runDec (cfg3 (roundedB (fl rnd 24) (fl rnd 24) (fl rnd' 53) lg) r2 r3 bs indep mean radius (fun _ => prec) prec
        (fun _ _ _ _ => none)) (plan3d indep r1 r2 r3 bs)
        ⟨fun _ => 0, none,
          (out3 (roundedB (fl rnd 24) (fl rnd 24) (fl rnd' 53) lg) data prec r1 r2 r3 bs indep radius mean sel).ind,
          (out3 (roundedB (fl rnd 24) (fl rnd 24) (fl rnd' 53) lg) data prec r1 r2 r3 bs indep radius mean sel).coefs,
          (out3 (roundedB (fl rnd 24) (fl rnd 24) (fl rnd' 53) lg) data prec r1 r2 r3 bs indep radius mean sel).ty,
          (out3 (roundedB (fl rnd 24) (fl rnd 24) (fl rnd' 53) lg) data prec r1 r2 r3 bs indep radius mean sel).un, out0⟩ =
        some d ∧
      ∀ p < r1 * r2 * r3, |d.out p - data p| ≤ (1 + 1 / 2 ^ 24) * prec := by
  obtain ⟨d, h, h', -⟩ := block3 (back_float hr) (by norm_num) (fl_isFloat hr.toIsIntRounding (p := 24) (by norm_num)).odd
    (fl_isFloat hr.toIsIntRounding (p := 24) (by norm_num)) (by norm_num)
    (fl_isFloat hr' (p := 53) (by norm_num)) (by norm_num) data prec hp r1 r2 r3 bs h1 h2 h3 hb
    indep radius hr0 hr1 mean sel hsel out0
  exact ⟨d, h, h'⟩

/-- C58, `sz_compress_3d` on `double` data (coefficients in `float`), any rounding.

Missing: the bound itself, which can be exceeded, see `C58_block_exceeded`. -/
theorem C58_3d_double_partial {rnd : ℝ → ℤ} (hr : IsIntRounding rnd) {lg : ℝ → ℝ}
    (data : Nat → ℝ) (prec : ℝ) (hp : 0 < prec) (r1 r2 r3 bs : Nat) (h1 : 0 < r1) (h2 : 0 < r2)
    (h3 : 0 < r3) (hb : 0 < bs) (indep : Bool) (radius : Nat) (hr0 : 0 < radius)
    (hr1 : 2 * radius ≤ 2 ^ 24) (mean : Bool × ℝ)
    (sel : Nat → Nat → Nat → Nat → Option (List ℝ))
    (hsel : ∀ o sx sy sz c, sel o sx sy sz = some c → c.length = 4) (out0 : Nat → ℝ) :
    ∃ d, runDec (cfg3 (roundedB (fl rnd 53) (fl rnd 24) (fl rnd 53) lg) r2 r3 bs indep mean radius (fun _ => prec) prec
        (fun _ _ _ _ => none)) (plan3d indep r1 r2 r3 bs)
        ⟨fun _ => 0, none,
          (out3 (roundedB (fl rnd 53) (fl rnd 24) (fl rnd 53) lg) data prec r1 r2 r3 bs indep radius mean sel).ind,
          (out3 (roundedB (fl rnd 53) (fl rnd 24) (fl rnd 53) lg) data prec r1 r2 r3 bs indep radius mean sel).coefs,
          (out3 (roundedB (fl rnd 53) (fl rnd 24) (fl rnd 53) lg) data prec r1 r2 r3 bs indep radius mean sel).ty,
          (out3 (roundedB (fl rnd 53) (fl rnd 24) (fl rnd 53) lg) data prec r1 r2 r3 bs indep radius mean sel).un, out0⟩ =
        some d ∧
      ∀ p < r1 * r2 * r3, |d.out p - data p| ≤ (1 + 1 / 2 ^ 52) * prec := by
  obtain ⟨d, h, h', -⟩ := block3 (back_double hr) (by norm_num) (fl_isFloat hr (p := 53) (by norm_num)).odd
    (fl_isFloat hr (p := 24) (by norm_num)) (by norm_num)
    (fl_isFloat hr (p := 53) (by norm_num)) (by norm_num) data prec hp r1 r2 r3 bs h1 h2 h3 hb
    indep radius hr0 hr1 mean sel hsel out0
  exact ⟨d, h, h'⟩

end block

/-! ### Interpolation based mode -/

section sz3
open CpSZ.Sz3

/-- The quantised bound of this mode: zero, or a power of two at most the requested one up to the
errors of the division and of the logarithm.  Unlike in the other modes code 0 is not special. -/
theorem ebQuant_any {rT rD lg : ℝ → ℝ} {u δ : ℝ} (hD : IsFloat rD u) (hl : IsLog2 rD lg δ)
    (hδ : 0 ≤ δ) (a : ℝ) (hov : (1 + u) * (a / 2 ^ (-52 : ℤ)) < (2 : ℝ) ^ (1024 : ℕ)) :
    (ebQuant (roundedOps rT rD lg).toDOps 4 2 ((2 : ℝ) ^ (-52 : ℤ)) a).1 = 0 ∨
      0 < a ∧ ∃ k : ℤ, (ebQuant (roundedOps rT rD lg).toDOps 4 2 ((2 : ℝ) ^ (-52 : ℤ)) a).1 =
        (2 : ℝ) ^ k ∧ (2 : ℝ) ^ k ≤ (1 + u) * (2 : ℝ) ^ δ * a := by
  have ht : (0 : ℝ) < (2 : ℝ) ^ (-52 : ℤ) := zpow_pos (by norm_num) _
  have r0 : rD 0 = 0 := by simpa using hD.int 0 (by norm_num)
  have hu0 := hD.u_nonneg
  by_cases hle : a ≤ (2 : ℝ) ^ (-52 : ℤ)
  · left
    unfold ebQuant
    rw [if_pos (by simpa [roundedOps] using hle)]
    simpa [roundedOps] using r0
  right
  have hle' := hle
  push Not at hle
  have ha : 0 < a := ht.trans hle
  refine ⟨ha, ?_⟩
  by_cases hpos : 0 < (ebQuant (roundedOps rT rD lg).toDOps (2 ^ 2) ((2 : ℕ) : ℝ)
      ((2 : ℝ) ^ (-52 : ℤ)) a).2
  · have := ebQuant_rounded (rT := rT) hD hl 2 (Or.inr rfl) (-52) a hov hpos
    simpa using this
  · push Not at hpos
    simp only [Nat.cast_ofNat, show (2 : ℤ) ^ 2 = 4 by norm_num] at hpos
    refine ⟨2 * (ebQuant (roundedOps rT rD lg).toDOps 4 2 ((2 : ℝ) ^ (-52 : ℤ)) a).2 + -52, ?_, ?_⟩
    · have he : (ebQuant (roundedOps rT rD lg).toDOps 4 2 ((2 : ℝ) ^ (-52 : ℤ)) a).1 =
          rD (rD (((4 : ℤ) : ℝ) ^ (ebQuant (roundedOps rT rD lg).toDOps 4 2
            ((2 : ℝ) ^ (-52 : ℤ)) a).2) * (2 : ℝ) ^ (-52 : ℤ)) := by
        unfold ebQuant
        rw [if_neg (by simpa [roundedOps] using hle')]
        rfl
      rw [he]
      generalize (ebQuant (roundedOps rT rD lg).toDOps 4 2 ((2 : ℝ) ^ (-52 : ℤ)) a).2 = j
      have : ((4 : ℤ) : ℝ) ^ j = (2 : ℝ) ^ (2 * j) := by
        rw [zpow_mul]; norm_num
      rw [this, hD.pow2all, ← zpow_add₀ (by norm_num : (2 : ℝ) ≠ 0), hD.pow2all]
    · have h1 : (2 : ℝ) ^ (2 * (ebQuant (roundedOps rT rD lg).toDOps 4 2
          ((2 : ℝ) ^ (-52 : ℤ)) a).2 + -52) ≤ (2 : ℝ) ^ (-52 : ℤ) :=
        zpow_le_zpow_right₀ (by norm_num) (by omega)
      have h2 : (1 : ℝ) ≤ (2 : ℝ) ^ δ := Real.one_le_rpow (by norm_num) hδ
      have h3 : 1 * 1 ≤ (1 + u) * (2 : ℝ) ^ δ := mul_le_mul (by linarith) h2 (by norm_num)
        (by linarith)
      have h4 : a ≤ (1 + u) * (2 : ℝ) ^ δ * a := by nlinarith
      linarith

/-- The quantiser keeps the value or moves it by at most `κ` times the bound. -/
theorem quantT_rounded {rT rD lg : ℝ → ℝ} {κ : ℝ} (hB : Back rT κ) (hκ : 1 ≤ κ) (radius : Int)
    (cur pred eb : ℝ) :
    (quantT (roundedS rT rD lg).t radius cur pred eb).2.1 = cur ∨
      |(quantT (roundedS rT rD lg).t radius cur pred eb).2.1 - cur| ≤ κ * eb := by
  unfold quantT
  split
  · left; rfl
  simp only
  split
  · split_ifs with hneg h2 h2
    · exact Or.inl rfl
    · right
      refine hB.le (by linarith) ?_
      simpa [roundedS, roundedOps] using h2
    · exact Or.inl rfl
    · right
      refine hB.le (by linarith) ?_
      simpa [roundedS, roundedOps] using h2
  · exact Or.inl rfl

/-- The bound of a vertex from any real valued bound per triangle. -/
noncomputable def boundR (r1 r2 : Nat) (derive : ℝ → ℝ → ℝ → ℝ → ℝ → ℝ → ℝ) (f : Fld ℝ) (e : Ev)
    (eb : ℝ) : Option ℝ :=
  deriveEb r1 r2 (fun a b => if a < b then a else b) derive f e eb

theorem boundR_le {r1 r2 : Nat} {derive : ℝ → ℝ → ℝ → ℝ → ℝ → ℝ → ℝ} {f : Fld ℝ} {e : Ev}
    {eb req : ℝ} (h : boundR r1 r2 derive f e eb = some req) : req ≤ eb := by
  unfold boundR deriveEb at h
  have key : ∀ (ks : List Nat) (a : ℝ), deriveLoop r1 r2 (fun a b : ℝ => if a < b then a else b)
      derive f e ks a = some req → req ≤ a := by
    intro ks
    induction ks with
    | nil => intro a h; simp only [deriveLoop, Option.some.injEq] at h; exact h.ge
    | cons k ks ih =>
      intro a h
      simp only [deriveLoop] at h
      split at h
      · split at h
        · refine (ih _ h).trans ?_
          split
          · exact le_refl _
          · linarith
        · cases h
      · exact ih _ h
  exact key _ _ h

/-- One vertex. -/
theorem encEv_rounded {rT rD lg : ℝ → ℝ} {u v δ κ C : ℝ} (hT : IsFloat rT v) (hB : Back rT κ)
    (hκ : 1 ≤ κ) (hD : IsFloat rD u) (hu : u ≤ 1) (hl : IsLog2 rD lg δ) (hδ : 0 ≤ δ)
    (hC : κ * ((1 + u) * (2 : ℝ) ^ δ) ≤ C) {r1 r2 : Nat} {maxEb : ℝ} (hm : 0 ≤ maxEb)
    (hfit : maxEb ≤ (2 : ℝ) ^ (960 : ℕ)) {bound : Fld ℝ → Ev → ℝ → Option ℝ}
    (hb : ∀ f e eb req, bound f e eb = some req → req ≤ eb) {f f' : Fld ℝ} {e : Ev} {c : Code ℝ}
    (h : encEv (roundedS rT rD lg) (parSz3 maxEb) (r1 * r2) bound f e = some (f', c)) :
    ∃ x y, f' = f.set e.pos x y ∧ (x = f.u e.pos ∨ |x - f.u e.pos| ≤ C * maxEb) ∧
      (y = f.v e.pos ∨ |y - f.v e.pos| ≤ C * maxEb) := by
  have hu0 := hD.u_nonneg
  unfold encEv at h
  split at h
  · cases h
  rename_i req hreq
  simp only at h
  split at h
  · rename_i pu pv hpu hpv
    simp only [Option.some.injEq, Prod.mk.injEq] at h
    obtain ⟨rfl, -⟩ := h
    refine ⟨_, _, rfl, ?_⟩
    have hle : req ≤ maxEb := by
      refine (hb _ _ _ _ hreq).trans ?_
      simp only [parSz3]
      split <;> linarith
    have h2δ : (1 : ℝ) ≤ (2 : ℝ) ^ δ := Real.one_le_rpow (by norm_num) hδ
    have hov : (1 + u) * (req / 2 ^ (-52 : ℤ)) < (2 : ℝ) ^ (1024 : ℕ) := by
      have e52 : (2 : ℝ) ^ (-52 : ℤ) = 1 / 2 ^ 52 := by norm_num
      refine lt_of_le_of_lt (mul_le_mul_of_nonneg_left
        (div_le_div_of_nonneg_right (hle.trans hfit) (by positivity)) (by linarith)) ?_
      have h1 : (2 : ℝ) ^ (960 : ℕ) / 2 ^ (-52 : ℤ) = (2 : ℝ) ^ (1012 : ℕ) := by
        rw [e52, div_div_eq_mul_div, div_one, ← pow_add]
      rw [h1]
      have h2 : (2 : ℝ) ^ (1012 : ℕ) < (2 : ℝ) ^ (1022 : ℕ) :=
        pow_lt_pow_right₀ (by norm_num) (by norm_num)
      have h3 : (2 : ℝ) ^ (1024 : ℕ) = (2 : ℝ) ^ (1022 : ℕ) * 2 ^ 2 := pow_add 2 1022 2
      have h4 : (0 : ℝ) < (2 : ℝ) ^ (1012 : ℕ) := by positivity
      rw [h3]
      generalize (2 : ℝ) ^ (1012 : ℕ) = A at *
      generalize (2 : ℝ) ^ (1022 : ℕ) = B at *
      nlinarith
    have hq : ∃ E, (roundedS rT rD lg).conv (ebQuant (roundedS rT rD lg).d (parSz3 maxEb).base
        (parSz3 maxEb).logBase (parSz3 maxEb).thr req).1 = E ∧ κ * E ≤ C * maxEb := by
      refine ⟨_, rfl, ?_⟩
      have t0 : rT 0 = 0 := by simpa using hT.int 0 (by norm_num)
      have hlog : Real.logb 2 4 = 2 := by
        rw [show (4 : ℝ) = 2 ^ (2 : ℝ) by norm_num, Real.logb_rpow (by norm_num) (by norm_num)]
      have hC0 : 0 ≤ C := le_trans (mul_nonneg (by linarith) (mul_nonneg (by linarith)
        (by linarith))) hC
      simp only [roundedS, parSz3, hlog]
      rcases ebQuant_any (rT := rT) hD hl hδ req hov with h0 | ⟨hpos, k, h1, h2⟩
      · rw [h0, t0, mul_zero]; exact mul_nonneg hC0 hm
      · rw [h1, hT.pow2all]
        calc κ * (2 : ℝ) ^ k ≤ κ * ((1 + u) * (2 : ℝ) ^ δ * req) :=
              mul_le_mul_of_nonneg_left h2 (by linarith)
          _ = κ * ((1 + u) * (2 : ℝ) ^ δ) * req := by ring
          _ ≤ C * req := mul_le_mul_of_nonneg_right hC hpos.le
          _ ≤ C * maxEb := mul_le_mul_of_nonneg_left hle hC0
    obtain ⟨E, hE, hEC⟩ := hq
    rw [hE]
    exact ⟨(quantT_rounded hB hκ _ _ _ _).imp_right fun h => h.trans hEC,
      (quantT_rounded hB hκ _ _ _ _).imp_right fun h => h.trans hEC⟩
  · cases h

/-- All vertices: what is still to do is untouched, everything is close to the input. -/
theorem close_all {S : SOps ℝ ℝ} {P : Par ℝ} {n : Nat} {bound : Fld ℝ → Ev → ℝ → Option ℝ}
    {M : ℝ} (h1 : ∀ e f f' c, encEv S P n bound f e = some (f', c) →
      ∃ x y, f' = f.set e.pos x y ∧ (x = f.u e.pos ∨ |x - f.u e.pos| ≤ M) ∧
        (y = f.v e.pos ∨ |y - f.v e.pos| ≤ M)) (m : Fld ℝ) :
    ∀ (es : List Ev) (f f' : Fld ℝ) (cs : List (Code ℝ)), (es.map Ev.pos).Nodup →
      (∀ q ∈ es.map Ev.pos, f.u q = m.u q ∧ f.v q = m.v q) →
      (∀ q, (f.u q = m.u q ∨ |f.u q - m.u q| ≤ M) ∧ (f.v q = m.v q ∨ |f.v q - m.v q| ≤ M)) →
      encAll S P n bound es f = some (f', cs) →
      ∀ q, (f'.u q = m.u q ∨ |f'.u q - m.u q| ≤ M) ∧ (f'.v q = m.v q ∨ |f'.v q - m.v q| ≤ M) := by
  intro es
  induction es with
  | nil =>
    intro f f' cs _ _ hc h
    simp only [encAll, Option.some.injEq, Prod.mk.injEq] at h
    rw [← h.1]; exact hc
  | cons e es ih =>
    intro f f' cs hnd hl hc h
    unfold encAll at h
    split at h
    · cases h
    rename_i f1 c he
    split at h
    · cases h
    rename_i f2 cs' h2
    simp only [Option.some.injEq, Prod.mk.injEq] at h
    obtain ⟨rfl, -⟩ := h
    obtain ⟨x, y, rfl, hx, hy⟩ := h1 _ _ _ _ he
    rw [List.map_cons, List.nodup_cons] at hnd
    refine ih _ _ _ hnd.2 (fun q hq => ?_) (fun q => ?_) h2
    · have hne : q ≠ e.pos := fun hqe => hnd.1 (hqe ▸ hq)
      simpa [Online2D.Field.set, Online2D.setAt, hne] using hl q (by simp [hq])
    · by_cases hqe : q = e.pos
      · subst hqe
        have := hl e.pos (by simp)
        rw [← this.1, ← this.2]
        simpa [Online2D.Field.set, Online2D.setAt] using And.intro hx hy
      · simpa [Online2D.Field.set, Online2D.setAt, hqe] using hc q

/-- Common part. -/
theorem sz3_bounded {rT rD lg : ℝ → ℝ} {u v δ κ C : ℝ} (hT : IsFloat rT v) (hB : Back rT κ)
    (hκ : 1 ≤ κ) (hD : IsFloat rD u) (hu : u ≤ 1) (hl : IsLog2 rD lg δ) (hδ : 0 ≤ δ)
    (hC : κ * ((1 + u) * (2 : ℝ) ^ δ) ≤ C) (r1 r2 : Nat) (h1 : 0 < r1) (h2 : 0 < r2) (maxEb : ℝ)
    (hm : 0 ≤ maxEb) (hfit : maxEb ≤ (2 : ℝ) ^ (960 : ℕ))
    (derive : ℝ → ℝ → ℝ → ℝ → ℝ → ℝ → ℝ) (m m0 : Fld ℝ) :
    ∃ m' s d, Sz3.compress (roundedS rT rD lg) (parSz3 maxEb) r1 r2 (boundR r1 r2 derive) m =
        some (m', s) ∧
      Sz3.decompress (roundedS rT rD lg) 4 ((2 : ℝ) ^ (-52 : ℤ)) 32768 r1 r2 m0 s = some d ∧
      ∀ q, q < r1 * r2 →
        (d.u q = m.u q ∨ |d.u q - m.u q| ≤ C * maxEb) ∧
        (d.v q = m.v q ∨ |d.v q - m.v q| ≤ C * maxEb) := by
  obtain ⟨m', s, h⟩ := compress_defined (roundedS rT rD lg) (parSz3 maxEb) r1 r2 h1 h2
    (fun a b : ℝ => if a < b then a else b) derive m
  obtain ⟨d, hd, hA⟩ := lockstep (C24_rounded_sane (lg := lg) hT.toIsRounding hD.toIsRounding
    maxEb) h1 h2 h m0
  have hrad : (parSz3 maxEb).radius = 32768 := by simp [Par.radius, parSz3]
  rw [hrad] at hd
  refine ⟨m', s, d, h, hd, fun q hq => ?_⟩
  rw [(hA q hq).1, (hA q hq).2]
  unfold Sz3.compress at h
  split at h
  · cases h
  rename_i f cs he
  simp only [Option.some.injEq, Prod.mk.injEq] at h
  obtain ⟨rfl, -⟩ := h
  exact close_all (fun e f f' c hc => encEv_rounded (r1 := r1) (r2 := r2) hT hB hκ hD hu hl hδ hC hm hfit
      (fun f e eb req hb => boundR_le (r1 := r1) (r2 := r2) (derive := derive) hb) hc) m _ _ _ _
    ((plan_perm h1 h2).nodup_iff.2 List.nodup_range) (fun _ _ => ⟨rfl, rfl⟩)
    (fun _ => ⟨Or.inl rfl, Or.inl rfl⟩) he q

theorem factor_sz3 {u δ k e r C : ℝ} (hu : u ≤ k) (hk0 : 0 ≤ k) (h0 : 0 ≤ δ) (h1 : δ ≤ e)
    (he : e ≤ 1) (hr : 0 ≤ r) (hC : r * ((1 + k) * (1 + e)) ≤ C) :
    r * ((1 + u) * (2 : ℝ) ^ δ) ≤ C := by
  have h2 := two_rpow_le h0 (h1.trans he)
  have h3 : (0 : ℝ) < (2 : ℝ) ^ δ := Real.rpow_pos_of_pos (by norm_num) _
  refine le_trans (mul_le_mul_of_nonneg_left ?_ hr) hC
  exact mul_le_mul (by linarith) (by linarith) h3.le (by linarith)

/-- C58, interpolation based mode on `float` data, operations rounded to nearest, any bound per
triangle: the decompressed value is exact or within `1 + 2^-23` times the user's bound.

Missing: the bound itself, which can be exceeded, see `C58_sz3_exceeded`. -/
theorem C58_sz3_float_partial {rnd rnd' : ℝ → ℤ} (hr : IsNearest rnd) (hr' : IsIntRounding rnd')
    {lg : ℝ → ℝ} {δ : ℝ} (hl : IsLog2 (fl rnd' 53) lg δ) (h0 : 0 ≤ δ) (h1 : δ ≤ 1 / 2 ^ 30)
    (r1 r2 : Nat) (hr1 : 0 < r1) (hr2 : 0 < r2) (maxEb : ℝ) (hm : 0 ≤ maxEb)
    (hfit : maxEb ≤ (2 : ℝ) ^ (960 : ℕ)) (derive : ℝ → ℝ → ℝ → ℝ → ℝ → ℝ → ℝ) (m m0 : Fld ℝ) :
    ∃ m' s d, Sz3.compress (roundedS (fl rnd 24) (fl rnd' 53) lg) (parSz3 maxEb) r1 r2
        (boundR r1 r2 derive) m = some (m', s) ∧
      Sz3.decompress (roundedS (fl rnd 24) (fl rnd' 53) lg) 4 ((2 : ℝ) ^ (-52 : ℤ)) 32768 r1 r2
        m0 s = some d ∧
      ∀ q, q < r1 * r2 →
        (d.u q = m.u q ∨ |d.u q - m.u q| ≤ (1 + 1 / 2 ^ 23) * maxEb) ∧
        (d.v q = m.v q ∨ |d.v q - m.v q| ≤ (1 + 1 / 2 ^ 23) * maxEb) :=
  sz3_bounded (fl_isFloat hr.toIsIntRounding (p := 24) (by norm_num)) (back_float hr)
    (by norm_num) (fl_isFloat hr' (p := 53) (by norm_num)) (by norm_num) hl h0
    (factor_sz3 (le_refl _) (by norm_num) h0 h1 (by norm_num) (by norm_num) (by norm_num))
    r1 r2 hr1 hr2 maxEb hm hfit derive m m0

/-- C58, interpolation based mode on `double` data, any rounding.

Missing: the bound itself, see `C58_sz3_exceeded`. -/
theorem C58_sz3_double_partial {rnd : ℝ → ℤ} (hr : IsIntRounding rnd)
    {lg : ℝ → ℝ} {δ : ℝ} (hl : IsLog2 (fl rnd 53) lg δ) (h0 : 0 ≤ δ) (h1 : δ ≤ 1 / 2 ^ 41)
    (r1 r2 : Nat) (hr1 : 0 < r1) (hr2 : 0 < r2) (maxEb : ℝ) (hm : 0 ≤ maxEb)
    (hfit : maxEb ≤ (2 : ℝ) ^ (960 : ℕ)) (derive : ℝ → ℝ → ℝ → ℝ → ℝ → ℝ → ℝ) (m m0 : Fld ℝ) :
    ∃ m' s d, Sz3.compress (roundedS (fl rnd 53) (fl rnd 53) lg) (parSz3 maxEb) r1 r2
        (boundR r1 r2 derive) m = some (m', s) ∧
      Sz3.decompress (roundedS (fl rnd 53) (fl rnd 53) lg) 4 ((2 : ℝ) ^ (-52 : ℤ)) 32768 r1 r2
        m0 s = some d ∧
      ∀ q, q < r1 * r2 →
        (d.u q = m.u q ∨ |d.u q - m.u q| ≤ (1 + 1 / 2 ^ 40) * maxEb) ∧
        (d.v q = m.v q ∨ |d.v q - m.v q| ≤ (1 + 1 / 2 ^ 40) * maxEb) :=
  sz3_bounded (fl_isFloat hr (p := 53) (by norm_num)) (back_double hr)
    (by norm_num) (fl_isFloat hr (p := 53) (by norm_num)) (by norm_num) hl h0
    (factor_sz3 (le_refl _) (by norm_num) h0 h1 (by norm_num) (by norm_num) (by norm_num))
    r1 r2 hr1 hr2 maxEb hm hfit derive m m0

end sz3

/-! ### The bound can be exceeded -/

theorem _root_.CpSZ.IsNearest.near_int {rnd : ℝ → ℤ} (hr : IsNearest rnd) {n : ℤ} {x : ℝ}
    (h : |x - n| < 1 / 2) : rnd x = n := by
  have h1 := abs_le.1 (hr.half x)
  have h2 := abs_lt.1 h
  have a : ((rnd x - n : ℤ) : ℝ) < 1 := by push_cast; linarith
  have b : (-1 : ℝ) < ((rnd x - n : ℤ) : ℝ) := by push_cast; linarith
  have a' : rnd x - n < 1 := by exact_mod_cast a
  have b' : -1 < rnd x - n := by exact_mod_cast b
  omega

/-- Rounding to nearest absorbs `2^-60` next to one. -/
theorem absorb {rnd : ℝ → ℤ} (hr : IsNearest rnd) {p : ℕ} (hp : p = 24 ∨ p = 53) :
    fl rnd p (1 + 1 / 2 ^ 60) = 1 ∧ fl rnd p (1 - 1 / 2 ^ 60) = 1 := by
  have near := fun n x => hr.near_int (n := n) (x := x)
  rcases hp with rfl | rfl
  · constructor
    · have := flPos_eq (rnd := rnd) (p := 24) (by norm_num) (e := -23)
        (x := (1 + 1 / 2 ^ 60) * 2 ^ 23) (by norm_num) (by norm_num)
      rw [near (2 ^ 23) _ (by norm_num [abs_lt])] at this
      unfold fl
      rw [if_pos (by norm_num)]
      norm_num at this ⊢
      exact this
    · have := flPos_eq (rnd := rnd) (p := 24) (by norm_num) (e := -24)
        (x := (1 - 1 / 2 ^ 60) * 2 ^ 24) (by norm_num) (by norm_num)
      rw [near (2 ^ 24) _ (by norm_num [abs_lt])] at this
      unfold fl
      rw [if_pos (by norm_num)]
      norm_num at this ⊢
      exact this
  · constructor
    · have := flPos_eq (rnd := rnd) (p := 53) (by norm_num) (e := -52)
        (x := (1 + 1 / 2 ^ 60) * 2 ^ 52) (by norm_num) (by norm_num)
      rw [near (2 ^ 52) _ (by norm_num [abs_lt])] at this
      unfold fl
      rw [if_pos (by norm_num)]
      norm_num at this ⊢
      exact this
    · have := flPos_eq (rnd := rnd) (p := 53) (by norm_num) (e := -53)
        (x := (1 - 1 / 2 ^ 60) * 2 ^ 53) (by norm_num) (by norm_num)
      rw [near (2 ^ 53) _ (by norm_num [abs_lt])] at this
      unfold fl
      rw [if_pos (by norm_num)]
      norm_num at this ⊢
      exact this

section block
open CpSZ.Block

/-- Quantisation of `-2^-60` from the prediction `-n`, bound 1, `n` odd: the difference is rounded to
`n`, the reconstruction is 1, and its distance `1 + 2^-60` is rounded to the bound. -/
theorem quantize_over {rT rD lg : ℝ → ℝ} (hT : IsRounding rT) (hD : IsRounding rD)
    (h1 : rT (1 + 1 / 2 ^ 60) = 1) (cap R : Int) (n j : ℤ) (hj : n = 2 * j + 1) (hj0 : 0 ≤ j)
    (hn : n + 1 < cap) (hcap : cap ≤ 2 ^ 24) (hdiff : rT (-(1 / 2 ^ 60) - -(n : ℝ)) = n) :
    quantize (roundedQ rT rD lg) (-(n : ℝ)) (-(1 / 2 ^ 60)) 1 cap R = (j + 1 + R, 1, []) := by
  have hi : ∀ k : ℤ, |k| ≤ 2 ^ 24 → rD (k : ℝ) = k := fun k hk => hD.int k hk
  have hnr : (n : ℝ) = 2 * j + 1 := by rw [hj]; push_cast; ring
  have hj0' : (0 : ℝ) ≤ j := by exact_mod_cast hj0
  have hL : linQuant (roundedQ rT rD lg).toDOps (n : ℝ) 1 cap R = some (j + 1 + R) := by
    have a1 : rD (|(n : ℝ)| / 1) = n := by
      rw [div_one, abs_of_nonneg (by rw [hnr]; linarith)]
      exact hi n (by rw [abs_of_nonneg (by omega)]; omega)
    have a2 : rD ((n : ℝ) + ((1 : ℤ) : ℝ)) = ((n + 1 : ℤ) : ℝ) := by
      rw [← Int.cast_add]
      exact hi _ (by rw [abs_of_nonneg (by omega)]; omega)
    have a3 : rD (((n + 1 : ℤ) : ℝ) / ((2 : ℤ) : ℝ)) = ((j + 1 : ℤ) : ℝ) := by
      rw [show ((n + 1 : ℤ) : ℝ) / ((2 : ℤ) : ℝ) = ((j + 1 : ℤ) : ℝ) by
        push_cast; rw [hnr]; ring]
      exact hi _ (by rw [abs_of_nonneg (by omega)]; omega)
    have a4 : truncR ((j + 1 : ℤ) : ℝ) = j + 1 := by
      rw [truncR_nonneg (by push_cast; linarith), Int.floor_intCast]
    have a5 : ((n + 1 : ℤ) : ℝ) < (cap : ℝ) := by exact_mod_cast hn
    have a6 : (0 : ℝ) < n := by rw [hnr]; linarith
    have h1' : rD ((1 : ℤ) : ℝ) = ((1 : ℤ) : ℝ) := hi 1 (by norm_num)
    have h2' : rD ((2 : ℤ) : ℝ) = ((2 : ℤ) : ℝ) := hi 2 (by norm_num)
    have h0' : rD (0 : ℝ) = 0 := by simpa using hi 0 (by norm_num)
    have hc' : rD (cap : ℝ) = cap := hi _ (by rw [abs_of_nonneg (by omega)]; omega)
    unfold linQuant
    simp only [roundedQ, roundedOps, a1, h1', a2, hc', a5, decide_true, if_true, h2', h0',
      Int.cast_zero, a6, a3, a4]
  have b1 : rD (((2 * (j + 1) : ℤ) : ℝ) * 1) = ((2 * (j + 1) : ℤ) : ℝ) := by
    rw [mul_one]; exact hi _ (by rw [abs_of_nonneg (by omega)]; omega)
  have b2 : -(n : ℝ) + ((2 * (j + 1) : ℤ) : ℝ) = ((1 : ℤ) : ℝ) := by
    push_cast; rw [hnr]; ring
  have b3 : rD ((1 : ℤ) : ℝ) = ((1 : ℤ) : ℝ) := hi 1 (by norm_num)
  have b4 : rT ((1 : ℤ) : ℝ) = ((1 : ℤ) : ℝ) := hT.int 1 (by norm_num)
  have b5 : rD ((2 * (j + 1) : ℤ) : ℝ) = ((2 * (j + 1) : ℤ) : ℝ) :=
    hi _ (by rw [abs_of_nonneg (by omega)]; omega)
  have hd : (roundedQ rT rD lg).diff (-(1 / 2 ^ 60)) (-(n : ℝ)) = n := hdiff
  unfold quantize
  rw [hd, hL]
  simp only
  have hdec : (roundedQ rT rD lg).addTo (-(n : ℝ))
      (linOffset (roundedQ rT rD lg).toDOps 1 R (j + 1 + R)) = 1 := by
    simp only [linOffset, add_sub_cancel_right]
    simp only [roundedQ, roundedOps, b5, b1, b2, b3, b4]
    norm_num
  rw [hdec]
  have hle : (roundedQ rT rD lg).le ((roundedQ rT rD lg).dist 1 (-(1 / 2 ^ 60))) 1 = true := by
    simp only [roundedQ, roundedOps, sub_neg_eq_add, h1]
    norm_num
  rw [if_pos hle]

/-- The values `-1, -2^-60` on a grid of one row. -/
noncomputable def overData : Nat → ℝ := fun p => if p = 0 then -1 else -(1 / 2 ^ 60)

/-- Precision 0 for the first value, 1 for the second. -/
noncomputable def overPrec : Nat → ℝ := fun p => if p = 0 then 0 else 1

theorem over_eb {rT rF rD lg : ℝ → ℝ} (hT : IsRounding rT) (hF : IsRounding rF)
    (hD : IsRounding rD) (h1 : rT (1 + 1 / 2 ^ 60) = 1) (h2 : rT (1 - 1 / 2 ^ 60) = 1) :
    outEb2 (roundedB rT rF rD lg) overData overPrec 1 2 2 =
      ⟨[false], [], [], [], [0, 32769], [-1], [(0, -1), (1, 1)]⟩ := by
  have hq := quantize_over (lg := lg) hT hD h1 65536 32768 1 0 (by norm_num) (by norm_num)
    (by norm_num) (by norm_num) (by
      rw [show -(1 / 2 ^ 60 : ℝ) - -((1 : ℤ) : ℝ) = 1 - 1 / 2 ^ 60 by push_cast; ring, h2]
      norm_num)
  have hplan : planC2 1 2 2 = [.start 0 1 2 1, .pt ⟨0, 4, 0, 0, 0⟩, .pt ⟨1, 5, 0, 1, 0⟩,
      .copy 6 3] := by rfl
  have t0 : rT 0 = 0 := by simpa using hT.int 0 (by norm_num)
  have t1 : rT (-1) = -1 := by simpa using hT.int (-1) (by norm_num)
  have f1 : rF (-1) = -1 := by simpa using hF.int (-1) (by norm_num)
  unfold outEb2
  rw [hplan]
  simp [runEnc, encEv, encPt, cfg2, roundedB, overPrec, overData, lorAt2, Out.app, Out.nil, initSt,
    Cfg.stores, upd, t1, f1]
  norm_num at hq ⊢
  rw [hq]
  exact ⟨rfl, rfl, rfl⟩

/-- What `sz_decompress_2d_with_eb` writes is what the compressor reconstructed. -/
theorem eb_writes {rT rF rD lg : ℝ → ℝ} (hr : IsRounding rD)
    (data prec : Nat → ℝ) (r1 r2 bs : Nat) (h1 : 0 < r1) (h2 : 0 < r2) (hb : 0 < bs)
    (hp : ∀ p < r1 * r2, 0 ≤ prec p) (out0 : Nat → ℝ) :
    ∃ d, runDec (cfg2 (roundedB rT rF rD lg) r2 bs (false, 0) 32768 prec true (rD (1 / 10))
        (fun _ _ _ _ => none)) (planD2 r1 r2 bs)
        ⟨fun _ => 0, none, (outEb2 (roundedB rT rF rD lg) data prec r1 r2 bs).ind,
          (outEb2 (roundedB rT rF rD lg) data prec r1 r2 bs).coefs,
          (outEb2 (roundedB rT rF rD lg) data prec r1 r2 bs).ty,
          (outEb2 (roundedB rT rF rD lg) data prec r1 r2 bs).un, out0⟩ = some d ∧
      d.out = writes out0 (outEb2 (roundedB rT rF rD lg) data prec r1 r2 bs).recon := by
  have hG : Good (cfg2 (roundedB rT rF rD lg) r2 bs (false, 0) 32768 prec true (rD (1 / 10))
      (fun _ _ _ _ => none)) (· < r1 * r2) := by
    refine ⟨?_, ?_, ?_, ?_, ?_, ?_⟩
    · intro p hp' hz diff q hq
      have := C31_codes_rounded rT rF rD lg hr (prec p) (hp p hp') (by simpa [cfg2] using hz)
        diff q hq
      refine ⟨this.1, ?_, fun h => by simp [cfg2] at h⟩
      show q < 2 * ((32768 : Nat) : Int)
      omega
    · intro p hp' hz diff q hq
      have := C31_codes_rounded rT rF rD lg hr (prec p) (hp p hp') (by simpa [cfg2] using hz)
        diff q hq
      refine ⟨this.1, ?_⟩
      show q < 2 * ((32768 : Nat) : Int)
      omega
    · show (1 : Int) < 2 * ((32768 : Nat) : Int)
      omega
    · rintro ⟨_, _, _, _, _, h⟩
      cases h
    · show (0 : Int) < 2 * 32768
      omega
    · intro _ _ _ _ _ h
      cases h
  obtain ⟨d, hd1, -, -, hd3⟩ := run_roundtrip _
    (cfg2 (roundedB rT rF rD lg) r2 bs (false, 0) 32768 prec true (rD (1 / 10))
      (fun _ _ _ _ => none)) (r1 * r2) hG rfl rfl rfl rfl rfl rfl rfl data (planC2 r1 r2 bs)
    (tiling2 r1 r2 bs h1 h2 hb) (initSt (roundedB rT rF rD lg) 3) out0
  rw [C32_same_order r1 r2 bs h2 hb]
  exact ⟨d, hd1, hd3⟩

theorem tiny_exact {rnd : ℝ → ℤ} (hr : IsIntRounding rnd) {p : ℕ} (hp : p = 24 ∨ p = 53) :
    fl rnd p (-(1 / 2 ^ 60)) = -(1 / 2 ^ 60) :=
  fl_exact hr (n := -1) (e := -60) (by norm_num) (by rcases hp with rfl | rfl <;> norm_num)

/-- C58 fails for `sz_compress_2d_with_eb`, for `float` and for `double` data and every rounding
to nearest: the two numbers `-1` and `-2^-60`, both representable, with the bounds 0 and 1.  The
second is decompressed as 1, with an error of `1 + 2^-60`. -/
theorem C58_block_exceeded {rnd rnd' : ℝ → ℤ} (hr : IsNearest rnd) (hr' : IsIntRounding rnd')
    (p : ℕ) (hp : p = 24 ∨ p = 53) (lg : ℝ → ℝ) (out0 : Nat → ℝ) :
    ∃ (data prec : Nat → ℝ) (d : DSt ℝ ℝ), (∀ q, fl rnd p (data q) = data q) ∧ (∀ q, 0 ≤ prec q) ∧
      runDec (cfg2 (roundedB (fl rnd p) (fl rnd 24) (fl rnd' 53) lg) 2 2 (false, 0) 32768 prec true
          (fl rnd' 53 (1 / 10)) (fun _ _ _ _ => none)) (planD2 1 2 2)
        ⟨fun _ => 0, none,
          (outEb2 (roundedB (fl rnd p) (fl rnd 24) (fl rnd' 53) lg) data prec 1 2 2).ind,
          (outEb2 (roundedB (fl rnd p) (fl rnd 24) (fl rnd' 53) lg) data prec 1 2 2).coefs,
          (outEb2 (roundedB (fl rnd p) (fl rnd 24) (fl rnd' 53) lg) data prec 1 2 2).ty,
          (outEb2 (roundedB (fl rnd p) (fl rnd 24) (fl rnd' 53) lg) data prec 1 2 2).un, out0⟩ =
        some d ∧
      prec 1 < |d.out 1 - data 1| := by
  have hT := (fl_isFloat hr.toIsIntRounding (p := p) (by omega)).toIsRounding
  have hF := (fl_isFloat hr.toIsIntRounding (p := 24) (by norm_num)).toIsRounding
  have hD := (fl_isFloat hr' (p := 53) (by norm_num)).toIsRounding
  obtain ⟨a1, a2⟩ := absorb hr hp
  obtain ⟨d, hd, hw⟩ := eb_writes (rT := fl rnd p) (rF := fl rnd 24) (lg := lg) hD overData
    overPrec 1 2 2 (by norm_num) (by norm_num) (by norm_num)
    (fun q _ => by unfold overPrec; split <;> norm_num) out0
  refine ⟨overData, overPrec, d, fun q => ?_, fun q => ?_, hd, ?_⟩
  · unfold overData
    split
    · simpa using hT.int (-1) (by norm_num)
    · exact tiny_exact hr.toIsIntRounding hp
  · unfold overPrec; split <;> norm_num
  · rw [hw, over_eb hT hF hD a1 a2]
    norm_num [writes, upd, overData, overPrec, abs_of_pos]

/-! The same with one bound for all points. -/

/-- The first value is too far from the prediction 0 and is stored. -/
theorem quantize_far {rT rD lg : ℝ → ℝ} (hT : IsRounding rT) (hD : IsRounding rD) (R : Int) :
    quantize (roundedQ rT rD lg) 0 (-32767) 1 32768 R = (0, -32767, [-32767]) := by
  have t : rT (-32767) = -32767 := by simpa using hT.int (-32767) (by norm_num)
  have d1 : rD 32767 = 32767 := by simpa using hD.int 32767 (by norm_num)
  have d2 : rD 32768 = 32768 := by simpa using hD.int 32768 (by norm_num)
  have d3 : rD 1 = 1 := by simpa using hD.int 1 (by norm_num)
  unfold quantize linQuant
  norm_num [roundedQ, roundedOps, t, d1, d2, d3, abs_of_pos]

/-- The second value is reconstructed exactly. -/
theorem quantize_mid {rT rD lg : ℝ → ℝ} (hT : IsRounding rT) (hD : IsRounding rD) :
    quantize (roundedQ rT rD lg) (-32767) (-16385) 1 32768 16384 = (24575, -16385, []) := by
  have t : rT 16382 = 16382 := by simpa using hT.int 16382 (by norm_num)
  have t' : rT (-16385) = -16385 := by simpa using hT.int (-16385) (by norm_num)
  have t0 : rT 0 = 0 := by simpa using hT.int 0 (by norm_num)
  have d0 : rD 0 = 0 := by simpa using hD.int 0 (by norm_num)
  have d1 : rD 16382 = 16382 := by simpa using hD.int 16382 (by norm_num)
  have d2 : rD 32768 = 32768 := by simpa using hD.int 32768 (by norm_num)
  have d3 : rD 1 = 1 := by simpa using hD.int 1 (by norm_num)
  have d4 : rD 2 = 2 := by simpa using hD.int 2 (by norm_num)
  have d5 : rD 16383 = 16383 := by simpa using hD.int 16383 (by norm_num)
  have d6 : rD (-16385) = -16385 := by simpa using hD.int (-16385) (by norm_num)
  have d7 : truncR (rD (16383 / 2)) = 8191 := by
    have h1 : rD 8191 = 8191 := by simpa using hD.int 8191 (by norm_num)
    have h := hD.half 16383 (by norm_num [d5])
    rw [d5] at h
    rw [h, truncR_nonneg (by norm_num)]
    norm_num
  unfold quantize linQuant linOffset
  norm_num [roundedQ, roundedOps, t, t', t0, d0, d1, d2, d3, d4, d5, d6, d7, abs_of_pos]

/-- The values `-32767, -16385, -2^-60`. -/
noncomputable def overData3 : Nat → ℝ :=
  fun p => if p = 0 then -32767 else if p = 1 then -16385 else -(1 / 2 ^ 60)

theorem absorb' {rnd : ℝ → ℤ} (hr : IsNearest rnd) {p : ℕ} (hp : p = 24 ∨ p = 53) :
    fl rnd p (-(1 / 2 ^ 60) - -((16385 : ℤ) : ℝ)) = ((16385 : ℤ) : ℝ) := by
  rcases hp with rfl | rfl
  · have := flPos_eq (rnd := rnd) (p := 24) (by norm_num) (e := -9)
      (x := (16385 - 1 / 2 ^ 60) * 2 ^ 9) (by norm_num) (by norm_num)
    rw [hr.near_int (n := 16385 * 2 ^ 9) (by norm_num [abs_lt])] at this
    unfold fl
    rw [if_pos (by norm_num)]
    norm_num at this ⊢
    exact this
  · have := flPos_eq (rnd := rnd) (p := 53) (by norm_num) (e := -38)
      (x := (16385 - 1 / 2 ^ 60) * 2 ^ 38) (by norm_num) (by norm_num)
    rw [hr.near_int (n := 16385 * 2 ^ 38) (by norm_num [abs_lt])] at this
    unfold fl
    rw [if_pos (by norm_num)]
    norm_num at this ⊢
    exact this

theorem over_2d {rT rF rD lg : ℝ → ℝ} (hT : IsRounding rT) (hF : IsRounding rF)
    (hD : IsRounding rD) (h1 : rT (1 + 1 / 2 ^ 60) = 1)
    (h2 : rT (-(1 / 2 ^ 60) - -((16385 : ℤ) : ℝ)) = ((16385 : ℤ) : ℝ)) :
    (out2 (roundedB rT rF rD lg) overData3 1 1 3 3 (fun _ _ _ _ => none)).recon =
      [(0, -32767), (1, -16385), (2, 1)] := by
  have hq := quantize_over (lg := lg) hT hD h1 32768 16384 16385 8192 (by norm_num) (by norm_num)
    (by norm_num) (by norm_num) h2
  have hplan : planC2 1 3 3 = [.start 0 1 3 1, .pt ⟨0, 5, 0, 0, 0⟩, .pt ⟨1, 6, 0, 1, 0⟩,
      .pt ⟨2, 7, 0, 2, 0⟩, .copy 12 4] := by rfl
  have t0 : rT 0 = 0 := by simpa using hT.int 0 (by norm_num)
  have f0 : rF 0 = 0 := by simpa using hF.int 0 (by norm_num)
  have t1 : rT (-32767) = -32767 := by simpa using hT.int (-32767) (by norm_num)
  have f1 : rF (-32767) = -32767 := by simpa using hF.int (-32767) (by norm_num)
  have t2 : rT (-16385) = -16385 := by simpa using hT.int (-16385) (by norm_num)
  have f2 : rF (-16385) = -16385 := by simpa using hF.int (-16385) (by norm_num)
  unfold out2
  rw [hplan]
  simp [runEnc, encEv, encPt, cfg2, roundedB, overData3, lorAt2, Out.app, Out.nil, initSt,
    Cfg.stores, upd, t0, f0, t1, f1, t2, f2, quantize_far hT hD, quantize_mid hT hD]
  norm_num at hq ⊢
  rw [hq]

theorem over_3d {rT rF rD lg : ℝ → ℝ} (hT : IsRounding rT) (hF : IsRounding rF)
    (hD : IsRounding rD) (h1 : rT (1 + 1 / 2 ^ 60) = 1)
    (h2 : rT (-(1 / 2 ^ 60) - -((16385 : ℤ) : ℝ)) = ((16385 : ℤ) : ℝ)) (indep : Bool) :
    (out3 (roundedB rT rF rD lg) overData3 1 1 1 3 3 indep 16384 (false, 0)
      (fun _ _ _ _ => none)).recon = [(0, -32767), (1, -16385), (2, 1)] := by
  have hq := quantize_over (lg := lg) hT hD h1 32768 16384 16385 8192 (by norm_num) (by norm_num)
    (by norm_num) (by norm_num) h2
  have t0 : rT 0 = 0 := by simpa using hT.int 0 (by norm_num)
  have f0 : rF 0 = 0 := by simpa using hF.int 0 (by norm_num)
  have t1 : rT (-32767) = -32767 := by simpa using hT.int (-32767) (by norm_num)
  have f1 : rF (-32767) = -32767 := by simpa using hF.int (-32767) (by norm_num)
  have t2 : rT (-16385) = -16385 := by simpa using hT.int (-16385) (by norm_num)
  have f2 : rF (-16385) = -16385 := by simpa using hF.int (-16385) (by norm_num)
  have hplan : plan3d false 1 1 3 3 = [.start 0 1 1 3, .pt ⟨0, 13, 0, 0, 0⟩,
      .pt ⟨1, 14, 0, 0, 1⟩, .pt ⟨2, 15, 0, 0, 2⟩, .copy 24 8] := by rfl
  have hplan' : plan3d true 1 1 3 3 = [.start 0 1 1 3, .pt ⟨0, 21, 0, 0, 0⟩,
      .pt ⟨1, 22, 0, 0, 1⟩, .pt ⟨2, 23, 0, 0, 2⟩] := by rfl
  unfold out3
  cases indep
  · rw [hplan]
    simp [runEnc, encEv, encPt, cfg3, roundedB, overData3, lorAt3, Out.app, Out.nil, initSt,
      Cfg.stores, upd, t0, f0, t1, f1, t2, f2, quantize_far hT hD, quantize_mid hT hD]
    norm_num at hq ⊢
    rw [hq]
  · rw [hplan']
    simp [runEnc, encEv, encPt, cfg3, roundedB, overData3, lorAt3, Out.app, Out.nil, initSt,
      Cfg.stores, upd, t0, f0, t1, f1, t2, f2, quantize_far hT hD, quantize_mid hT hD]
    norm_num at hq ⊢
    rw [hq]

theorem overData3_rep {rnd : ℝ → ℤ} (hr : IsIntRounding rnd) {p : ℕ} (hp : p = 24 ∨ p = 53)
    (q : Nat) : fl rnd p (overData3 q) = overData3 q := by
  have hT := (fl_isFloat hr (p := p) (by omega)).toIsRounding
  unfold overData3
  split
  · simpa using hT.int (-32767) (by norm_num)
  split
  · simpa using hT.int (-16385) (by norm_num)
  · exact tiny_exact hr hp

/-- C58 fails for `sz_compress_2d`: the numbers `-32767`, `-16385`, `-2^-60` with bound 1; no
block is predicted by regression.  The third is decompressed as 1. -/
theorem C58_2d_exceeded {rnd rnd' : ℝ → ℤ} (hr : IsNearest rnd) (hr' : IsIntRounding rnd')
    (p : ℕ) (hp : p = 24 ∨ p = 53) (lg : ℝ → ℝ) (out0 : Nat → ℝ) :
    ∃ (data : Nat → ℝ) (d : DSt ℝ ℝ), (∀ q, fl rnd p (data q) = data q) ∧
      runDec (cfg2 (roundedB (fl rnd p) (fl rnd 24) (fl rnd' 53) lg) 3 3 (false, 0) 16384 (fun _ => 1) false 1
        (fun _ _ _ _ => none)) (planD2 1 3 3)
        ⟨fun _ => 0, none,
          (out2 (roundedB (fl rnd p) (fl rnd 24) (fl rnd' 53) lg) data 1 1 3 3 (fun _ _ _ _ => none)).ind,
          (out2 (roundedB (fl rnd p) (fl rnd 24) (fl rnd' 53) lg) data 1 1 3 3 (fun _ _ _ _ => none)).coefs,
          (out2 (roundedB (fl rnd p) (fl rnd 24) (fl rnd' 53) lg) data 1 1 3 3 (fun _ _ _ _ => none)).ty,
          (out2 (roundedB (fl rnd p) (fl rnd 24) (fl rnd' 53) lg) data 1 1 3 3 (fun _ _ _ _ => none)).un, out0⟩ =
        some d ∧
      1 < |d.out 2 - data 2| := by
  have hT := fl_isFloat hr.toIsIntRounding (p := p) (by omega)
  have hF := fl_isFloat hr.toIsIntRounding (p := 24) (by norm_num)
  have hD := fl_isFloat hr' (p := 53) (by norm_num)
  have hB := fl_back hr.toIsIntRounding (p := p) (by omega) hr.half
  obtain ⟨d, hd, -, hw⟩ := block2 (lg := lg) hB (by norm_num; positivity) hF (by norm_num) hD
    (by norm_num) overData3 1 (by norm_num) 1 3 3 (by norm_num) (by norm_num) (by norm_num)
    (fun _ _ _ _ => none) (fun _ _ _ _ _ h => by cases h) out0
  refine ⟨overData3, d, overData3_rep hr.toIsIntRounding hp, hd, ?_⟩
  rw [hw, over_2d hT.toIsRounding hF.toIsRounding hD.toIsRounding (absorb hr hp).1 (absorb' hr hp)]
  norm_num [writes, upd, overData3, abs_of_pos]

/-- C58 fails for `sz_compress_3d`, with dependent and with independent blocks: the same three
numbers. -/
theorem C58_3d_exceeded {rnd rnd' : ℝ → ℤ} (hr : IsNearest rnd) (hr' : IsIntRounding rnd')
    (p : ℕ) (hp : p = 24 ∨ p = 53) (lg : ℝ → ℝ) (indep : Bool) (out0 : Nat → ℝ) :
    ∃ (data : Nat → ℝ) (d : DSt ℝ ℝ), (∀ q, fl rnd p (data q) = data q) ∧
      runDec (cfg3 (roundedB (fl rnd p) (fl rnd 24) (fl rnd' 53) lg) 1 3 3 indep (false, 0) 16384 (fun _ => 1) 1
        (fun _ _ _ _ => none)) (plan3d indep 1 1 3 3)
        ⟨fun _ => 0, none,
          (out3 (roundedB (fl rnd p) (fl rnd 24) (fl rnd' 53) lg) data 1 1 1 3 3 indep 16384 (false, 0)
            (fun _ _ _ _ => none)).ind,
          (out3 (roundedB (fl rnd p) (fl rnd 24) (fl rnd' 53) lg) data 1 1 1 3 3 indep 16384 (false, 0)
            (fun _ _ _ _ => none)).coefs,
          (out3 (roundedB (fl rnd p) (fl rnd 24) (fl rnd' 53) lg) data 1 1 1 3 3 indep 16384 (false, 0)
            (fun _ _ _ _ => none)).ty,
          (out3 (roundedB (fl rnd p) (fl rnd 24) (fl rnd' 53) lg) data 1 1 1 3 3 indep 16384 (false, 0)
            (fun _ _ _ _ => none)).un, out0⟩ = some d ∧
      1 < |d.out 2 - data 2| := by
  have hT := fl_isFloat hr.toIsIntRounding (p := p) (by omega)
  have hF := fl_isFloat hr.toIsIntRounding (p := 24) (by norm_num)
  have hD := fl_isFloat hr' (p := 53) (by norm_num)
  have hB := fl_back hr.toIsIntRounding (p := p) (by omega) hr.half
  obtain ⟨d, hd, -, hw⟩ := block3 (lg := lg) hB (by norm_num; positivity) hT.odd hF (by norm_num) hD
    (by norm_num) overData3 1 (by norm_num) 1 1 3 3 (by norm_num) (by norm_num) (by norm_num)
    (by norm_num) indep 16384 (by norm_num) (by norm_num) (false, 0)
    (fun _ _ _ _ => none) (fun _ _ _ _ _ h => by cases h) out0
  refine ⟨overData3, d, overData3_rep hr.toIsIntRounding hp, hd, ?_⟩
  rw [hw, over_3d hT.toIsRounding hF.toIsRounding hD.toIsRounding (absorb hr hp).1 (absorb' hr hp)]
  norm_num [writes, upd, overData3, abs_of_pos]

end block

section sz3
open CpSZ.Sz3

theorem plan13 : planEnc 1 3 = [⟨0, 0, 0, 0, .zero, true⟩, ⟨2, 0, 2, 2, .left, false⟩,
    ⟨1, 0, 1, 1, .linear, false⟩] := by
  have h1 : interpLevel 1 3 = 2 := by
    unfold interpLevel
    rw [Nat.max_eq_right (by norm_num), Nat.clog_of_two_le (by norm_num) (by norm_num),
      Nat.clog_eq_one (by norm_num) (by norm_num)]
  have s1 : stepLoop 1 2 0 = [0] := by
    rw [stepLoop, stepLoop]; simp
  have s2 : stepLoop 1 1 0 = [0] := by
    rw [stepLoop, stepLoop]; simp
  have l1 : linLoop 2 1 = [] := by rw [linLoop]; simp
  have l2 : linLoop 3 1 = [(1, .linear)] := by rw [linLoop, linLoop]; simp
  have s3 : stepLoop 3 4 0 = [0] := by
    rw [stepLoop, stepLoop]; simp
  have s4 : stepLoop 3 2 0 = [0, 2] := by
    rw [stepLoop, stepLoop, stepLoop]; simp
  simp [planEnc, h1, levelsEnc, passCols, passRows, s1, s2, s3, s4, lineEnc, l1, l2]

/-- The field `(-1,0) (0,0) (-2^-60,0)` on a grid of one row. -/
noncomputable def overField : Fld ℝ :=
  ⟨fun q => if q = 0 then -1 else if q = 2 then -(1 / 2 ^ 60) else 0, fun _ => 0⟩

/-- On a grid of one row there is no triangle. -/
theorem bound_row_sz3 {derive : ℝ → ℝ → ℝ → ℝ → ℝ → ℝ → ℝ} {f : Fld ℝ} {e : Ev} {eb : ℝ}
    (he : e.row = 0) (hc : e.col < 3) : boundR 1 3 derive f e eb = some eb := by
  have key : ∀ c < 3, ∀ k < 6, Mesh2D.inMesh 1 3 0 c k = false := by decide
  have : ∀ k < 6, Mesh2D.inMesh 1 3 e.row e.col k = false := fun k hk => by
    rw [he]; exact key _ hc k hk
  simp only [boundR, deriveEb, deriveLoop, this 0 (by norm_num), this 1 (by norm_num),
    this 2 (by norm_num), this 3 (by norm_num), this 4 (by norm_num), this 5 (by norm_num),
    Bool.false_eq_true, if_false]

/-- Quantised bounds of the witness. -/
theorem over_ebs {rT rD lg : ℝ → ℝ} {v : ℝ} (hD : IsFloat rD v) (h51 : lg (2 ^ 51) = 51)
    (h52 : lg (2 ^ 52) = 52) :
    ebQuant (roundedOps rT rD lg).toDOps 4 (Real.logb 2 4) ((2 : ℝ) ^ (-52 : ℤ)) 1 = (1, 26) ∧
    ebQuant (roundedOps rT rD lg).toDOps 4 (Real.logb 2 4) ((2 : ℝ) ^ (-52 : ℤ)) (1 / 2) =
      (1 / 4, 25) := by
  have hlog : Real.logb 2 4 = 2 := by
    rw [show (4 : ℝ) = 2 ^ (2 : ℝ) by norm_num, Real.logb_rpow (by norm_num) (by norm_num)]
  have d26 : rD 26 = 26 := by simpa using hD.int 26 (by norm_num)
  have d1 : rD 1 = 1 := by simpa using hD.int 1 (by norm_num)
  have d51 : rD 51 = 51 := by simpa using hD.int 51 (by norm_num)
  have dh : rD (51 / 2) = 51 / 2 := by
    have := hD.half 51 (by rw [d51]; norm_num)
    rwa [d51] at this
  have p52 : rD (2 ^ 52) = 2 ^ 52 := by simpa using hD.pow2all 52
  have p51 : rD (2 ^ 51) = 2 ^ 51 := by simpa using hD.pow2all 51
  have p50 : rD (2 ^ 50) = 2 ^ 50 := by simpa using hD.pow2all 50
  have pm2 : rD (1 / 4) = 1 / 4 := by
    have := hD.pow2all (-2)
    norm_num at this ⊢
    exact this
  have tr1 : truncR (52 / 2) = 26 := by rw [truncR_nonneg (by norm_num)]; norm_num
  have tr2 : truncR (51 / 2) = 25 := by rw [truncR_nonneg (by norm_num)]; norm_num
  have e1 : (1 : ℝ) / (2 : ℝ) ^ (-52 : ℤ) = 2 ^ 52 := by norm_num
  have e2 : (1 / 2 : ℝ) / (2 : ℝ) ^ (-52 : ℤ) = 2 ^ 51 := by norm_num
  have e3 : ((4 : ℤ) : ℝ) ^ (26 : ℤ) = 2 ^ 52 := by norm_num
  have e4 : ((4 : ℤ) : ℝ) ^ (25 : ℤ) = 2 ^ 50 := by norm_num
  have d26' : rD (52 / 2) = 52 / 2 := by
    rw [show (52 / 2 : ℝ) = 26 by norm_num]; exact d26
  have e5 : (2 : ℝ) ^ 52 * (2 : ℝ) ^ (-52 : ℤ) = 1 := by norm_num
  have e6 : (2 : ℝ) ^ 50 * (2 : ℝ) ^ (-52 : ℤ) = 1 / 4 := by norm_num
  constructor
  · unfold ebQuant
    rw [if_neg (by simp only [roundedOps, decide_eq_true_eq]; norm_num)]
    simp only [roundedOps, e1, p52, h52, hlog, d26', tr1, e3, e5, d1]
  · unfold ebQuant
    rw [if_neg (by simp only [roundedOps, decide_eq_true_eq]; norm_num)]
    simp only [roundedOps, e2, p51, h51, hlog, dh, tr2, e4, p50, e6, pm2]

theorem over_first {rT rD lg : ℝ → ℝ} {v w : ℝ} (hT : IsFloat rT w) (hD : IsFloat rD v)
    (h51 : lg (2 ^ 51) = 51) (h52 : lg (2 ^ 52) = 52)
    {derive : ℝ → ℝ → ℝ → ℝ → ℝ → ℝ → ℝ} {f' : Fld ℝ} {c : Code ℝ}
    (h : encEv (roundedS rT rD lg) (parSz3 1) (1 * 3) (boundR 1 3 derive) overField
      ⟨0, 0, 0, 0, .zero, true⟩ = some (f', c)) : f' = overField.set 0 (-1) 0 := by
  have he : ebQuant (roundedS rT rD lg).d (parSz3 1).base (parSz3 1).logBase (parSz3 1).thr
      (1 / 2) = (1 / 4, 25) := (over_ebs (rT := rT) hD h51 h52).2
  have hrad : (parSz3 1).radius = 32768 := by simp [Par.radius, parSz3]
  have t0 : rT 0 = 0 := by simpa using hT.int 0 (by norm_num)
  have t1 : rT (-1) = -1 := by simpa using hT.int (-1) (by norm_num)
  have t4 : rT 4 = 4 := by simpa using hT.int 4 (by norm_num)
  have t4' : rT (-4) = -4 := by simpa using hT.int (-4) (by norm_num)
  have tq : rT (1 / 4) = 1 / 4 := by
    have := hT.pow2all (-2)
    norm_num at this ⊢
    exact this
  have hp : predict (roundedS rT rD lg).t (1 * 3) overField.u
      (Ev.toD ⟨0, 0, 0, 0, .zero, true⟩) = some 0 := by
    simp [predict, DEv.reads, Ev.toD, Interp.reads, readAll, interp, roundedS, roundedOps, t0]
  have hp' : predict (roundedS rT rD lg).t (1 * 3) overField.v
      (Ev.toD ⟨0, 0, 0, 0, .zero, true⟩) = some 0 := by
    simp [predict, DEv.reads, Ev.toD, Interp.reads, readAll, interp, roundedS, roundedOps, t0]
  have hbd : boundR 1 3 derive overField ⟨0, 0, 0, 0, .zero, true⟩ (parSz3 1).ebHalf =
      some (1 / 2) := by
    rw [bound_row_sz3 rfl (by norm_num)]; norm_num [parSz3]
  unfold encEv at h
  simp only [if_true, hbd, he, hrad, hp, hp', Option.some.injEq, Prod.mk.injEq] at h
  have tr4 : truncR 4 = 4 := by rw [truncR_nonneg (by norm_num)]; norm_num
  have tr0 : truncR 0 = 0 := by rw [truncR_nonneg (by norm_num)]; norm_num
  have qu : (quantT (roundedS rT rD lg).t 32768 (-1) 0 ((roundedS rT rD lg).conv (1 / 4))).2.1 =
      -1 := by
    have hc : (roundedS rT rD lg).conv (1 / 4) = 1 / 4 := tq
    rw [hc]
    unfold quantT
    norm_num [roundedS, roundedOps, isZero, t0, t1, t4, t4', tr4, tq]
  have qv : (quantT (roundedS rT rD lg).t 32768 0 0 ((roundedS rT rD lg).conv (1 / 4))).2.1 =
      0 := by
    have hc : (roundedS rT rD lg).conv (1 / 4) = 1 / 4 := tq
    rw [hc]
    unfold quantT
    norm_num [roundedS, roundedOps, isZero, t0, tr0, tq]
  have bu : overField.u 0 = -1 := by simp [overField]
  have bv : overField.v 0 = 0 := by simp [overField]
  rw [← h.1]
  simp only [bu, bv, qu, qv]

theorem over_second {rT rD lg : ℝ → ℝ} {v w : ℝ} (hT : IsFloat rT w) (hD : IsFloat rD v)
    (a1 : rT (1 + 1 / 2 ^ 60) = 1) (a2 : rT (1 - 1 / 2 ^ 60) = 1)
    (h51 : lg (2 ^ 51) = 51) (h52 : lg (2 ^ 52) = 52)
    {derive : ℝ → ℝ → ℝ → ℝ → ℝ → ℝ → ℝ} {f' : Fld ℝ} {c : Code ℝ}
    (h : encEv (roundedS rT rD lg) (parSz3 1) (1 * 3) (boundR 1 3 derive)
      (overField.set 0 (-1) 0) ⟨2, 0, 2, 2, .left, false⟩ = some (f', c)) : f'.u 2 = 1 := by
  have he : ebQuant (roundedS rT rD lg).d (parSz3 1).base (parSz3 1).logBase (parSz3 1).thr
      1 = (1, 26) := (over_ebs (rT := rT) hD h51 h52).1
  have hrad : (parSz3 1).radius = 32768 := by simp [Par.radius, parSz3]
  have t0 : rT 0 = 0 := by simpa using hT.int 0 (by norm_num)
  have t1 : rT 1 = 1 := by simpa using hT.int 1 (by norm_num)
  have t2 : rT 2 = 2 := by simpa using hT.int 2 (by norm_num)
  have hp : predict (roundedS rT rD lg).t (1 * 3) (overField.set 0 (-1) 0).u
      (Ev.toD ⟨2, 0, 2, 2, .left, false⟩) = some (-1) := by
    simp [predict, DEv.reads, Ev.toD, Interp.reads, readAll, interp, Mesh2D.rd,
      Online2D.Field.set, Online2D.setAt]
  have hp' : predict (roundedS rT rD lg).t (1 * 3) (overField.set 0 (-1) 0).v
      (Ev.toD ⟨2, 0, 2, 2, .left, false⟩) = some 0 := by
    simp [predict, DEv.reads, Ev.toD, Interp.reads, readAll, interp, Mesh2D.rd,
      Online2D.Field.set, Online2D.setAt]
  have hbd : boundR 1 3 derive (overField.set 0 (-1) 0) ⟨2, 0, 2, 2, .left, false⟩
      (parSz3 1).ebFull = some 1 := by
    rw [bound_row_sz3 rfl (by norm_num)]; norm_num [parSz3]
  unfold encEv at h
  simp only [Bool.false_eq_true, if_false, hbd, he, hrad, hp, hp', Option.some.injEq,
    Prod.mk.injEq] at h
  have tr1 : truncR 1 = 1 := by rw [truncR_nonneg (by norm_num)]; norm_num
  have qu : ∀ ε, rT (1 + ε) = 1 → rT (1 - ε) = 1 →
      (quantT (roundedS rT rD lg).t 32768 (-ε) (-1) ((roundedS rT rD lg).conv 1)).2.1 = 1 := by
    intro ε c1 c2
    have hc : (roundedS rT rD lg).conv 1 = 1 := t1
    rw [hc]
    have b1 : -ε - -1 = 1 - ε := by ring
    have b2 : 1 - -ε = 1 + ε := by ring
    have b3 : (-1 : ℝ) + 2 = 1 := by norm_num
    unfold quantT
    simp only [roundedS, roundedOps, isZero, Int.cast_zero, t0, b1, c2, abs_one, div_one, t1, tr1]
    norm_num [t0, t1, t2, b2, c1]
  have bu : (overField.set 0 (-1) 0).u 2 = -(1 / 2 ^ 60) := by
    simp [overField, Online2D.Field.set, Online2D.setAt]
  rw [← h.1, bu, qu _ a1 a2]
  simp [Online2D.Field.set, Online2D.setAt]

/-- C58 fails for the interpolation based mode, for `float` and for `double` data, every rounding
to nearest, every bound per triangle and every `log2` that is right at two powers of two: the
field `(-1,0) (0,0) (-2^-60,0)` with bound 1.  The last value is decompressed as 1. -/
theorem C58_sz3_exceeded {rnd rnd' : ℝ → ℤ} (hr : IsNearest rnd) (hr' : IsIntRounding rnd')
    (p : ℕ) (hp : p = 24 ∨ p = 53) {lg : ℝ → ℝ} (h51 : lg (2 ^ 51) = 51) (h52 : lg (2 ^ 52) = 52)
    (derive : ℝ → ℝ → ℝ → ℝ → ℝ → ℝ → ℝ) (m0 : Fld ℝ) :
    ∃ (m m' : Fld ℝ) (s : Streams ℝ) (d : Fld ℝ),
      (∀ q, fl rnd p (m.u q) = m.u q ∧ fl rnd p (m.v q) = m.v q) ∧
      Sz3.compress (roundedS (fl rnd p) (fl rnd' 53) lg) (parSz3 1) 1 3 (boundR 1 3 derive) m =
        some (m', s) ∧
      Sz3.decompress (roundedS (fl rnd p) (fl rnd' 53) lg) 4 ((2 : ℝ) ^ (-52 : ℤ)) 32768 1 3
        m0 s = some d ∧
      1 < |d.u 2 - m.u 2| := by
  have hT := fl_isFloat hr.toIsIntRounding (p := p) (by omega)
  have hD := fl_isFloat hr' (p := 53) (by norm_num)
  have t0 : fl rnd p 0 = 0 := by simpa using hT.int 0 (by norm_num)
  obtain ⟨m', s, h⟩ := compress_defined (roundedS (fl rnd p) (fl rnd' 53) lg) (parSz3 1) 1 3
    (by norm_num) (by norm_num) (fun a b : ℝ => if a < b then a else b) derive overField
  obtain ⟨d, hd, hA⟩ := lockstep (C24_rounded_sane (lg := lg) hT.toIsRounding hD.toIsRounding 1)
    (by norm_num) (by norm_num) h m0
  have hrad : (parSz3 1).radius = 32768 := by simp [Par.radius, parSz3]
  rw [hrad] at hd
  refine ⟨overField, m', s, d, fun q => ⟨?_, t0⟩, h, hd, ?_⟩
  · simp only [overField]
    split
    · simpa using hT.int (-1) (by norm_num)
    split
    · exact tiny_exact hr.toIsIntRounding hp
    · exact t0
  rw [(hA 2 (by norm_num)).1]
  obtain ⟨a1, a2⟩ := absorb hr hp
  have hu : m'.u 2 = 1 := by
    unfold Sz3.compress at h
    rw [plan13] at h
    split at h
    · cases h
    rename_i f cs he
    simp only [Option.some.injEq, Prod.mk.injEq] at h
    obtain ⟨rfl, -⟩ := h
    unfold encAll at he
    split at he
    · cases he
    rename_i f1 c1 s1
    split at he
    · cases he
    rename_i g1 cs1 k1
    simp only [Option.some.injEq, Prod.mk.injEq] at he
    obtain ⟨rfl, -⟩ := he
    obtain rfl := over_first hT hD h51 h52 s1
    unfold encAll at k1
    split at k1
    · cases k1
    rename_i f2 c2 s2
    split at k1
    · cases k1
    rename_i g2 cs2 k2
    simp only [Option.some.injEq, Prod.mk.injEq] at k1
    obtain ⟨rfl, -⟩ := k1
    have h2 := over_second hT hD a1 a2 h51 h52 s2
    unfold encAll at k2
    split at k2
    · cases k2
    rename_i f3 c3 s3
    simp only [encAll, Option.some.injEq, Prod.mk.injEq] at k2
    obtain ⟨rfl, -⟩ := k2
    unfold encEv at s3
    split at s3
    · cases s3
    simp only at s3
    split at s3
    · simp only [Option.some.injEq, Prod.mk.injEq] at s3
      rw [← s3.1]
      simpa [Online2D.Field.set, Online2D.setAt] using h2
    · cases s3
  rw [hu]
  norm_num [overField, abs_of_pos]

/-- The correctly rounded logarithm qualifies. -/
example {rnd' : ℝ → ℤ} (hr' : IsIntRounding rnd') :
    IsLog2 (fl rnd' 53) (fun x => fl rnd' 53 (Real.logb 2 x)) ((2 : ℝ) ^ (11 - ((53 : ℕ) : ℤ))) ∧
    fl rnd' 53 (Real.logb 2 (2 ^ 51)) = 51 ∧ fl rnd' 53 (Real.logb 2 (2 ^ 52)) = 52 := by
  have hD := fl_isFloat hr' (p := 53) (by norm_num)
  refine ⟨IsLog2.rounded hr' (by norm_num), ?_, ?_⟩
  · rw [Real.logb_pow, Real.logb_self_eq_one (by norm_num), mul_one]
    simpa using hD.int 51 (by norm_num)
  · rw [Real.logb_pow, Real.logb_self_eq_one (by norm_num), mul_one]
    simpa using hD.int 52 (by norm_num)

end sz3

/-! ### Examples for the positive statements -/

section ex
open CpSZ.Block CpSZ.Sz3

/-- binary32, 3 by 4 grid, blocks of 2, mixed bounds with a zero. -/
example (data out0 : Nat → ℝ) (lg : ℝ → ℝ) :=
  C58_with_eb_float_partial nearest_isNearest nearest_rounding (lg := lg) data
    (fun p => if p = 4 then 0 else 1 / 10) 3 4 2 (by norm_num) (by norm_num) (by norm_num)
    (fun p _ => by split <;> norm_num) out0

/-- binary64 with truncation, a block predicted by regression. -/
example (data out0 : Nat → ℝ) (lg : ℝ → ℝ) :=
  C58_2d_double_partial floor_rounding (lg := lg) data (1 / 10) (by norm_num) 3 4 2 (by norm_num)
    (by norm_num) (by norm_num) (fun o _ _ _ => if o = 0 then some [1, 2, 3] else none)
    (fun o _ _ _ c h => by
      by_cases ho : o = 0
      · rw [if_pos ho] at h; cases h; rfl
      · rw [if_neg ho] at h; cases h) out0

/-- binary32 in 3D with a mean and independent blocks. -/
example (data out0 : Nat → ℝ) (lg : ℝ → ℝ) :=
  C58_3d_float_partial nearest_isNearest nearest_rounding (lg := lg) data (1 / 10) (by norm_num)
    3 4 5 2 (by norm_num) (by norm_num) (by norm_num) (by norm_num) true 32 (by norm_num)
    (by norm_num) (true, 7) (fun o _ _ _ => if o = 0 then some [1, 2, 3, 4] else none)
    (fun o _ _ _ c h => by
      by_cases ho : o = 0
      · rw [if_pos ho] at h; cases h; rfl
      · rw [if_neg ho] at h; cases h) out0

/-- The interpolation based mode on binary64, 5 by 7 grid. -/
example (derive : ℝ → ℝ → ℝ → ℝ → ℝ → ℝ → ℝ) (m m0 : Fld ℝ) :=
  C58_sz3_double_partial floor_rounding (IsLog2.rounded floor_rounding (p := 53) (by norm_num))
    (by positivity) log2_double_bound 5 7 (by norm_num) (by norm_num) (1 / 100) (by norm_num)
    (le_trans (by norm_num) (one_le_pow₀ (by norm_num))) derive m m0

end ex

end CpSZ.Rounded
