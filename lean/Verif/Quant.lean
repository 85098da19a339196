import Verif.Arith
/-
Scalar quantisers: `eb_exponential_quantize` (include/sz_cp_preserve_utils.hpp L14-22),
`quantize` (include/sz_compression_utils.hpp L49-81), `recover`
(include/sz_decompression_utils.hpp L50-73).
-/

namespace CpSZ

/-- `eb_exponential_quantize(eb, base, log_of_base, threshold)`: the updated bound and the
returned code.  (include/sz_cp_preserve_utils.hpp L14-22.) -/
def ebQuant {D : Type} (O : DOps D) (base : Int) (logBase thr eb : D) : D × Int :=
  if O.le eb thr then (O.ofInt 0, 0)
  else
    let id := O.trunc (O.div (O.log2 (O.div eb thr)) logBase)
    (O.mul (O.pow base id) thr, id)

/-- Common core of all linear quantisers (include/sz_compression_utils.hpp L53-57,
src/sz_compress_cp_preserve_2d.cpp L645-649 and its copies): the code for a prediction error
`diff`, or `none` if it exceeds the capacity. -/
def linQuant {D : Type} (O : DOps D) (diff prec : D) (capacity radius : Int) : Option Int :=
  let qd := O.add (O.div (O.abs diff) prec) (O.ofInt 1)
  if O.lt qd (O.ofInt capacity) then
    let qd := if O.lt (O.ofInt 0) diff then qd else O.neg qd
    some (O.trunc (O.div qd (O.ofInt 2)) + radius)
  else none

/-- `2 * (quant_index - intv_radius) * precision`.  (include/sz_compression_utils.hpp L58;
include/sz_decompression_utils.hpp L58, L71.) -/
def linOffset {D : Type} (O : DOps D) (prec : D) (radius q : Int) : D :=
  O.mul (O.ofInt (2 * (q - radius))) prec

/-- Operations of the block codecs, where predictions are `float` (`F`) while data have type
`T`: `diff` is `double diff = cur_data - pred`, `addTo` is `T x = pred + (double)`, `dist` is
`fabs(T - T)` compared as a `double`.  (include/sz_compression_utils.hpp L49-81;
include/sz_decompression_utils.hpp L50-73.) -/
structure QOps (T F D : Type) extends DOps D where
  diff : T → F → D
  addTo : F → D → T
  dist : T → T → D

/-- `quantize` (include/sz_compression_utils.hpp L49-65): code, reconstructed value, appended
unpredictable values.  The variant without `decompressed` (L67-81) computes the same code and
unpredictable value. -/
def quantize {T F D : Type} (O : QOps T F D) (pred : F) (cur : T) (prec : D)
    (capacity radius : Int) : Int × T × List T :=
  match linQuant O.toDOps (O.diff cur pred) prec capacity radius with
  | some q =>
    let dec := O.addTo pred (linOffset O.toDOps prec radius q)
    if O.le (O.dist dec cur) prec then (q, dec, []) else (0, cur, [cur])
  | none => (0, cur, [cur])

/-- `recover` (include/sz_decompression_utils.hpp L50-60): value and remaining unpredictable
values; reading past the end of the unpredictable values is `none`. -/
def recover {T F D : Type} (O : QOps T F D) (pred : F) (prec : D) (typeVal radius : Int)
    (unpred : List T) : Option (T × List T) :=
  if typeVal = 0 then
    match unpred with
    | [] => none
    | x :: xs => some (x, xs)
  else some (O.addTo pred (linOffset O.toDOps prec radius typeVal), unpred)

/-- `recover` with mean information (include/sz_decompression_utils.hpp L62-73); `mean = some m`
iff `use_mean`. -/
def recoverMean {T F D : Type} (O : QOps T F D) (mean : Option T) (pred : F) (prec : D)
    (typeVal radius : Int) (unpred : List T) : Option (T × List T) :=
  if typeVal = 0 then
    match unpred with
    | [] => none
    | x :: xs => some (x, xs)
  else
    match (if typeVal = 1 then mean else none) with
    | some m => some (m, unpred)
    | none => some (O.addTo pred (linOffset O.toDOps prec radius typeVal), unpred)

/-- The exact interpretation of `QOps`. -/
noncomputable def realQ : QOps ℝ ℝ ℝ where
  toDOps := realD
  diff a b := a - b
  addTo a b := a + b
  dist a b := |a - b|

/-- Rounded interpretation: data rounded by `rT`, predictions are `float`s (already
rounded), `double` results rounded by `rD`. -/
noncomputable def roundedQ (rT rD lg : ℝ → ℝ) : QOps ℝ ℝ ℝ where
  toDOps := (roundedOps rT rD lg).toDOps
  diff a b := rT (a - b)
  addTo a b := rT (rD (a + b))
  dist a b := |rT (a - b)|

/-! ### Truncation -/

theorem truncR_neg (x : ℝ) : truncR (-x) = - truncR x := by
  unfold truncR
  rcases lt_trichotomy x 0 with h | h | h
  · rw [if_pos (by linarith), if_neg (by linarith), Int.floor_neg]
  · subst h; simp
  · rw [if_neg (by linarith), if_pos (by linarith), Int.ceil_neg]

theorem truncR_nonneg {x : ℝ} (h : 0 ≤ x) : truncR x = ⌊x⌋ := by
  unfold truncR; rw [if_pos h]

/-! ### Range of the codes -/

theorem linQuant_range {rT rD lg : ℝ → ℝ} (hr : IsRounding rD) (diff prec : ℝ)
    (radius : Int) (hp : 0 < prec) (hcap : 2 * radius ≤ 2 ^ 24) (q : Int)
    (h : linQuant (roundedOps rT rD lg).toDOps diff prec (2 * radius) radius = some q) :
    0 < q ∧ q < 2 * radius := by
  have r1 : rD ((1 : ℤ) : ℝ) = ((1 : ℤ) : ℝ) := hr.int 1 (by norm_num)
  have r2 : rD ((2 : ℤ) : ℝ) = ((2 : ℤ) : ℝ) := hr.int 2 (by norm_num)
  have r0 : rD ((0 : ℤ) : ℝ) = ((0 : ℤ) : ℝ) := hr.int 0 (by norm_num)
  have h0 : 0 ≤ rD (|diff| / prec) := by
    have := hr.mono (show ((0 : ℤ) : ℝ) ≤ |diff| / prec by
      push_cast; exact div_nonneg (abs_nonneg _) hp.le)
    rw [r0] at this
    simpa using this
  have h1 : 1 ≤ rD (rD (|diff| / prec) + ((1 : ℤ) : ℝ)) := by
    have := hr.mono (show ((1 : ℤ) : ℝ) ≤ rD (|diff| / prec) + ((1 : ℤ) : ℝ) by
      push_cast; linarith)
    rw [r1] at this
    simpa using this
  set y := rD (|diff| / prec) + ((1 : ℤ) : ℝ) with hy
  have h' : (if rD y < rD ((2 * radius : ℤ) : ℝ) then
      some (truncR (rD ((if ((0 : ℤ) : ℝ) < diff then rD y else -rD y) / ((2 : ℤ) : ℝ))) + radius)
      else none) = some q := by
    rw [← h]
    unfold linQuant
    simp only [roundedOps, decide_eq_true_eq, r1, r2, r0, hy]
  clear h
  have h := h'
  by_cases hlt : rD y < rD ((2 * radius : ℤ) : ℝ)
  · simp only [hlt, if_true] at h
    have hradpos : (0 : ℤ) < radius := by
      by_contra hcon
      have : ((2 * radius : ℤ) : ℝ) ≤ ((1 : ℤ) : ℝ) := by
        exact_mod_cast (by omega : 2 * radius ≤ 1)
      have := hr.mono this
      rw [r1] at this
      push_cast at this hlt
      linarith
    have hcapr : rD ((2 * radius : ℤ) : ℝ) = ((2 * radius : ℤ) : ℝ) :=
      hr.int _ (by rw [abs_of_nonneg (by omega)]; exact hcap)
    rw [hcapr] at hlt
    have hhalf : rD (rD y / 2) = rD y / 2 := hr.half y (by rw [abs_of_nonneg (by linarith)]; exact h1)
    have ht : truncR (rD y / 2) = ⌊rD y / 2⌋ := truncR_nonneg (by linarith)
    have hfl0 : 0 ≤ ⌊rD y / 2⌋ := Int.floor_nonneg.2 (by linarith)
    have hfl1 : ⌊rD y / 2⌋ < radius := by
      rw [Int.floor_lt]
      push_cast at hlt
      linarith
    by_cases hd : ((0 : ℤ) : ℝ) < diff
    · simp only [hd, if_true, Option.some.injEq] at h
      push_cast at h
      rw [hhalf, ht] at h
      omega
    · simp only [hd, if_false, Option.some.injEq] at h
      push_cast at h
      rw [neg_div, hr.odd, hhalf, truncR_neg, ht] at h
      omega
  · rw [if_neg hlt] at h; cases h

/-- In exact arithmetic, the reconstruction of an accepted code is within the bound, and
strictly so unless the prediction error is an odd multiple of the bound. -/
theorem linQuant_exact (diff prec : ℝ) (radius : Int) (hp : 0 < prec)
    (h : |diff| < (2 * radius - 1) * prec) :
    ∃ q, linQuant realD diff prec (2 * radius) radius = some q ∧
      |linOffset realD prec radius q - diff| ≤ prec := by
  have hlt : |diff| / prec + 1 < 2 * radius := by
    have : |diff| / prec < 2 * radius - 1 := by rw [div_lt_iff₀ hp]; exact h
    linarith
  have hnn : 0 ≤ |diff| / prec := div_nonneg (abs_nonneg _) hp.le
  set x := |diff| / prec with hx
  have hdx : |diff| = x * prec := by rw [hx]; field_simp
  have hf1 : (⌊(x + 1) / 2⌋ : ℝ) ≤ (x + 1) / 2 := Int.floor_le _
  have hf2 : (x + 1) / 2 < ⌊(x + 1) / 2⌋ + 1 := Int.lt_floor_add_one _
  have key : abs (2 * (⌊(x + 1) / 2⌋ : ℝ) * prec - |diff|) ≤ prec := by
    rw [hdx, ← sub_mul, abs_mul, abs_of_pos hp]
    have : |2 * (⌊(x + 1) / 2⌋ : ℝ) - x| ≤ 1 := by rw [abs_le]; constructor <;> linarith
    nlinarith
  have hc : (x + 1 < ((2 * radius : ℤ) : ℝ)) := by push_cast; exact hlt
  by_cases hd : 0 < diff
  · refine ⟨⌊(x + 1) / 2⌋ + radius, ?_, ?_⟩
    · unfold linQuant
      simp only [realD, ← hx, Int.cast_one, Int.cast_zero, hd, hc, decide_true, if_true]
      rw [show ((2 : ℤ) : ℝ) = 2 by norm_num, truncR_nonneg (by linarith)]
    · unfold linOffset
      simp only [realD, add_sub_cancel_right]
      rw [abs_of_pos hd] at key
      push_cast
      exact key
  · refine ⟨-⌊(x + 1) / 2⌋ + radius, ?_, ?_⟩
    · unfold linQuant
      simp only [realD, ← hx, Int.cast_one, Int.cast_zero, hd, hc, decide_true, decide_false,
        if_true, Bool.false_eq_true, if_false]
      rw [show ((2 : ℤ) : ℝ) = 2 by norm_num, neg_div, truncR_neg, truncR_nonneg (by linarith)]
    · unfold linOffset
      simp only [realD, add_sub_cancel_right]
      rw [abs_of_nonpos (by linarith : diff ≤ 0)] at key
      push_cast
      rw [show 2 * -(⌊(x + 1) / 2⌋ : ℝ) * prec - diff = -(2 * (⌊(x + 1) / 2⌋ : ℝ) * prec - -diff) by
        ring, abs_neg]
      exact key

/-! ### Exponential quantisation of bounds -/

theorem ebQuant_spec (base : Int) (hb : 2 ≤ base) (thr eb : ℝ) (ht : 0 < thr) :
    let r := ebQuant realD base (Real.logb 2 base) thr eb
    0 ≤ r.2 ∧ (r.2 = 0 ↔ eb < base * thr) ∧
    (thr < eb → r.1 = (base : ℝ) ^ r.2 * thr ∧ r.1 ≤ eb ∧ eb < base * r.1) ∧
    (eb ≤ thr → r = (0, 0)) := by
  intro r
  have hbR : (2 : ℝ) ≤ base := by exact_mod_cast hb
  by_cases hle : eb ≤ thr
  · have hr : r = (0, 0) := by
      simp only [r, ebQuant, realD, hle, decide_true, if_true, Int.cast_zero]
    refine ⟨by rw [hr], ⟨fun _ => by nlinarith, fun _ => by rw [hr]⟩, fun h => by linarith,
      fun _ => hr⟩
  · push Not at hle
    have hr : r = ((base : ℝ) ^ (truncR (Real.logb 2 (eb / thr) / Real.logb 2 base)) * thr,
        truncR (Real.logb 2 (eb / thr) / Real.logb 2 base)) := by
      simp only [r, ebQuant, realD, not_le.2 hle, decide_false, Bool.false_eq_true, if_false]
    have hq : 1 < eb / thr := by rw [lt_div_iff₀ ht]; linarith
    have hl : Real.logb 2 (eb / thr) / Real.logb 2 base = Real.logb base (eb / thr) := by
      unfold Real.logb
      have : Real.log 2 ≠ 0 := (Real.log_pos (by norm_num)).ne'
      field_simp
    rw [hl] at hr
    set x := Real.logb base (eb / thr) with hx
    have hxpos : 0 < x := Real.logb_pos (by linarith) hq
    have htr : truncR x = ⌊x⌋ := truncR_nonneg hxpos.le
    rw [htr] at hr
    have hpow : (base : ℝ) ^ x = eb / thr :=
      Real.rpow_logb (by linarith) (by linarith) (by linarith)
    have h1 : (base : ℝ) ^ ⌊x⌋ ≤ eb / thr := by
      rw [← hpow, ← Real.rpow_intCast]
      exact Real.rpow_le_rpow_of_exponent_le (by linarith) (Int.floor_le x)
    have h2 : eb / thr < base * (base : ℝ) ^ ⌊x⌋ := by
      rw [← hpow, ← zpow_one_add₀ (by linarith : (base : ℝ) ≠ 0), ← Real.rpow_intCast]
      apply Real.rpow_lt_rpow_of_exponent_lt (by linarith)
      push_cast
      linarith [Int.lt_floor_add_one x]
    have h0 : 0 ≤ ⌊x⌋ := Int.floor_nonneg.2 hxpos.le
    rw [hr]
    refine ⟨h0, ?_, fun _ => ⟨rfl, ?_, ?_⟩, fun h => by linarith⟩
    · simp only
      constructor
      · intro h
        rw [h, zpow_zero, mul_one, div_lt_iff₀ ht] at h2
        exact h2
      · intro h
        have : x < 1 := by
          rw [hx, Real.logb_lt_iff_lt_rpow (by linarith) (by linarith), Real.rpow_one,
            div_lt_iff₀ ht]
          exact h
        have : ⌊x⌋ < 1 := by rw [Int.floor_lt]; exact_mod_cast this
        omega
    · simp only
      rwa [le_div_iff₀ ht] at h1
    · simp only
      rw [div_lt_iff₀ ht] at h2
      linarith

end CpSZ
