import Verif.Quant
/-
Properties C10, C11, C12 (quantisers).
-/

namespace CpSZ

/-- C10.  For every rounding of the arithmetic and every rounded prediction error, the code
of a value is either 0, and then the value is stored as it is, or strictly between 0 and
`2*radius`, and then nothing is stored. -/
theorem C10_quant_code_range {rT rD lg : ℝ → ℝ} (hr : IsRounding rD) (pred cur prec : ℝ)
    (radius : Int) (hp : 0 < prec) (hcap : 2 * radius ≤ 2 ^ 24) (q : Int) (dec : ℝ)
    (un : List ℝ) (h : quantize (roundedQ rT rD lg) pred cur prec (2 * radius) radius =
      (q, dec, un)) :
    (q = 0 ∧ dec = cur ∧ un = [cur]) ∨ (0 < q ∧ q < 2 * radius ∧ un = []) := by
  unfold quantize at h
  split at h
  · rename_i q' hq
    have := linQuant_range (rT := rT) hr _ prec radius hp hcap q' hq
    simp only at h
    split at h
    · simp only [Prod.mk.injEq] at h
      obtain ⟨rfl, -, rfl⟩ := h
      exact Or.inr ⟨this.1, this.2, rfl⟩
    · simp only [Prod.mk.injEq] at h
      obtain ⟨rfl, rfl, rfl⟩ := h
      exact Or.inl ⟨rfl, rfl, rfl⟩
  · simp only [Prod.mk.injEq] at h
    obtain ⟨rfl, rfl, rfl⟩ := h
    exact Or.inl ⟨rfl, rfl, rfl⟩

example (q : Int) (dec : ℝ) (un : List ℝ)
    (h : quantize (roundedQ id id id) 1 3 (1 / 4) (2 * 32768) 32768 = (q, dec, un)) :
    (q = 0 ∧ dec = 3 ∧ un = [3]) ∨ (0 < q ∧ q < 2 * 32768 ∧ un = []) :=
  C10_quant_code_range (rT := id) IsRounding.id 1 3 (1 / 4) 32768 (by norm_num) (by norm_num)
    q dec un h

/-- C11.  For any arithmetic in which codes of accepted values are never 0: the decoder
recovers exactly the value the encoder keeps; that value equals the input or passed the
encoder's comparison with the bound; unpredictable values are consumed in order. -/
theorem C11_recover_agrees {T F D : Type} (O : QOps T F D) (pred : F) (cur : T) (prec : D)
    (capacity radius : Int) (rest : List T) (q : Int) (dec : T) (un : List T)
    (hnz : ∀ q, linQuant O.toDOps (O.diff cur pred) prec capacity radius = some q → q ≠ 0)
    (h : quantize O pred cur prec capacity radius = (q, dec, un)) :
    recover O pred prec q radius (un ++ rest) = some (dec, rest) ∧
    (dec = cur ∨ O.le (O.dist dec cur) prec = true) := by
  unfold quantize at h
  split at h
  · rename_i q' hq
    have hq0 := hnz q' hq
    simp only at h
    split at h
    · rename_i hle
      simp only [Prod.mk.injEq] at h
      obtain ⟨rfl, rfl, rfl⟩ := h
      exact ⟨by simp [recover, hq0], Or.inr hle⟩
    · simp only [Prod.mk.injEq] at h
      obtain ⟨rfl, rfl, rfl⟩ := h
      exact ⟨by simp [recover], Or.inl rfl⟩
  · simp only [Prod.mk.injEq] at h
    obtain ⟨rfl, rfl, rfl⟩ := h
    exact ⟨by simp [recover], Or.inl rfl⟩

/-- C11 with every rounding of the arithmetic; the hypothesis on codes is discharged by C10. -/
theorem C11_recover_agrees_rounded {rT rD lg : ℝ → ℝ} (hr : IsRounding rD) (pred cur prec : ℝ)
    (radius : Int) (hp : 0 < prec) (hcap : 2 * radius ≤ 2 ^ 24) (rest : List ℝ) (q : Int)
    (dec : ℝ) (un : List ℝ)
    (h : quantize (roundedQ rT rD lg) pred cur prec (2 * radius) radius = (q, dec, un)) :
    recover (roundedQ rT rD lg) pred prec q radius (un ++ rest) = some (dec, rest) ∧
    (dec = cur ∨ |rT (dec - cur)| ≤ prec) := by
  obtain ⟨h1, h2⟩ := C11_recover_agrees (roundedQ rT rD lg) pred cur prec (2 * radius) radius
    rest q dec un (fun q' hq => (linQuant_range (rT := rT) hr _ prec radius hp hcap q' hq).1.ne') h
  exact ⟨h1, h2.imp_right of_decide_eq_true⟩

/-- C11, completeness in exact arithmetic: a value with a prediction error below
`(2*radius - 1)` bounds is accepted and reproduced within the bound. -/
theorem C11_accepts (pred cur prec : ℝ) (radius : Int) (hp : 0 < prec)
    (hcap : 2 * radius ≤ 2 ^ 24) (h : |cur - pred| < (2 * radius - 1) * prec) :
    ∃ q dec, quantize realQ pred cur prec (2 * radius) radius = (q, dec, []) ∧
      0 < q ∧ q < 2 * radius ∧ |dec - cur| ≤ prec := by
  obtain ⟨q, hq, hle⟩ := linQuant_exact (cur - pred) prec radius hp h
  have hr := linQuant_range (rT := id) (rD := id) (lg := Real.logb 2) IsRounding.id
    (cur - pred) prec radius hp hcap q hq
  have hd : |pred + linOffset realD prec radius q - cur| ≤ prec := by
    have : pred + linOffset realD prec radius q - cur =
        linOffset realD prec radius q - (cur - pred) := by ring
    rw [this]; exact hle
  refine ⟨q, pred + linOffset realD prec radius q, ?_, hr.1, hr.2, hd⟩
  unfold quantize
  have hq' : linQuant realQ.toDOps (realQ.diff cur pred) prec (2 * radius) radius = some q := hq
  rw [hq']
  simp only
  rw [if_pos]
  · rfl
  · exact decide_eq_true hd

example : ∃ q dec, quantize realQ 1 3 (1 / 4) (2 * 8) 8 = (q, dec, []) ∧
    0 < q ∧ q < 2 * 8 ∧ |dec - 3| ≤ 1 / 4 :=
  C11_accepts 1 3 (1 / 4) 8 (by norm_num) (by norm_num)
    (by rw [show (3 - 1 : ℝ) = 2 by norm_num, abs_of_pos (by norm_num)]; norm_num)

/-- C12.  In exact arithmetic the bound used is `base^id * threshold`, which is what the
decompressor computes from the code; it is at most the requested bound and more than the
requested bound divided by the base; the code is 0 exactly for bounds below
`base*threshold`. -/
theorem C12_exponential_quantizer (base : Int) (hb : 2 ≤ base) (thr eb : ℝ) (ht : 0 < thr)
    (e : ℝ) (id : Int) (h : ebQuant realD base (Real.logb 2 base) thr eb = (e, id)) :
    0 ≤ id ∧ (id = 0 ↔ eb < base * thr) ∧
    (0 < id → e = (base : ℝ) ^ id * thr ∧ e ≤ eb ∧ eb < base * e) := by
  have hs := ebQuant_spec base hb thr eb ht
  rw [h] at hs
  obtain ⟨h1, h2, h3, h4⟩ := hs
  refine ⟨h1, h2, fun hid => ?_⟩
  rcases le_or_gt eb thr with hle | hgt
  · have := h4 hle
    simp only [Prod.mk.injEq] at this
    omega
  · exact h3 hgt

/-- The hypotheses hold for the constants of the 2D online mode and a bound of one percent:
the code is 22 because `4^22 * 2^-52 ≤ 0.01 < 4^23 * 2^-52`. -/
example : (ebQuant realD 4 (Real.logb 2 (4 : Int)) (1 / 2 ^ 52) (1 / 100)).2 = 22 := by
  obtain ⟨h1, h2, h3⟩ := C12_exponential_quantizer 4 (by norm_num) (1 / 2 ^ 52) (1 / 100)
    (by norm_num) _ _ (Prod.mk.eta (p := ebQuant realD 4 (Real.logb 2 (4 : Int)) (1 / 2 ^ 52) (1 / 100))).symm
  generalize (ebQuant realD 4 (Real.logb 2 (4 : Int)) (1 / 2 ^ 52) (1 / 100)).2 = id at *
  generalize (ebQuant realD 4 (Real.logb 2 (4 : Int)) (1 / 2 ^ 52) (1 / 100)).1 = e at *
  have hne : id ≠ 0 := by
    intro h0
    have := h2.1 h0
    norm_num at this
  obtain ⟨h4, h5, h6⟩ := h3 (by omega)
  subst h4
  push_cast at h5 h6
  have a1 : (4 : ℝ) ^ id < 4 ^ (23 : ℤ) := by
    have : (4 : ℝ) ^ id ≤ 1 / 100 * 2 ^ 52 := by linarith
    refine lt_of_le_of_lt this ?_
    norm_num
  have a2 : (4 : ℝ) ^ (21 : ℤ) < 4 ^ id := by
    have : 1 / 100 * 2 ^ 52 / 4 < (4 : ℝ) ^ id := by linarith
    refine lt_of_le_of_lt ?_ this
    norm_num
  have b1 := (zpow_lt_zpow_iff_right₀ (by norm_num : (1 : ℝ) < 4)).1 a1
  have b2 := (zpow_lt_zpow_iff_right₀ (by norm_num : (1 : ℝ) < 4)).1 a2
  omega

end CpSZ
