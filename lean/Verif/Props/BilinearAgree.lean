import Verif.Bilinear.Derive
import Verif.Bilinear.DeriveG
/-
The bound formula of the bilinear mode for any operations on `double`
(`Verif.Bilinear.DeriveG`, used on bit patterns) is the exact formula (`Verif.Bilinear.Derive`)
when it is evaluated on real numbers extended by infinities and NaN.
-/

namespace CpSZ.VMode.Bilinear
open CpSZ Classical

/-- Exact arithmetic on real numbers, infinities and NaN. -/
noncomputable abbrev exactD (tr : Fp ℝ → Int) (lg : Fp ℝ → Fp ℝ) : DOps (Fp ℝ) := Fp.dops Fp.fin tr lg

/-- `sqrt`: NaN for negative numbers. -/
noncomputable def exactSqrt : Fp ℝ → Fp ℝ
  | .fin x => if x < 0 then .nan else .fin (√x)
  | .inf s => if s then .nan else .inf false
  | .nan => .nan

section
variable {tr : Fp ℝ → Int} {lg : Fp ℝ → Fp ℝ}

theorem x_int (n : Int) : (exactD tr lg).ofInt n = .fin (n : ℝ) := rfl
theorem x_add (x y : ℝ) : (exactD tr lg).add (.fin x) (.fin y) = .fin (x + y) := rfl
theorem x_sub (x y : ℝ) : (exactD tr lg).sub (.fin x) (.fin y) = .fin (x - y) := by
  rw [sub_eq_add_neg]; rfl
theorem x_mul (x y : ℝ) : (exactD tr lg).mul (.fin x) (.fin y) = .fin (x * y) := rfl
theorem x_neg (x : ℝ) : (exactD tr lg).neg (.fin x) = .fin (-x) := rfl
theorem x_abs (x : ℝ) : (exactD tr lg).abs (.fin x) = .fin |x| := by
  change Fp.fin (if x < 0 then -x else x) = _
  split
  · rename_i h; rw [abs_of_neg h]
  · rename_i h; rw [abs_of_nonneg (not_lt.1 h)]
theorem x_div {x y : ℝ} (h : y ≠ 0) : (exactD tr lg).div (.fin x) (.fin y) = .fin (x / y) := by
  change (if y = 0 then _ else _) = _
  rw [if_neg h]
theorem x_lt (x y : ℝ) : (exactD tr lg).lt (.fin x) (.fin y) = decide (x < y) := by
  change decide _ = _; congr
theorem x_le (x y : ℝ) : (exactD tr lg).le (.fin x) (.fin y) = decide (x ≤ y) := by
  change decide _ = _; congr
theorem x_min (x y : ℝ) : minfG (exactD tr lg) (.fin x) (.fin y) = .fin (min x y) := by
  unfold minfG
  rw [x_lt]
  by_cases h : x < y
  · rw [if_pos (by simpa using h), min_eq_left h.le]
  · rw [if_neg (by simpa using h), min_eq_right (not_lt.1 h)]
theorem x_max (x y : ℝ) : maxfG (exactD tr lg) (.fin x) (.fin y) = .fin (max x y) := by
  unfold maxfG
  rw [x_lt]
  by_cases h : y < x
  · rw [if_pos (by simpa using h), max_eq_left h.le]
  · rw [if_neg (by simpa using h), max_eq_right (not_lt.1 h)]
theorem x_eq0 (x : ℝ) : eq0G (exactD tr lg) (.fin x) = decide (x = 0) := by
  unfold eq0G
  rw [x_int, x_le, x_le, Int.cast_zero, ← Bool.decide_and]
  exact decide_eq_decide.2 ⟨fun h => le_antisymm h.1 h.2, fun h => h ▸ ⟨le_refl _, le_refl _⟩⟩
theorem x_ite (p : Prop) [Decidable p] (x y : ℝ) :
    (if p then Fp.fin x else Fp.fin y) = Fp.fin (if p then x else y) := by split <;> rfl

theorem keepSign_agree (a b c : ℝ) :
    keepSignG (exactD tr lg) (.fin a) (.fin b) (.fin c) = .fin (keepSign a b c) := by
  unfold keepSignG keepSign
  simp only [x_abs, x_add, x_eq0, x_int, Int.cast_zero, decide_eq_true_eq]
  split
  · rfl
  · rename_i h
    exact x_div h

theorem rootMin_agree (plus : Bool) (a b c eb : ℝ) :
    rootMinG (exactD tr lg) exactSqrt plus (.fin a) (.fin b) (.fin c) (.fin eb) =
      .fin (rootMin (if plus then 1 else -1) a b c eb) := by
  unfold rootMinG rootMin
  simp only [x_mul, x_sub, x_neg, x_int, Int.cast_zero, Int.cast_ofNat]
  by_cases hd : b * b - 4 * a * c < 0
  · have e : exactSqrt (.fin (b * b - 4 * a * c)) = .nan := by simp only [exactSqrt, if_pos hd]
    rw [if_pos (Or.inr hd), e]
    cases plus <;> rfl
  · have e : exactSqrt (.fin (b * b - 4 * a * c)) = .fin (√(b * b - 4 * a * c)) := by
      simp only [exactSqrt, if_neg hd]
    rw [e]
    generalize √(b * b - 4 * a * c) = s
    have e2 : (if plus = true then (exactD tr lg).add (.fin (-b)) (.fin s)
        else (exactD tr lg).sub (.fin (-b)) (.fin s)) =
        .fin (-b + (if plus = true then 1 else -1) * s) := by
      cases plus
      · simp only [Bool.false_eq_true, if_false, x_sub]; congr 1; ring
      · simp only [if_true, x_add, one_mul]
    rw [e2]
    generalize -b + (if plus = true then 1 else -1) * s = n
    by_cases ha : a = 0
    · rw [if_pos (Or.inl ha), ha, mul_zero]
      have : (exactD tr lg).div (.fin n) (.fin 0) =
          if n = 0 then .nan else .inf (decide (n < 0)) := by
        change (if (0 : ℝ) = 0 then _ else _) = _
        rw [if_pos rfl]
      rw [this]
      by_cases hn : n = 0
      · rw [if_pos hn]; rfl
      · rw [if_neg hn]
        by_cases hneg : n < 0
        · rw [decide_eq_true hneg]; rfl
        · rw [decide_eq_false hneg]; rfl
    · have hor : ¬ (a = 0 ∨ b * b - 4 * a * c < 0) := fun h => h.elim ha hd
      rw [if_neg hor, x_div (mul_ne_zero two_ne_zero ha), x_lt]
      simp only [decide_eq_true_eq, x_min]
      exact x_ite _ _ _

theorem corners_agree (a b c d e f : ℝ) :
    cornersLt0G (exactD tr lg) exactSqrt (.fin a) (.fin b) (.fin c) (.fin d) (.fin e) (.fin f) =
      .fin (cornersLt0 a b c d e f) := by
  unfold cornersLt0G cornersLt0
  simp only [x_add, x_sub, x_neg, x_int, rootMin_agree, if_true, Int.cast_one]

theorem keepQuadratic_agree (a b c : ℝ) :
    keepQuadraticG (exactD tr lg) exactSqrt (.fin a) (.fin b) (.fin c) =
      .fin (keepQuadratic a b c) := by
  unfold keepQuadraticG keepQuadratic
  simp only [x_int, x_lt, rootMin_agree, if_true, Bool.false_eq_true, if_false, Int.cast_one,
    Int.cast_zero, decide_eq_true_eq, x_ite]

theorem cylinder_agree (a b c d e f : ℝ) :
    cylinderG (exactD tr lg) exactSqrt (.fin a) (.fin b) (.fin c) (.fin d) (.fin e) (.fin f) =
      .fin (cylinder a b c d e f) := by
  unfold cylinderG cylinder
  simp only [x_int, x_lt, x_abs, x_add, corners_agree, Int.cast_zero, Int.cast_one,
    decide_eq_true_eq]
  by_cases hf : 0 < f
  · rw [if_pos hf, if_pos hf]
    by_cases hs : |d| + |e| = 0
    · rw [if_pos hs, hs]
      have : (exactD tr lg).div (.fin f) (.fin 0) = .inf false := by
        change (if (0 : ℝ) = 0 then (if f = 0 then _ else _) else _) = _
        rw [if_pos rfl, if_neg hf.ne', decide_eq_false (not_lt.2 hf.le)]
      rw [this]
      rfl
    · rw [if_neg hs, x_div hs, x_min]
  · rw [if_neg hf, if_neg hf, x_min]

theorem rootMin_nonneg {s a b c eb : ℝ} (h : 0 ≤ eb) : 0 ≤ rootMin s a b c eb := by
  unfold rootMin
  simp only
  split
  · exact h
  · split
    · rename_i hx; exact le_min h hx.le
    · exact h

theorem keepQuadratic_nonneg (a b c : ℝ) : 0 ≤ keepQuadratic a b c := by
  unfold keepQuadratic
  split <;> exact rootMin_nonneg zero_le_one

theorem cylinder_le_one (a b c d e f : ℝ) : cylinder a b c d e f ≤ 1 := by
  unfold cylinder
  split
  · split
    · exact le_refl 1
    · exact min_le_left _ _
  · exact min_le_left _ _

/-- The tests along an edge. -/
theorem edge_agree (e p q eb1 : ℝ) :
    edgeEb1G (exactD tr lg) (.fin e) (.fin p) (.fin q) (.fin q) (.fin eb1) =
      .fin (edgeEb1 e p q q eb1) := by
  unfold edgeEb1G edgeEb1
  simp only [x_int, x_lt, Int.cast_zero, Int.cast_one, decide_eq_true_eq, x_neg]
  have h1 : (if 0 < p then maxfG (exactD tr lg) (.fin 0) ((exactD tr lg).div (.fin e) (.fin p))
      else if 0 < e then .fin 1 else .fin eb1) =
      Fp.fin (if 0 < p then max 0 (e / p) else if 0 < e then 1 else eb1) := by
    split
    · rename_i h; rw [x_div h.ne', x_max]
    · exact x_ite _ _ _
  rw [h1]
  split
  · rename_i h; rw [x_div h.ne', x_max, if_neg h.ne']
  · exact x_ite _ _ _

/-- The tests along an edge that divide by another expression than they tested, in their place in
`eb = MIN(eb, MAX(eb1, eb2))`. -/
theorem edge_agree' (e p q q' eb1 eb eb2 : ℝ) (h1 : eb ≤ 1) (h2 : 0 ≤ eb2) (h3 : 0 ≤ eb1) :
    minfG (exactD tr lg) (.fin eb) (maxfG (exactD tr lg)
      (edgeEb1G (exactD tr lg) (.fin e) (.fin p) (.fin q) (.fin q') (.fin eb1)) (.fin eb2)) =
      .fin (min eb (max (edgeEb1 e p q q' eb1) eb2)) := by
  unfold edgeEb1G edgeEb1
  simp only [x_int, x_lt, Int.cast_zero, Int.cast_one, decide_eq_true_eq, x_neg]
  have h1 : (if 0 < p then maxfG (exactD tr lg) (.fin 0) ((exactD tr lg).div (.fin e) (.fin p))
      else if 0 < e then .fin 1 else .fin eb1) =
      Fp.fin (if 0 < p then max 0 (e / p) else if 0 < e then 1 else eb1) := by
    split
    · rename_i h; rw [x_div h.ne', x_max]
    · exact x_ite _ _ _
  rw [h1]
  have hx : 0 ≤ (if 0 < p then max 0 (e / p) else if 0 < e then 1 else eb1) := by
    split
    · exact le_max_left _ _
    · split
      · exact zero_le_one
      · exact h3
  generalize (if 0 < p then max 0 (e / p) else if 0 < e then 1 else eb1) = x at hx ⊢
  by_cases hq : 0 < q
  · rw [if_pos hq, if_pos hq]
    by_cases hq' : q' = 0
    · rw [if_pos hq', hq']
      have : (exactD tr lg).div (.fin (-e)) (.fin 0) =
          if -e = 0 then .nan else .inf (decide (-e < 0)) := by
        change (if (0 : ℝ) = 0 then _ else _) = _
        rw [if_pos rfl]
      rw [this]
      rcases lt_trichotomy e 0 with he | he | he
      · rw [if_neg (by linarith : ¬ -e = 0), if_pos he, decide_eq_false (by linarith : ¬ -e < 0)]
        rw [min_eq_left (le_trans ‹eb ≤ 1› (le_max_left _ _))]
        rfl
      · rw [if_pos (by linarith : -e = 0), if_neg (by linarith : ¬ e < 0), if_pos he,
          max_eq_right h2, ← x_min (tr := tr) (lg := lg)]
        rfl
      · rw [if_neg (by linarith : ¬ -e = 0), if_neg (by linarith : ¬ e < 0),
          if_neg (by linarith : ¬ e = 0), decide_eq_true (by linarith : -e < 0)]
        have : maxfG (exactD tr lg) (.fin x) (.inf true) = .fin x := rfl
        rw [this, x_max, x_min]
    · rw [if_neg hq', x_div hq', x_max, x_max, x_min]
  · rw [if_neg hq, if_neg hq]
    rw [x_ite, x_max, x_min]

theorem edge_nonneg {e p q eb1 : ℝ} (h : 0 ≤ eb1) : 0 ≤ edgeEb1 e p q q eb1 := by
  unfold edgeEb1
  simp only
  have hx : 0 ≤ (if 0 < p then max 0 (e / p) else if 0 < e then 1 else eb1) := by
    split
    · exact le_max_left _ _
    · split
      · exact zero_le_one
      · exact h
  split
  · rename_i hq
    rw [if_neg hq.ne']
    exact le_max_of_le_left hx
  · split
    · exact zero_le_one
    · exact hx

theorem general_agree (a b c d e f : ℝ) :
    generalG (exactD tr lg) exactSqrt (.fin a) (.fin b) (.fin c) (.fin d) (.fin e) (.fin f) =
      .fin (general a b c d e f) := by
  have hc1 := cylinder_le_one a b c d e f
  unfold generalG general
  simp only [cylinder_agree]
  generalize cylinder a b c d e f = eb at hc1 ⊢
  simp only [x_int, x_mul, x_sub, x_le, x_lt, x_neg, Int.cast_zero, Int.cast_ofNat,
    Int.cast_neg, decide_eq_true_eq]
  by_cases h0 : 0 ≤ 4 * a * b - c * c
  · rw [if_pos h0, if_pos h0]
  rw [if_neg h0, if_neg h0]
  by_cases hf : 0 < f
  · rw [if_pos hf, if_pos hf]
    by_cases hb : 0 < b
    · have b4 : 4 * b ≠ 0 := mul_ne_zero four_ne_zero hb.ne'
      have b2 : 2 * b ≠ 0 := mul_ne_zero two_ne_zero hb.ne'
      simp only [if_pos hb, x_add, edge_agree, x_div b4, x_div b2, x_sub, x_lt, decide_eq_true_eq,
        keepQuadratic_agree, x_ite, x_max, x_min]
      by_cases ha : 0 < a
      · have a4 : 4 * a ≠ 0 := mul_ne_zero four_ne_zero ha.ne'
        have a2 : 2 * a ≠ 0 := mul_ne_zero two_ne_zero ha.ne'
        simp only [if_pos ha, x_div a4, x_div a2, x_sub, x_lt,
          decide_eq_true_eq, keepQuadratic_agree, x_ite, x_max, x_min]
      · rw [if_neg ha, if_neg ha]
    · simp only [if_neg hb, x_add]
      by_cases ha : 0 < a
      · have a4 : 4 * a ≠ 0 := mul_ne_zero four_ne_zero ha.ne'
        have a2 : 2 * a ≠ 0 := mul_ne_zero two_ne_zero ha.ne'
        simp only [if_pos ha, edge_agree, x_div a4, x_div a2, x_sub, x_lt,
          decide_eq_true_eq, keepQuadratic_agree, x_ite, x_max, x_min]
      · rw [if_neg ha, if_neg ha]
  · rw [if_neg hf, if_neg hf]
    have last : ∀ eb ≤ (1 : ℝ), ∀ ha : a < 0, ∀ eb2 : ℝ, 0 ≤ eb2 →
        minfG (exactD tr lg) (.fin eb) (maxfG (exactD tr lg)
          (edgeEb1G (exactD tr lg) (.fin d) (.fin (-2 * a + c)) (.fin (-2 * a - c))
            (.fin (-2 * a + c)) (.fin (edgeEb1 d (-2 * a - c) (-2 * a + c) (-2 * a + c) 0)))
          (.fin eb2)) = .fin (min eb (max (edgeEb1 d (-2 * a + c) (-2 * a - c) (-2 * a + c)
            (edgeEb1 d (-2 * a - c) (-2 * a + c) (-2 * a + c) 0)) eb2)) :=
      fun eb h _ eb2 h2 => edge_agree' _ _ _ _ _ _ _ h h2 (edge_nonneg (le_refl 0))
    by_cases hb : b < 0
    · have b4 : -4 * b ≠ 0 := mul_ne_zero (by norm_num) hb.ne
      have b2 : -2 * b ≠ 0 := mul_ne_zero (by norm_num) hb.ne
      simp only [if_pos hb, x_add, edge_agree, x_div b4, x_div b2, x_sub, x_lt, decide_eq_true_eq,
        keepQuadratic_agree, x_ite, x_max, x_min]
      by_cases ha : a < 0
      · have a4 : -4 * a ≠ 0 := mul_ne_zero (by norm_num) ha.ne
        have a2 : -2 * a ≠ 0 := mul_ne_zero (by norm_num) ha.ne
        simp only [if_pos ha, x_div a4, x_div a2, x_add, x_sub, x_lt,
          decide_eq_true_eq, keepQuadratic_agree, x_ite, x_max, x_min]
        refine last _ ?_ ha _ ?_
        · exact (min_le_left _ _).trans ((min_le_left _ _).trans ((min_le_left _ _).trans hc1))
        · split
          · exact keepQuadratic_nonneg _ _ _
          · exact le_refl 0
      · rw [if_neg ha, if_neg ha]
    · simp only [if_neg hb, x_add]
      by_cases ha : a < 0
      · have a4 : -4 * a ≠ 0 := mul_ne_zero (by norm_num) ha.ne
        have a2 : -2 * a ≠ 0 := mul_ne_zero (by norm_num) ha.ne
        simp only [if_pos ha, edge_agree, x_div a4, x_div a2, x_add, x_sub, x_lt,
          decide_eq_true_eq, keepQuadratic_agree, x_ite, x_max, x_min]
        refine last _ ((min_le_left _ _).trans hc1) ha _ ?_
        split
        · exact keepQuadratic_nonneg _ _ _
        · exact le_refl 0
      · rw [if_neg ha, if_neg ha]

theorem keepDelta_agree (u0 u1 u2 u3 v0 v1 v2 v3 : ℝ) :
    keepDeltaG (exactD tr lg) exactSqrt (.fin u0) (.fin u1) (.fin u2) (.fin u3) (.fin v0) (.fin v1)
      (.fin v2) (.fin v3) = .fin (keepDelta u0 u1 u2 u3 v0 v1 v2 v3) := by
  unfold keepDeltaG keepDelta
  simp only [x_int, x_mul, x_add, x_sub, Int.cast_ofNat, Int.cast_neg, cylinder_agree]

theorem keepDen_agree (u0 u1 u2 u3 v0 v1 v2 v3 : ℝ) :
    keepDenG (exactD tr lg) (.fin u0) (.fin u1) (.fin u2) (.fin u3) (.fin v0) (.fin v1)
      (.fin v2) (.fin v3) = .fin (keepDen u0 u1 u2 u3 v0 v1 v2 v3) := by
  unfold keepDenG keepDen
  simp only [x_mul, x_add, x_sub, x_neg, keepSign_agree]

theorem keepF0_agree (u0 u1 u2 u3 v0 v1 v2 v3 : ℝ) :
    keepF0G (exactD tr lg) (.fin u0) (.fin u1) (.fin u2) (.fin u3) (.fin v0) (.fin v1)
      (.fin v2) (.fin v3) = .fin (keepF0 u0 u1 u2 u3 v0 v1 v2 v3) := by
  unfold keepF0G keepF0
  simp only [x_int, x_mul, x_add, x_sub, x_neg, Int.cast_ofNat, keepSign_agree]

theorem keepF1_agree (u0 u1 u2 u3 v0 v1 v2 v3 : ℝ) :
    keepF1G (exactD tr lg) exactSqrt (.fin u0) (.fin u1) (.fin u2) (.fin u3) (.fin v0) (.fin v1)
      (.fin v2) (.fin v3) = .fin (keepF1 u0 u1 u2 u3 v0 v1 v2 v3) := by
  unfold keepF1G keepF1
  simp only [x_int, x_mul, x_add, x_sub, x_neg, Int.cast_ofNat, general_agree]

/-- **C100** The bound of a cell: the formula of the IEEE-754 model with exact operations is the
formula of the model over the reals.  There are no hypotheses: the divisions by zero and the roots
of negative numbers in the code give infinities and NaN, and both disappear again in `MIN` and
`MAX`. -/
theorem C100_formula_exact (u0 u1 u2 u3 v0 v1 v2 v3 : ℝ) :
    deriveBG (exactD tr lg) exactSqrt (.fin u0) (.fin u1) (.fin u2) (.fin u3) (.fin v0) (.fin v1)
      (.fin v2) (.fin v3) = .fin (deriveB u0 u1 u2 u3 v0 v1 v2 v3) := by
  unfold deriveBG deriveB
  simp only [x_int, x_mul, x_add, x_sub, x_neg, x_eq0, Int.cast_ofNat, Int.cast_neg, Int.cast_zero,
    Int.cast_one, keepDelta_agree, keepDen_agree, keepF0_agree, keepF1_agree, keepSign_agree,
    x_min, x_max, decide_eq_true_eq]
  by_cases hw : (u3 - u0 - u2 + u1) * (v2 - v1) - (v3 - v0 - v2 + v1) * (u2 - u1) = 0
  · rw [if_pos hw, if_pos hw]
  rw [if_neg hw, if_neg hw]
  simp only [x_div hw, x_mul, x_add, x_sub, x_eq0, x_lt, x_le, x_ite, Bool.or_eq_true,
    Bool.and_eq_true, decide_eq_true_eq]

end

end CpSZ.VMode.Bilinear
