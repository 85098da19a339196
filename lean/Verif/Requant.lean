import Verif.FloatErr
/-
Quantising a value that already is a reconstruction: the linear quantiser finds the same code
again, in exact arithmetic and in floating point with rounding to nearest.
-/

namespace CpSZ

/-! ### The quantiser from both sides -/

/-- What an accepted code says about the prediction error. -/
theorem linQuant_spec {rT rD lg : ℝ → ℝ} {u : ℝ} (hD : IsFloat rD u) (hu : u ≤ 1 / 2 ^ 40)
    {diff prec : ℝ} {R : Int} (hp : 0 < prec) (hR : R ≤ 2 ^ 15) {k : Int}
    (h : linQuant (roundedOps rT rD lg).toDOps diff prec (2 * R) R = some (k + R)) :
    |k| ≤ R - 1 ∧ |diff - 2 * k * prec| ≤ (1 + 1 / 1024) * prec := by
  have hr := hD.toIsRounding
  have hrange := linQuant_range hr diff prec R hp (by omega) _ h
  have hk : |k| ≤ R - 1 := abs_le.2 ⟨by omega, by omega⟩
  refine ⟨hk, ?_⟩
  have hu0 := hD.u_nonneg
  have r1 : rD ((1 : ℤ) : ℝ) = ((1 : ℤ) : ℝ) := hr.int 1 (by norm_num)
  have r2 : rD ((2 : ℤ) : ℝ) = ((2 : ℤ) : ℝ) := hr.int 2 (by norm_num)
  have r0 : rD ((0 : ℤ) : ℝ) = ((0 : ℤ) : ℝ) := hr.int 0 (by norm_num)
  have hR0 : 0 ≤ R := by have := abs_nonneg k; omega
  have hcapr : rD ((2 * R : ℤ) : ℝ) = ((2 * R : ℤ) : ℝ) :=
    hr.int _ (by rw [abs_of_nonneg (by omega)]; omega)
  set x := |diff| / prec with hx
  have hx0 : 0 ≤ x := div_nonneg (abs_nonneg _) hp.le
  have hdx : |diff| = x * prec := by rw [hx]; field_simp
  have ha := abs_le.1 (hD.rel x)
  rw [abs_of_nonneg hx0] at ha
  set a := rD x
  have ha0 : 0 ≤ a := by
    have := hr.mono (show ((0 : ℤ) : ℝ) ≤ x by push_cast; exact hx0)
    rw [r0] at this
    simpa using this
  have hb := abs_le.1 (hD.rel (a + 1))
  rw [abs_of_nonneg (by linarith : 0 ≤ a + 1)] at hb
  have hb1 : 1 ≤ rD (a + 1) := by
    have := hr.mono (show ((1 : ℤ) : ℝ) ≤ a + 1 by push_cast; linarith)
    rw [r1] at this
    simpa using this
  have h' : (if rD (a + 1) < rD ((2 * R : ℤ) : ℝ) then
      some (truncR (rD ((if ((0 : ℤ) : ℝ) < diff then rD (a + 1) else -rD (a + 1)) /
        ((2 : ℤ) : ℝ))) + R) else none) = some (k + R) := by
    rw [← h]
    unfold linQuant
    simp only [roundedOps, decide_eq_true_eq, r1, r2, r0]
    push_cast
    rfl
  have hhalf : rD (rD (a + 1) / 2) = rD (a + 1) / 2 :=
    hr.half _ (by rw [abs_of_nonneg (by linarith)]; exact hb1)
  set b := rD (a + 1)
  rw [hcapr] at h'
  split at h'
  case isFalse => cases h'
  rename_i hlt
  have hb2 : b < 2 ^ 16 := by
    have : ((2 * R : ℤ) : ℝ) ≤ ((2 ^ 16 : ℤ) : ℝ) := by exact_mod_cast (by omega : 2 * R ≤ 2 ^ 16)
    push_cast at this hlt
    linarith
  -- a ≤ 2^17, x ≤ 2^18
  have hu1 : u ≤ 1 / 2 := by norm_num at hu ⊢; linarith
  have ha2 : a + 1 ≤ 2 ^ 17 := by nlinarith
  have hx2 : x ≤ 2 ^ 18 := by nlinarith
  have e1 : u * x ≤ 1 / 4096 := by
    calc u * x ≤ 1 / 2 ^ 40 * 2 ^ 18 := mul_le_mul hu hx2 hx0 (by norm_num)
      _ ≤ _ := by norm_num
  have e2 : u * (a + 1) ≤ 1 / 4096 := by
    calc u * (a + 1) ≤ 1 / 2 ^ 40 * 2 ^ 17 := mul_le_mul hu ha2 (by linarith) (by norm_num)
      _ ≤ _ := by norm_num
  have hbx : |b - (x + 1)| ≤ 1 / 2048 := abs_le.2 ⟨by linarith, by linarith⟩
  rw [abs_le] at hbx
  have ht : truncR (b / 2) = ⌊b / 2⌋ := truncR_nonneg (by linarith)
  have f1 := Int.floor_le (b / 2)
  have f2 := Int.lt_floor_add_one (b / 2)
  have key : abs (|diff| - 2 * (⌊b / 2⌋ : ℝ) * prec) ≤ (1 + 1 / 1024) * prec := by
    rw [hdx, ← sub_mul, abs_mul, abs_of_pos hp]
    exact mul_le_mul_of_nonneg_right (abs_le.2 ⟨by linarith, by linarith⟩) hp.le
  simp only [Option.some.injEq] at h'
  push_cast at h'
  by_cases hd : (0 : ℝ) < diff
  · rw [if_pos hd, hhalf, ht] at h'
    have : k = ⌊b / 2⌋ := by omega
    rw [this]
    rwa [abs_of_pos hd] at key
  · rw [if_neg hd, neg_div, hr.odd, hhalf, truncR_neg, ht] at h'
    have : k = -⌊b / 2⌋ := by omega
    rw [this]
    rw [abs_of_nonpos (by linarith : diff ≤ 0)] at key
    rw [← abs_neg]
    push_cast
    rwa [show -(diff - 2 * -(⌊b / 2⌋ : ℝ) * prec) = -diff - 2 * ⌊b / 2⌋ * prec by ring]

/-- A prediction error close enough to an even multiple of the bound gets that code. -/
theorem linQuant_near {rT rD lg : ℝ → ℝ} {u : ℝ} (hD : IsFloat rD u) (hu : u ≤ 1 / 2 ^ 40)
    {diff prec : ℝ} {R : Int} (hp : 0 < prec) (hR : R ≤ 2 ^ 15) {k : Int} (hk : |k| ≤ R - 1)
    (h : |diff - 2 * k * prec| ≤ 3 / 4 * prec) :
    linQuant (roundedOps rT rD lg).toDOps diff prec (2 * R) R = some (k + R) := by
  have hr := hD.toIsRounding
  have hu0 := hD.u_nonneg
  have r1 : rD ((1 : ℤ) : ℝ) = ((1 : ℤ) : ℝ) := hr.int 1 (by norm_num)
  have r2 : rD ((2 : ℤ) : ℝ) = ((2 : ℤ) : ℝ) := hr.int 2 (by norm_num)
  have r0 : rD ((0 : ℤ) : ℝ) = ((0 : ℤ) : ℝ) := hr.int 0 (by norm_num)
  have hR0 : 0 ≤ R := by have := abs_nonneg k; omega
  have hcapr : rD ((2 * R : ℤ) : ℝ) = ((2 * R : ℤ) : ℝ) :=
    hr.int _ (by rw [abs_of_nonneg (by omega)]; omega)
  set x := |diff| / prec with hx
  have hx0 : 0 ≤ x := div_nonneg (abs_nonneg _) hp.le
  have hdx : |diff| = x * prec := by rw [hx]; field_simp
  -- the magnitude of the code and the quotient
  have hm : ∃ m : ℤ, 0 ≤ m ∧ m ≤ R - 1 ∧ |x - 2 * m| ≤ 3 / 4 ∧
      (if (0 : ℝ) < diff then k = m else k = -m) := by
    have hq : |diff / prec - 2 * k| ≤ 3 / 4 := by
      have : diff / prec - 2 * k = (diff - 2 * k * prec) / prec := by field_simp
      rw [this, abs_div, abs_of_pos hp, div_le_iff₀ hp]
      exact h
    rw [abs_le] at hq
    have hk' := abs_le.1 hk
    by_cases hd : (0 : ℝ) < diff
    · have hxd : x = diff / prec := by rw [hx, abs_of_pos hd]
      refine ⟨k, ?_, by omega, ?_, by rw [if_pos hd]⟩
      · by_contra hc
        have : (k : ℝ) ≤ -1 := by exact_mod_cast (by omega : k ≤ -1)
        rw [← hxd] at hq
        linarith
      · rw [hxd]; exact abs_le.2 hq
    · have hxd : x = -(diff / prec) := by rw [hx, abs_of_nonpos (by linarith), neg_div]
      refine ⟨-k, ?_, by omega, ?_, by rw [if_neg hd]; omega⟩
      · by_contra hc
        have : (1 : ℝ) ≤ k := by exact_mod_cast (by omega : 1 ≤ k)
        linarith
      · rw [hxd]; push_cast; exact abs_le.2 ⟨by linarith, by linarith⟩
  obtain ⟨m, hm0, hm1, hm2, hm3⟩ := hm
  rw [abs_le] at hm2
  have hm0' : (0 : ℝ) ≤ m := by exact_mod_cast hm0
  have hmR : (m : ℝ) ≤ R - 1 := by exact_mod_cast hm1
  have hRr : (R : ℝ) ≤ 2 ^ 15 := by exact_mod_cast hR
  have ha := abs_le.1 (hD.rel x)
  rw [abs_of_nonneg hx0] at ha
  set a := rD x with hadef
  have ha0 : 0 ≤ a := by
    have := hr.mono (show ((0 : ℤ) : ℝ) ≤ x by push_cast; exact hx0)
    rw [r0] at this
    simpa using this
  have hb := abs_le.1 (hD.rel (a + 1))
  rw [abs_of_nonneg (by linarith : 0 ≤ a + 1)] at hb
  have hb1 : 1 ≤ rD (a + 1) := by
    have := hr.mono (show ((1 : ℤ) : ℝ) ≤ a + 1 by push_cast; linarith)
    rw [r1] at this
    simpa using this
  have hx2 : x ≤ 2 ^ 18 := by norm_num at hRr ⊢; linarith
  have e1 : u * x ≤ 1 / 4096 := by
    calc u * x ≤ 1 / 2 ^ 40 * 2 ^ 18 := mul_le_mul hu hx2 hx0 (by norm_num)
      _ ≤ _ := by norm_num
  have ha2 : a + 1 ≤ 2 ^ 19 := by norm_num at hx2 ⊢; linarith
  have e2 : u * (a + 1) ≤ 1 / 1024 := by
    calc u * (a + 1) ≤ 1 / 2 ^ 40 * 2 ^ 19 := mul_le_mul hu ha2 (by linarith) (by norm_num)
      _ ≤ _ := by norm_num
  have hhalf : rD (rD (a + 1) / 2) = rD (a + 1) / 2 :=
    hr.half _ (by rw [abs_of_nonneg (by linarith)]; exact hb1)
  set b := rD (a + 1) with hbdef
  have hlt : b < ((2 * R : ℤ) : ℝ) := by push_cast; linarith
  have hfl : ⌊b / 2⌋ = m := by
    rw [Int.floor_eq_iff]
    constructor <;> linarith
  have ht : truncR (b / 2) = m := by rw [truncR_nonneg (by linarith), hfl]
  have hgoal : (if rD (a + 1) < rD ((2 * R : ℤ) : ℝ) then
      some (truncR (rD ((if ((0 : ℤ) : ℝ) < diff then rD (a + 1) else -rD (a + 1)) /
        ((2 : ℤ) : ℝ))) + R) else none) = some (k + R) := by
    rw [hcapr, if_pos hlt]
    push_cast
    by_cases hd : (0 : ℝ) < diff
    · rw [if_pos hd] at hm3 ⊢
      rw [hhalf, ht, hm3]
    · rw [if_neg hd] at hm3 ⊢
      rw [neg_div, hr.odd, hhalf, truncR_neg, ht, hm3]
  rw [← hgoal]
  unfold linQuant
  simp only [roundedOps, decide_eq_true_eq, r1, r2, r0]
  push_cast
  rfl

/-! ### Rounding to nearest -/

section
variable {rnd : ℝ → ℤ} (hr : IsNearest rnd) {p : ℕ} (hp : 1 ≤ p)
include hr hp

/-- The rounded value is nearest among the representable ones; another representable number
is at least as far from it as the rounding error, and not too close relative to the size. -/
theorem flPos_gap {y c : ℝ} (hy : 0 < y) (hc : fl rnd p c = c) :
    |flPos rnd p y - y| ≤ |c - y| ∧ (flPos rnd p y ≠ c →
      |flPos rnd p y - y| ≤ |flPos rnd p y - c| ∧
      y ≤ (2 : ℝ) ^ (p + 1) * |flPos rnd p y - c|) := by
  have hi := hr.toIsIntRounding
  set E := ulpExp p y with hE
  set e := Int.log 2 y with he
  have hEe : E = e - ((p : ℤ) - 1) := rfl
  have h2 : (0 : ℝ) < (2 : ℝ) ^ E := zpow_pos (by norm_num) _
  have l1 : (2 : ℝ) ^ e ≤ y := by
    exact_mod_cast Int.zpow_log_le_self (b := 2) (by norm_num) hy
  have l2 : y < (2 : ℝ) ^ (e + 1) := by
    exact_mod_cast Int.lt_zpow_succ_log_self (b := 2) (by norm_num) y
  have hR : flPos rnd p y = rnd (y / (2 : ℝ) ^ E) * (2 : ℝ) ^ E := rfl
  set x := y / (2 : ℝ) ^ E with hx
  have hyx : y = x * (2 : ℝ) ^ E := by rw [hx, div_mul_cancel₀ _ h2.ne']
  have hn := hr.half x
  set n := rnd x with hndef
  have hRy : |flPos rnd p y - y| = |(n : ℝ) - x| * (2 : ℝ) ^ E := by
    rw [hR, hyx, ← sub_mul, abs_mul, abs_of_pos h2]
  have hE1 : (2 : ℝ) ^ (E - 1) = (2 : ℝ) ^ E / 2 := by
    rw [zpow_sub_one₀ (by norm_num)]; ring
  have herr : |flPos rnd p y - y| ≤ (2 : ℝ) ^ (E - 1) := by
    rw [hRy, hE1]; nlinarith
  have hRlow := (flPos_range hi hp hy).1
  rw [← he] at hRlow
  -- every multiple of the last place is at least as far from `y`
  have hnear : ∀ m : ℤ, |flPos rnd p y - y| ≤ |(m : ℝ) * (2 : ℝ) ^ E - y| := by
    intro m
    rw [hRy]
    have : |(m : ℝ) * (2 : ℝ) ^ E - y| = |(m : ℝ) - x| * (2 : ℝ) ^ E := by
      rw [hyx, ← sub_mul, abs_mul, abs_of_pos h2]
    rw [this]
    refine mul_le_mul_of_nonneg_right ?_ h2.le
    by_cases hmn : m = n
    · rw [hmn]
    · have h1 : (1 : ℝ) ≤ |(m : ℝ) - n| := by
        have : (1 : ℤ) ≤ |m - n| := Int.one_le_abs (sub_ne_zero.2 hmn)
        exact_mod_cast this
      have h3 : |(m : ℝ) - n| ≤ |(m : ℝ) - x| + |(n : ℝ) - x| := by
        have := abs_sub_le (m : ℝ) x n
        rwa [abs_sub_comm x] at this
      linarith
  have hpow : (2 : ℝ) ^ e = ((2 ^ (p - 1) : ℤ) : ℝ) * (2 : ℝ) ^ E := by
    push_cast
    rw [← zpow_natCast, ← zpow_add₀ (by norm_num : (2 : ℝ) ≠ 0)]
    congr 1
    omega
  -- the representable number `c`
  have hgrid : 0 < c → ∃ m : ℤ, c = m * (2 : ℝ) ^ (ulpExp p c) := by
    intro hc0
    have hc' : flPos rnd p c = c := by
      rw [← hc]; conv_rhs => rw [fl, if_pos hc0.le]
      rw [hc]
    obtain ⟨m, hm⟩ := flPos_grid hi hp hc0
    rw [hc'] at hm
    exact ⟨m, hm⟩
  have hmul : ∀ {E' : ℤ} {j : ℤ}, j ≤ E' → ∀ m : ℤ, ∃ m' : ℤ,
      (m : ℝ) * (2 : ℝ) ^ E' = m' * (2 : ℝ) ^ j := by
    intro E' j hj m
    refine ⟨m * 2 ^ (E' - j).toNat, ?_⟩
    push_cast
    rw [mul_assoc, ← zpow_natCast, ← zpow_add₀ (by norm_num : (2 : ℝ) ≠ 0)]
    congr 2
    omega
  constructor
  · by_cases hce : (2 : ℝ) ^ e ≤ c
    · have hc0 : 0 < c := lt_of_lt_of_le (zpow_pos (by norm_num) _) hce
      obtain ⟨m, hm⟩ := hgrid hc0
      have hlog : e ≤ Int.log 2 c :=
        (Int.zpow_le_iff_le_log (b := 2) (by norm_num) hc0).1 (by exact_mod_cast hce)
      obtain ⟨m', hm'⟩ := hmul (E' := ulpExp p c) (j := E) (by unfold ulpExp; omega) m
      rw [hm, hm']
      exact hnear m'
    · have hn2 := hnear (2 ^ (p - 1))
      rw [← hpow] at hn2
      refine hn2.trans ?_
      rw [abs_of_nonpos (by linarith), abs_of_nonpos (by linarith)]
      linarith
  · intro hne
    have hgap : (2 : ℝ) ^ (E - 1) ≤ |flPos rnd p y - c| := by
      have hEe' : (2 : ℝ) ^ (E - 1) ≤ (2 : ℝ) ^ (e - 1) :=
        zpow_le_zpow_right₀ (by norm_num) (by omega)
      have he1 : (2 : ℝ) ^ (e - 1) = (2 : ℝ) ^ e / 2 := by
        rw [zpow_sub_one₀ (by norm_num)]; ring
      have hpe : (0 : ℝ) < (2 : ℝ) ^ e := zpow_pos (by norm_num) _
      by_cases hce : (2 : ℝ) ^ (e - 1) ≤ c
      · have hc0 : 0 < c := lt_of_lt_of_le (zpow_pos (by norm_num) _) hce
        obtain ⟨m, hm⟩ := hgrid hc0
        have hlog : e - 1 ≤ Int.log 2 c :=
          (Int.zpow_le_iff_le_log (b := 2) (by norm_num) hc0).1 (by exact_mod_cast hce)
        obtain ⟨m', hm'⟩ := hmul (E' := ulpExp p c) (j := E - 1) (by unfold ulpExp; omega) m
        obtain ⟨n', hn'⟩ := hmul (E' := E) (j := E - 1) (by omega) n
        have hcv : c = m' * (2 : ℝ) ^ (E - 1) := by rw [← hm', ← hm]
        have hRv : flPos rnd p y = n' * (2 : ℝ) ^ (E - 1) := by rw [hR, hn']
        have hpE : (0 : ℝ) < (2 : ℝ) ^ (E - 1) := zpow_pos (by norm_num) _
        have hmn : n' ≠ m' := by
          intro h; apply hne; rw [hcv, hRv, h]
        rw [hRv, hcv, ← sub_mul, abs_mul, abs_of_pos hpE]
        have h1 : (1 : ℝ) ≤ |(n' : ℝ) - m'| := by
          have : (1 : ℤ) ≤ |n' - m'| := Int.one_le_abs (sub_ne_zero.2 hmn)
          exact_mod_cast this
        nlinarith
      · have : (2 : ℝ) ^ (e - 1) ≤ flPos rnd p y - c := by linarith
        exact (hEe'.trans this).trans (le_abs_self _)
    refine ⟨herr.trans hgap, ?_⟩
    have : (2 : ℝ) ^ (e + 1) = (2 : ℝ) ^ (p + 1) * (2 : ℝ) ^ (E - 1) := by
      rw [← zpow_natCast, ← zpow_add₀ (by norm_num : (2 : ℝ) ≠ 0)]
      congr 1
      push_cast
      omega
    refine l2.le.trans ?_
    rw [this]
    exact mul_le_mul_of_nonneg_left hgap (by positivity)

/-- The same for numbers of any sign. -/
theorem fl_gap {y c : ℝ} (hc : fl rnd p c = c) (hne : fl rnd p y ≠ c) :
    2 * |fl rnd p y - y| ≤ max |fl rnd p y - c| |c - y| ∧
      |y| ≤ (2 : ℝ) ^ (p + 1) * |fl rnd p y - c| := by
  have hi := hr.toIsIntRounding
  have key : ∀ {R y c : ℝ}, R ≠ c → |R - y| ≤ |c - y| → |R - y| ≤ |R - c| →
      2 * |R - y| ≤ max |R - c| |c - y| := by
    intro R y c hne h1 h2
    rcases le_total R y with a1 | a1 <;> rcases le_total c y with a2 | a2 <;>
      rcases le_total R c with a3 | a3 <;>
      simp only [abs_of_nonneg, abs_of_nonpos, sub_nonneg, sub_nonpos, a1, a2, a3] at h1 h2 ⊢ <;>
      first
        | exact le_max_of_le_left (by linarith)
        | exact le_max_of_le_right (by linarith)
  rcases lt_trichotomy y 0 with h | rfl | h
  · have hf : fl rnd p y = -flPos rnd p (-y) := by unfold fl; rw [if_neg (by linarith)]
    have hc' : fl rnd p (-c) = -c := by rw [fl_neg hi, hc]
    obtain ⟨g1, g2⟩ := flPos_gap hr hp (y := -y) (by linarith) hc'
    have hne' : flPos rnd p (-y) ≠ -c := by
      intro h'; apply hne; rw [hf, h', neg_neg]
    obtain ⟨g2, g3⟩ := g2 hne'
    have := key hne' g1 g2
    rw [hf]
    rw [show -flPos rnd p (-y) - y = -(flPos rnd p (-y) - -y) by ring, abs_neg,
      show -flPos rnd p (-y) - c = -(flPos rnd p (-y) - -c) by ring, abs_neg,
      show c - y = -(-c - -y) by ring, abs_neg, abs_of_neg h]
    exact ⟨this, g3⟩
  · have : fl rnd p 0 = 0 := by simp [fl, flPos_zero hi]
    rw [this]
    simp only [sub_self, abs_zero, mul_zero]
    exact ⟨le_max_of_le_left (abs_nonneg _), by positivity⟩
  · have hf : fl rnd p y = flPos rnd p y := by unfold fl; rw [if_pos h.le]
    rw [hf] at hne ⊢
    obtain ⟨g1, g2⟩ := flPos_gap hr hp h hc
    obtain ⟨g2, g3⟩ := g2 hne
    rw [abs_of_pos h]
    exact ⟨key hne g1 g2, g3⟩

end

/-! ### Quantising the reconstruction again -/

/-- The second run of the quantiser gives the same result if it finds the same code whenever
the reconstruction differs from the input. -/
theorem quantize_again {T F D : Type} (O : QOps T F D) (pred : F) (cur : T) (prec : D)
    (cap R : Int)
    (h : ∀ q, linQuant O.toDOps (O.diff cur pred) prec cap R = some q →
      let dec := O.addTo pred (linOffset O.toDOps prec R q)
      O.le (O.dist dec cur) prec = true → dec ≠ cur →
      linQuant O.toDOps (O.diff dec pred) prec cap R = some q ∧
        O.le (O.dist dec dec) prec = true) :
    quantize O pred (quantize O pred cur prec cap R).2.1 prec cap R =
      quantize O pred cur prec cap R := by
  cases hq : linQuant O.toDOps (O.diff cur pred) prec cap R with
  | none =>
    have : quantize O pred cur prec cap R = (0, cur, [cur]) := by unfold quantize; rw [hq]
    rw [this]; exact this
  | some q =>
    have hQ : quantize O pred cur prec cap R =
        if O.le (O.dist (O.addTo pred (linOffset O.toDOps prec R q)) cur) prec then
          (q, O.addTo pred (linOffset O.toDOps prec R q), []) else (0, cur, [cur]) := by
      unfold quantize; rw [hq]
    by_cases hle : O.le (O.dist (O.addTo pred (linOffset O.toDOps prec R q)) cur) prec = true
    · rw [if_pos hle] at hQ
      by_cases hne : O.addTo pred (linOffset O.toDOps prec R q) = cur
      · rw [hQ]
        dsimp only
        rw [hne] at hQ ⊢
        exact hQ
      · obtain ⟨h1, h2⟩ := h q hq hle hne
        rw [hQ]
        dsimp only
        unfold quantize
        rw [h1]
        dsimp only
        rw [if_pos h2]
    · rw [if_neg hle] at hQ
      rw [hQ]; exact hQ

/-- The heart of the argument for floating point data.  `y` is the number that is rounded to
the reconstruction. -/
theorem requant_core {rnd : ℝ → ℤ} (hr : IsNearest rnd) {p : ℕ} (hp : 24 ≤ p)
    {pred cur prec y d0 : ℝ} {k : ℤ} (hprec : 0 < prec) (hcur : fl rnd p cur = cur)
    (hk : |k| ≤ 2 ^ 15) (hd0 : d0 = fl rnd p (cur - pred))
    (h0 : |d0 - 2 * k * prec| ≤ (1 + 1 / 1024) * prec)
    (hy : |y| ≤ (2 : ℝ) ^ (p + 2) * prec → |y - (pred + 2 * k * prec)| ≤ 1 / 64 * prec)
    (hle : |fl rnd p (fl rnd p y - cur)| ≤ prec) (hne : fl rnd p y ≠ cur) :
    |fl rnd p (fl rnd p y - pred) - 2 * k * prec| ≤ 3 / 4 * prec := by
  have hi := hr.toIsIntRounding
  have hF := fl_isFloat hi hp
  have hu : (2 : ℝ) ^ (1 - (p : ℤ)) ≤ 1 / 2 ^ 23 := by
    have := zpow_le_zpow_right₀ (a := (2 : ℝ)) (by norm_num) (show 1 - (p : ℤ) ≤ -23 by omega)
    refine this.trans (le_of_eq ?_)
    rw [zpow_neg]; norm_num
  have hu0 := hF.u_nonneg
  generalize (2 : ℝ) ^ (1 - (p : ℤ)) = u at hF hu hu0
  obtain ⟨g1, g2⟩ := fl_gap hr (by omega : 1 ≤ p) hcur hne
  have hpp : (2 : ℝ) ^ (p + 2) = 2 * (2 : ℝ) ^ (p + 1) := by ring
  have hpp0 : (0 : ℝ) < (2 : ℝ) ^ (p + 1) := by positivity
  rw [hpp] at hy
  generalize (2 : ℝ) ^ (p + 1) = P at hy g2 hpp0
  set R := fl rnd p y
  -- the distance to the input
  have hRc : |R - cur| ≤ (1 + 1 / 1024) * prec := by
    have h1 := hF.rel (R - cur)
    have h2 : |R - cur| ≤ |fl rnd p (R - cur)| + |fl rnd p (R - cur) - (R - cur)| := by
      have := abs_sub_abs_le_abs_sub (R - cur) (fl rnd p (R - cur))
      rw [abs_sub_comm (R - cur) (fl rnd p (R - cur))] at this
      linarith
    have h3 : u * |R - cur| ≤ 1 / 2 ^ 23 * |R - cur| :=
      mul_le_mul_of_nonneg_right hu (abs_nonneg _)
    norm_num at h3 ⊢
    linarith
  have hyb := hy (by
    refine g2.trans ?_
    have : P * |R - cur| ≤ P * (2 * prec) := mul_le_mul_of_nonneg_left (by linarith) hpp0.le
    linarith)
  have hkr : |(k : ℝ)| ≤ 2 ^ 15 := by exact_mod_cast hk
  have hkp : |2 * k * prec| ≤ 2 ^ 16 * prec := by
    rw [abs_mul, abs_mul, abs_of_pos hprec, abs_of_pos (by norm_num : (0 : ℝ) < 2)]
    refine mul_le_mul_of_nonneg_right ?_ hprec.le
    norm_num at hkr ⊢
    linarith
  generalize hK : 2 * (k : ℝ) * prec = K at *
  -- the input
  have hcp : |cur - pred - K| ≤ (1 + 1 / 16) * prec := by
    have h1 := hF.rel (cur - pred)
    rw [← hd0] at h1
    have h2 : u * |cur - pred| ≤ 1 / 2 ^ 23 * |cur - pred| :=
      mul_le_mul_of_nonneg_right hu (abs_nonneg _)
    have h3 : |cur - pred| ≤ |d0| + |d0 - (cur - pred)| := by
      have := abs_sub_abs_le_abs_sub (cur - pred) d0
      rw [abs_sub_comm (cur - pred) d0] at this
      linarith
    have h4 : |d0| ≤ |K| + |d0 - K| := by
      have := abs_sub_abs_le_abs_sub d0 K
      linarith
    have h5 : |cur - pred - K| ≤ |d0 - (cur - pred)| + |d0 - K| := by
      have := abs_sub_le (cur - pred) d0 K
      rwa [abs_sub_comm (cur - pred) d0] at this
    norm_num at *
    linarith
  have hcy : |cur - y| ≤ (1 + 1 / 8) * prec := by
    have h1 : |cur - y| ≤ |cur - pred - K| + |y - (pred + K)| := by
      rw [show cur - y = (cur - pred - K) - (y - (pred + K)) by ring]
      exact abs_sub _ _
    linarith
  have hRy : |R - y| ≤ 9 / 16 * prec := by
    have : max |R - cur| |cur - y| ≤ (1 + 1 / 8) * prec := max_le (by linarith) hcy
    linarith
  have hRp : |R - pred - K| ≤ 37 / 64 * prec := by
    have h1 : |R - pred - K| ≤ |R - y| + |y - (pred + K)| := by
      rw [show R - pred - K = (R - y) + (y - (pred + K)) by ring]
      exact abs_add_le _ _
    linarith
  have h1 := hF.rel (R - pred)
  have h2 : u * |R - pred| ≤ 1 / 2 ^ 23 * |R - pred| :=
    mul_le_mul_of_nonneg_right hu (abs_nonneg _)
  have h3 : |R - pred| ≤ |K| + |R - pred - K| := by
    have := abs_sub_abs_le_abs_sub (R - pred) K
    linarith
  have h4 : |fl rnd p (R - pred) - K| ≤
      |fl rnd p (R - pred) - (R - pred)| + |R - pred - K| := abs_sub_le _ _ _
  norm_num at *
  linarith

/-- `float` data: a value that the quantiser has reconstructed is reconstructed by the same
code when it is quantised again with the same prediction and bound. -/
theorem quantize_again_float {rnd rnd' : ℝ → ℤ} (hr : IsNearest rnd) (hr' : IsIntRounding rnd')
    (lg : ℝ → ℝ) {pred cur prec : ℝ} {R : Int} (hR : R ≤ 2 ^ 15)
    (hcur : fl rnd 24 cur = cur) :
    quantize (roundedQ (fl rnd 24) (fl rnd' 53) lg) pred
        (quantize (roundedQ (fl rnd 24) (fl rnd' 53) lg) pred cur prec (2 * R) R).2.1 prec
        (2 * R) R =
      quantize (roundedQ (fl rnd 24) (fl rnd' 53) lg) pred cur prec (2 * R) R := by
  have hi := hr.toIsIntRounding
  have hD := fl_isFloat hr' (p := 53) (by norm_num)
  have hu : (2 : ℝ) ^ (1 - ((53 : ℕ) : ℤ)) ≤ 1 / 2 ^ 52 := by
    rw [show (1 - ((53 : ℕ) : ℤ)) = -52 by norm_num, zpow_neg]; norm_num
  have hu0 := hD.u_nonneg
  generalize (2 : ℝ) ^ (1 - ((53 : ℕ) : ℤ)) = u at hD hu hu0
  have hu' : u ≤ 1 / 2 ^ 40 := by norm_num at hu ⊢; linarith
  apply quantize_again
  intro q hq dec hle hne
  have hle' : |fl rnd 24 (dec - cur)| ≤ prec := by
    simpa [roundedQ, roundedOps] using hle
  have hprec0 : 0 ≤ prec := (abs_nonneg _).trans hle'
  have hself : (roundedQ (fl rnd 24) (fl rnd' 53) lg).le
      ((roundedQ (fl rnd 24) (fl rnd' 53) lg).dist dec dec) prec = true := by
    have : fl rnd 24 0 = 0 := by simp [fl, flPos_zero hi]
    simpa [roundedQ, roundedOps, this] using hprec0
  refine ⟨?_, hself⟩
  rcases eq_or_lt_of_le hprec0 with h0 | hprec
  · exfalso
    rw [← h0] at hle'
    have h1 := abs_nonpos_iff.1 hle'
    have hF := fl_isFloat hi (p := 24) (by norm_num)
    have h2 := hF.rel (dec - cur)
    rw [h1, zero_sub, abs_neg] at h2
    have h3 : (2 : ℝ) ^ (1 - ((24 : ℕ) : ℤ)) ≤ 1 / 2 := by
      rw [show (1 - ((24 : ℕ) : ℤ)) = -23 by norm_num, zpow_neg]; norm_num
    generalize (2 : ℝ) ^ (1 - ((24 : ℕ) : ℤ)) = v at h2 h3
    have h4 : |dec - cur| ≤ 0 := by nlinarith [abs_nonneg (dec - cur)]
    exact hne (sub_eq_zero.1 (abs_nonpos_iff.1 h4))
  obtain ⟨k, rfl⟩ : ∃ k, q = k + R := ⟨q - R, by omega⟩
  obtain ⟨s1, s2⟩ := linQuant_spec (rT := id) hD hu' hprec hR hq
  have hk15 : |k| ≤ 2 ^ 15 := by omega
  have hkr : |(k : ℝ)| ≤ 2 ^ 15 := by exact_mod_cast hk15
  have hoff : linOffset (roundedQ (fl rnd 24) (fl rnd' 53) lg).toDOps prec R (k + R) =
      fl rnd' 53 (2 * k * prec) := by
    have h2k : fl rnd' 53 ((2 * k : ℤ) : ℝ) = ((2 * k : ℤ) : ℝ) := by
      apply hD.int
      rw [abs_mul]
      norm_num at hk15 ⊢
      omega
    show fl rnd' 53 (fl rnd' 53 ((2 * (k + R - R) : ℤ) : ℝ) * prec) = _
    rw [show k + R - R = k by omega, h2k]
    push_cast
    rfl
  apply linQuant_near (rT := id) hD hu' hprec hR s1
  set w := fl rnd' 53 (2 * k * prec) with hw
  have hdec : dec = fl rnd 24 (fl rnd' 53 (pred + w)) := by
    show fl rnd 24 (fl rnd' 53 (pred + linOffset _ prec R (k + R))) = _
    rw [hoff]
  rw [hdec] at hle' hne
  show |fl rnd 24 (dec - pred) - 2 * k * prec| ≤ 3 / 4 * prec
  rw [hdec]
  refine requant_core hr (by norm_num) hprec hcur hk15 rfl s2 ?_ hle' hne
  intro hyb
  have e1 := hD.rel (2 * k * prec)
  rw [← hw] at e1
  have e2 := hD.rel (pred + w)
  set y := fl rnd' 53 (pred + w)
  have e3 : |2 * k * prec| ≤ 2 ^ 16 * prec := by
    rw [abs_mul, abs_mul, abs_of_pos hprec, abs_of_pos (by norm_num : (0 : ℝ) < 2)]
    refine mul_le_mul_of_nonneg_right ?_ hprec.le
    norm_num at hkr ⊢
    linarith
  have e4 : u * |2 * k * prec| ≤ 1 / 2 ^ 52 * (2 ^ 16 * prec) :=
    mul_le_mul hu e3 (abs_nonneg _) (by norm_num)
  have e5 : |pred + w| ≤ |y| + |y - (pred + w)| := by
    have := abs_sub_abs_le_abs_sub (pred + w) y
    rw [abs_sub_comm (pred + w) y] at this
    linarith
  have e6 : u * |pred + w| ≤ 1 / 2 ^ 52 * |pred + w| :=
    mul_le_mul_of_nonneg_right hu (abs_nonneg _)
  have e7 : |y - (pred + 2 * k * prec)| ≤ |y - (pred + w)| + |w - 2 * k * prec| := by
    rw [show y - (pred + 2 * k * prec) = (y - (pred + w)) + (w - 2 * k * prec) by ring]
    exact abs_add_le _ _
  clear hw hdec hoff
  norm_num at *
  linarith

/-- The same for `double` data. -/
theorem quantize_again_double {rnd : ℝ → ℤ} (hr : IsNearest rnd)
    (lg : ℝ → ℝ) {pred cur prec : ℝ} {R : Int} (hR : R ≤ 2 ^ 15)
    (hcur : fl rnd 53 cur = cur) :
    quantize (roundedQ (fl rnd 53) (fl rnd 53) lg) pred
        (quantize (roundedQ (fl rnd 53) (fl rnd 53) lg) pred cur prec (2 * R) R).2.1 prec
        (2 * R) R =
      quantize (roundedQ (fl rnd 53) (fl rnd 53) lg) pred cur prec (2 * R) R := by
  have hi := hr.toIsIntRounding
  have hD := fl_isFloat hi (p := 53) (by norm_num)
  have hu : (2 : ℝ) ^ (1 - ((53 : ℕ) : ℤ)) ≤ 1 / 2 ^ 52 := by
    rw [show (1 - ((53 : ℕ) : ℤ)) = -52 by norm_num, zpow_neg]; norm_num
  have hu0 := hD.u_nonneg
  generalize (2 : ℝ) ^ (1 - ((53 : ℕ) : ℤ)) = u at hD hu hu0
  have hu' : u ≤ 1 / 2 ^ 40 := by norm_num at hu ⊢; linarith
  apply quantize_again
  intro q hq dec hle hne
  have hle' : |fl rnd 53 (dec - cur)| ≤ prec := by
    simpa [roundedQ, roundedOps] using hle
  have hprec0 : 0 ≤ prec := (abs_nonneg _).trans hle'
  have hself : (roundedQ (fl rnd 53) (fl rnd 53) lg).le
      ((roundedQ (fl rnd 53) (fl rnd 53) lg).dist dec dec) prec = true := by
    have : fl rnd 53 0 = 0 := by simp [fl, flPos_zero hi]
    simpa [roundedQ, roundedOps, this] using hprec0
  refine ⟨?_, hself⟩
  rcases eq_or_lt_of_le hprec0 with h0 | hprec
  · exfalso
    rw [← h0] at hle'
    have h1 := abs_nonpos_iff.1 hle'
    have h2 := hD.rel (dec - cur)
    rw [h1, zero_sub, abs_neg] at h2
    have h3 : u ≤ 1 / 2 := by norm_num at hu ⊢; linarith
    have h4 : |dec - cur| ≤ 0 := by nlinarith [abs_nonneg (dec - cur)]
    exact hne (sub_eq_zero.1 (abs_nonpos_iff.1 h4))
  obtain ⟨k, rfl⟩ : ∃ k, q = k + R := ⟨q - R, by omega⟩
  obtain ⟨s1, s2⟩ := linQuant_spec (rT := id) hD hu' hprec hR hq
  have hk15 : |k| ≤ 2 ^ 15 := by omega
  have hkr : |(k : ℝ)| ≤ 2 ^ 15 := by exact_mod_cast hk15
  have hoff : linOffset (roundedQ (fl rnd 53) (fl rnd 53) lg).toDOps prec R (k + R) =
      fl rnd 53 (2 * k * prec) := by
    have h2k : fl rnd 53 ((2 * k : ℤ) : ℝ) = ((2 * k : ℤ) : ℝ) := by
      apply hD.int
      rw [abs_mul]
      norm_num at hk15 ⊢
      omega
    show fl rnd 53 (fl rnd 53 ((2 * (k + R - R) : ℤ) : ℝ) * prec) = _
    rw [show k + R - R = k by omega, h2k]
    push_cast
    rfl
  apply linQuant_near (rT := id) hD hu' hprec hR s1
  set w := fl rnd 53 (2 * k * prec) with hw
  have hdec : dec = fl rnd 53 (pred + w) := by
    show fl rnd 53 (fl rnd 53 (pred + linOffset _ prec R (k + R))) = _
    rw [hoff, fl_idem hi (by norm_num)]
  rw [hdec] at hle' hne
  show |fl rnd 53 (dec - pred) - 2 * k * prec| ≤ 3 / 4 * prec
  rw [hdec]
  refine requant_core hr (by norm_num) hprec hcur hk15 rfl s2 ?_ hle' hne
  intro _
  have e1 := hD.rel (2 * k * prec)
  rw [← hw] at e1
  have e3 : |2 * k * prec| ≤ 2 ^ 16 * prec := by
    rw [abs_mul, abs_mul, abs_of_pos hprec, abs_of_pos (by norm_num : (0 : ℝ) < 2)]
    refine mul_le_mul_of_nonneg_right ?_ hprec.le
    norm_num at hkr ⊢
    linarith
  have e4 : u * |2 * k * prec| ≤ 1 / 2 ^ 52 * (2 ^ 16 * prec) :=
    mul_le_mul hu e3 (abs_nonneg _) (by norm_num)
  rw [show pred + w - (pred + 2 * k * prec) = w - 2 * k * prec by ring]
  clear hw hdec hoff
  norm_num at *
  linarith

/-- Exact arithmetic. -/
theorem quantize_again_real {pred cur prec : ℝ} {R : Int} (hR : R ≤ 2 ^ 15) :
    quantize (roundedQ id id (Real.logb 2)) pred
        (quantize (roundedQ id id (Real.logb 2)) pred cur prec (2 * R) R).2.1 prec (2 * R) R =
      quantize (roundedQ id id (Real.logb 2)) pred cur prec (2 * R) R := by
  apply quantize_again
  intro q hq dec hle hne
  have hle' : |dec - cur| ≤ prec := by simpa [roundedQ, roundedOps] using hle
  have hprec0 : 0 ≤ prec := (abs_nonneg _).trans hle'
  refine ⟨?_, by simpa [roundedQ, roundedOps] using hprec0⟩
  rcases eq_or_lt_of_le hprec0 with h0 | hprec
  · exfalso
    rw [← h0] at hle'
    exact hne (sub_eq_zero.1 (abs_nonpos_iff.1 hle'))
  obtain ⟨k, rfl⟩ : ∃ k, q = k + R := ⟨q - R, by omega⟩
  obtain ⟨s1, -⟩ := linQuant_spec (rT := id) IsFloat.id (by norm_num) hprec hR hq
  apply linQuant_near (rT := id) IsFloat.id (by norm_num) hprec hR s1
  have hdec : dec = pred + 2 * k * prec := by
    show pred + ((2 * (k + R - R) : ℤ) : ℝ) * prec = _
    rw [show k + R - R = k by omega]
    push_cast
    rfl
  show |(dec - pred) - 2 * k * prec| ≤ 3 / 4 * prec
  rw [hdec, show pred + 2 * k * prec - pred - 2 * k * prec = 0 by ring, abs_zero]
  positivity

end CpSZ
