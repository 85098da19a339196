import Verif.Quant
import Verif.Rounding
/-
The bound quantiser and the acceptance test in rounded arithmetic.
-/

namespace CpSZ

/-- A rounding with relative error `u`, exact on all powers of two (binary32, binary64 away from
overflow and subnormal numbers). -/
structure IsFloat (r : ℝ → ℝ) (u : ℝ) : Prop extends IsRounding r where
  pow2all : ∀ k : ℤ, r ((2 : ℝ) ^ k) = (2 : ℝ) ^ k
  rel : ∀ x, |r x - x| ≤ u * |x|

/-- What is assumed of the library function `log2`: the result is a `double` (`rD` leaves it
alone) and exceeds the true logarithm by at most `δ` on arguments from one to `2^1024`, the end of
the range of `double`. -/
structure IsLog2 (rD lg : ℝ → ℝ) (δ : ℝ) : Prop where
  rep : ∀ x, rD (lg x) = lg x
  upper : ∀ x, 1 ≤ x → x < (2 : ℝ) ^ (1024 : ℕ) → lg x ≤ Real.logb 2 x + δ

theorem IsIntRounding.near {rnd : ℝ → ℤ} (hr : IsIntRounding rnd) (x : ℝ) :
    |(rnd x : ℝ) - x| ≤ 1 := by
  have h1 : ⌊x⌋ ≤ rnd x := by
    have := hr.mono (Int.floor_le x); rwa [hr.int] at this
  have h2 : rnd x ≤ ⌈x⌉ := by
    have := hr.mono (Int.le_ceil x); rwa [hr.int] at this
  have h1' : (⌊x⌋ : ℝ) ≤ rnd x := by exact_mod_cast h1
  have h2' : (rnd x : ℝ) ≤ ⌈x⌉ := by exact_mod_cast h2
  have h3 := Int.lt_floor_add_one x
  have h4 := Int.ceil_lt_add_one x
  rw [abs_le]
  constructor <;> linarith

theorem flPos_rel {rnd : ℝ → ℤ} (hr : IsIntRounding rnd) {p : ℕ} {y : ℝ} (hy : 0 < y) :
    |flPos rnd p y - y| ≤ (2 : ℝ) ^ (1 - (p : ℤ)) * y := by
  have h2 : (0 : ℝ) < (2 : ℝ) ^ ulpExp p y := zpow_pos (by norm_num) _
  have l1 : (2 : ℝ) ^ Int.log 2 y ≤ y := by
    exact_mod_cast Int.zpow_log_le_self (b := 2) (by norm_num) hy
  have e : flPos rnd p y - y =
      ((rnd (y / (2 : ℝ) ^ ulpExp p y) : ℝ) - y / (2 : ℝ) ^ ulpExp p y) * (2 : ℝ) ^ ulpExp p y := by
    rw [sub_mul, div_mul_cancel₀ _ h2.ne']; rfl
  rw [e, abs_mul, abs_of_pos h2]
  calc _ ≤ 1 * (2 : ℝ) ^ ulpExp p y := mul_le_mul_of_nonneg_right (hr.near _) h2.le
    _ = (2 : ℝ) ^ (1 - (p : ℤ)) * (2 : ℝ) ^ Int.log 2 y := by
      rw [one_mul, ← zpow_add₀ (by norm_num : (2 : ℝ) ≠ 0), ulpExp]; congr 1; omega
    _ ≤ _ := mul_le_mul_of_nonneg_left l1 (zpow_pos (by norm_num) _).le

/-- Floating point formats with `p ≥ 24` significant bits have relative error `2^(1-p)`. -/
theorem fl_isFloat {rnd : ℝ → ℤ} (hr : IsIntRounding rnd) {p : ℕ} (hp : 24 ≤ p) :
    IsFloat (fl rnd p) ((2 : ℝ) ^ (1 - (p : ℤ))) := by
  refine ⟨fl_isRounding hr hp, ?_, ?_⟩
  · intro k
    have hk : (0 : ℝ) < (2 : ℝ) ^ k := zpow_pos (by norm_num) _
    unfold fl
    rw [if_pos hk.le]
    have hl : Int.log 2 ((2 : ℝ) ^ k) = k := by
      have := Int.log_zpow (R := ℝ) (b := 2) (by norm_num) k
      exact_mod_cast this
    apply flPos_of_int hr (n := 2 ^ (p - 1))
    rw [ulpExp, hl]
    push_cast
    rw [← zpow_natCast, ← zpow_add₀ (by norm_num : (2 : ℝ) ≠ 0)]
    congr 1
    omega
  · intro x
    rcases lt_trichotomy x 0 with h | rfl | h
    · have := flPos_rel hr (p := p) (y := -x) (by linarith)
      unfold fl
      rw [if_neg (by linarith), abs_of_neg h]
      rw [show -flPos rnd p (-x) - x = -(flPos rnd p (-x) - -x) by ring, abs_neg]
      exact this
    · simp [fl, flPos_zero hr]
    · have := flPos_rel hr (p := p) h
      unfold fl
      rw [if_pos h.le, abs_of_pos h]
      exact this

theorem IsFloat.le {r : ℝ → ℝ} {u : ℝ} (h : IsFloat r u) {x : ℝ} (hx : 0 ≤ x) :
    r x ≤ (1 + u) * x := by
  have := abs_le.1 (h.rel x)
  rw [abs_of_nonneg hx] at this
  linarith [this.2]

theorem IsFloat.u_nonneg {r : ℝ → ℝ} {u : ℝ} (h : IsFloat r u) : 0 ≤ u := by
  have := (abs_nonneg _).trans (h.rel 1)
  simpa using this

/-- Exact arithmetic is a float format without error. -/
theorem IsFloat.id : IsFloat id 0 :=
  ⟨IsRounding.id, fun _ => rfl, fun x => by simp⟩

theorem IsLog2.real : IsLog2 id (Real.logb 2) 0 := ⟨fun _ => rfl, fun x _ _ => by simp⟩

theorem fl_idem {rnd : ℝ → ℤ} (hr : IsIntRounding rnd) {p : ℕ} (hp : 1 ≤ p) (x : ℝ) :
    fl rnd p (fl rnd p x) = fl rnd p x := by
  have key : ∀ y : ℝ, 0 < y → fl rnd p (flPos rnd p y) = flPos rnd p y := by
    intro y hy
    obtain ⟨n, hn⟩ := flPos_grid hr hp hy
    unfold fl
    rw [if_pos (flPos_nonneg hr hy.le)]
    exact flPos_of_int hr hn
  rcases lt_trichotomy x 0 with h | rfl | h
  · have : fl rnd p x = -flPos rnd p (-x) := by unfold fl; rw [if_neg (by linarith)]
    rw [this, fl_neg hr, key (-x) (by linarith)]
  · have : fl rnd p 0 = 0 := by simp [fl, flPos_zero hr]
    rw [this, this]
  · have : fl rnd p x = flPos rnd p x := by unfold fl; rw [if_pos h.le]
    rw [this, key x h]

/-- The logarithm rounded to `p` bits is off by at most `2^(11-p)`, for instance `2^-42` for
`double`. -/
theorem IsLog2.rounded {rnd : ℝ → ℤ} (hr : IsIntRounding rnd) {p : ℕ} (hp : 24 ≤ p) :
    IsLog2 (fl rnd p) (fun x => fl rnd p (Real.logb 2 x)) ((2 : ℝ) ^ (11 - (p : ℤ))) := by
  refine ⟨fun x => fl_idem hr (by omega) _, fun x h1 h2 => ?_⟩
  have hl0 : 0 ≤ Real.logb 2 x := Real.logb_nonneg (by norm_num) h1
  have hl1 : Real.logb 2 x ≤ 1024 := by
    have := Real.logb_le_logb_of_le (b := 2) (by norm_num) (by linarith) h2.le
    rwa [Real.logb_pow, Real.logb_self_eq_one (by norm_num), mul_one] at this
  have h3 := (abs_le.1 ((fl_isFloat hr hp).rel (Real.logb 2 x))).2
  rw [abs_of_nonneg hl0] at h3
  have h4 : (2 : ℝ) ^ (1 - (p : ℤ)) * Real.logb 2 x ≤ (2 : ℝ) ^ (1 - (p : ℤ)) * 1024 :=
    mul_le_mul_of_nonneg_left hl1 (zpow_pos (by norm_num) _).le
  have h5 : (2 : ℝ) ^ (1 - (p : ℤ)) * 1024 = (2 : ℝ) ^ (11 - (p : ℤ)) := by
    rw [show (1024 : ℝ) = (2 : ℝ) ^ (10 : ℤ) by norm_num,
      ← zpow_add₀ (by norm_num : (2 : ℝ) ≠ 0)]
    congr 1; omega
  linarith

/-- The strict acceptance test transfers from the rounded to the exact difference if the bound
is a power of two. -/
theorem dist_lt_of_rounded {rT : ℝ → ℝ} {u : ℝ} (hT : IsFloat rT u) (k : ℤ) (d : ℝ)
    (h : |rT d| < (2 : ℝ) ^ k) : |d| < (2 : ℝ) ^ k := by
  by_contra hc
  push Not at hc
  rcases abs_cases d with ⟨hd, -⟩ | ⟨hd, -⟩
  · rw [hd] at hc
    have := hT.mono hc
    rw [hT.pow2all] at this
    exact absurd (lt_of_le_of_lt (le_abs_self _) h) (not_lt.2 this)
  · rw [hd] at hc
    have := hT.mono hc
    rw [hT.pow2all, hT.odd] at this
    exact absurd (lt_of_le_of_lt (neg_le_abs _) h) (not_lt.2 this)

/-- The acceptance test in the element type leaves a margin `g` below powers of two. -/
def Guard (rT : ℝ → ℝ) (g : ℝ) : Prop :=
  ∀ (k : ℤ) (d : ℝ), |rT d| < (2 : ℝ) ^ k → |d| < (1 - g) * (2 : ℝ) ^ k

theorem IsFloat.guard {rT : ℝ → ℝ} {u : ℝ} (hT : IsFloat rT u) : Guard rT 0 :=
  fun k d h => by rw [sub_zero, one_mul]; exact dist_lt_of_rounded hT k d h

/-- Rounding to a nearest integer, with any rule for ties. -/
structure IsNearest (rnd : ℝ → ℤ) : Prop extends IsIntRounding rnd where
  half : ∀ x, |(rnd x : ℝ) - x| ≤ 1 / 2

theorem nearest_isNearest : IsNearest nearest := by
  refine ⟨nearest_rounding, fun x => ?_⟩
  have h1 := Int.floor_le (x + 1 / 2)
  have h2 := Int.lt_floor_add_one (x + 1 / 2)
  unfold nearest
  rw [abs_le]
  constructor <;> linarith

/-- With `p` bits and rounding to nearest, numbers within `2^(-p-2)` (relatively) below a power of
two are rounded up to it. -/
theorem fl_guard {rnd : ℝ → ℤ} (hr : IsNearest rnd) {p : ℕ} (hp : 24 ≤ p) :
    Guard (fl rnd p) ((2 : ℝ) ^ (-(p : ℤ) - 2)) := by
  have hr' := hr.toIsIntRounding
  have hR := fl_isRounding hr' hp
  have hg : (2 : ℝ) ^ (-(p : ℤ) - 2) ≤ 1 / 2 := by
    have := zpow_le_zpow_right₀ (a := (2 : ℝ)) (by norm_num)
      (show -(p : ℤ) - 2 ≤ -1 by omega)
    norm_num at this ⊢
    exact this
  have hg0 : (0 : ℝ) < (2 : ℝ) ^ (-(p : ℤ) - 2) := zpow_pos (by norm_num) _
  have key : ∀ k : ℤ, fl rnd p ((1 - (2 : ℝ) ^ (-(p : ℤ) - 2)) * (2 : ℝ) ^ k) = (2 : ℝ) ^ k := by
    intro k
    have hk : (0 : ℝ) < (2 : ℝ) ^ k := zpow_pos (by norm_num) _
    set y := (1 - (2 : ℝ) ^ (-(p : ℤ) - 2)) * (2 : ℝ) ^ k with hy
    have hy0 : 0 < y := mul_pos (by linarith) hk
    have hlog : Int.log 2 y = k - 1 := by
      apply le_antisymm
      · have : Int.log 2 y < k := by
          rw [← Int.lt_zpow_iff_log_lt (by norm_num) hy0]
          push_cast
          rw [hy]
          nlinarith
        omega
      · rw [← Int.zpow_le_iff_le_log (by norm_num) hy0]
        push_cast
        rw [zpow_sub_one₀ (by norm_num), hy]
        nlinarith
    have hu : ulpExp p y = k - p := by rw [ulpExp, hlog]; omega
    unfold fl
    rw [if_pos hy0.le, flPos, hu]
    have hq : y / (2 : ℝ) ^ (k - (p : ℤ)) = (2 : ℝ) ^ (p : ℤ) - 1 / 4 := by
      have e1 : (2 : ℝ) ^ k = (2 : ℝ) ^ (p : ℤ) * (2 : ℝ) ^ (k - (p : ℤ)) := by
        rw [← zpow_add₀ (by norm_num : (2 : ℝ) ≠ 0)]; congr 1; omega
      have e2 : (2 : ℝ) ^ (-(p : ℤ) - 2) * (2 : ℝ) ^ (p : ℤ) = 1 / 4 := by
        rw [← zpow_add₀ (by norm_num : (2 : ℝ) ≠ 0)]
        rw [show -(p : ℤ) - 2 + p = -2 by omega]; norm_num
      rw [div_eq_iff (zpow_ne_zero _ (by norm_num)), hy, e1, ← e2]
      ring
    rw [hq]
    have hn : rnd ((2 : ℝ) ^ (p : ℤ) - 1 / 4) = 2 ^ p := by
      have h := abs_le.1 (hr.half ((2 : ℝ) ^ (p : ℤ) - 1 / 4))
      rw [zpow_natCast] at h ⊢
      have h1 : ((2 ^ p : ℤ) : ℝ) - 1 < (rnd ((2 : ℝ) ^ p - 1 / 4) : ℝ) := by
        push_cast; linarith [h.1]
      have h2 : (rnd ((2 : ℝ) ^ p - 1 / 4) : ℝ) < ((2 ^ p : ℤ) : ℝ) + 1 := by
        push_cast; linarith [h.2]
      have h1' : (2 ^ p : ℤ) - 1 < rnd ((2 : ℝ) ^ p - 1 / 4) := by exact_mod_cast h1
      have h2' : rnd ((2 : ℝ) ^ p - 1 / 4) < (2 ^ p : ℤ) + 1 := by exact_mod_cast h2
      omega
    rw [hn]
    push_cast
    rw [← zpow_natCast, ← zpow_add₀ (by norm_num : (2 : ℝ) ≠ 0)]
    congr 1
    omega
  intro k d h
  by_contra hc
  push Not at hc
  rcases abs_cases d with ⟨hd, -⟩ | ⟨hd, -⟩
  · rw [hd] at hc
    have := hR.mono hc
    rw [key] at this
    exact absurd (lt_of_le_of_lt (le_abs_self _) h) (not_lt.2 this)
  · rw [hd] at hc
    have := hR.mono hc
    rw [key, hR.odd] at this
    exact absurd (lt_of_le_of_lt (neg_le_abs _) h) (not_lt.2 this)

/-- The bound quantiser in rounded arithmetic, base `2^b` with `b ∈ {1, 2}` and threshold a power
of two: a positive code gives a bound that is a power of two and exceeds the requested one by at
most the error of the division and of the logarithm. -/
theorem ebQuant_rounded {rT rD lg : ℝ → ℝ} {u δ : ℝ} (hD : IsFloat rD u) (hl : IsLog2 rD lg δ)
    (b : ℕ) (hb : b = 1 ∨ b = 2) (t : ℤ) (a : ℝ)
    (hov : (1 + u) * (a / 2 ^ t) < (2 : ℝ) ^ (1024 : ℕ))
    (h : 0 < (ebQuant (roundedOps rT rD lg).toDOps (2 ^ b) (b : ℝ) ((2 : ℝ) ^ t) a).2) :
    ∃ k : ℤ, (ebQuant (roundedOps rT rD lg).toDOps (2 ^ b) (b : ℝ) ((2 : ℝ) ^ t) a).1 =
        (2 : ℝ) ^ k ∧ (2 : ℝ) ^ k ≤ (1 + u) * (2 : ℝ) ^ δ * a := by
  have ht : (0 : ℝ) < (2 : ℝ) ^ t := zpow_pos (by norm_num) _
  have r1 : rD 1 = 1 := by simpa using hD.int 1 (by norm_num)
  by_cases hle : a ≤ (2 : ℝ) ^ t
  · have : ebQuant (roundedOps rT rD lg).toDOps (2 ^ b) (b : ℝ) ((2 : ℝ) ^ t) a = (rD 0, 0) := by
      unfold ebQuant
      rw [if_pos (by simpa [roundedOps] using hle)]
      simp [roundedOps]
    rw [this] at h
    simp at h
  · have he : ebQuant (roundedOps rT rD lg).toDOps (2 ^ b) (b : ℝ) ((2 : ℝ) ^ t) a =
        (rD (rD (((2 ^ b : ℤ) : ℝ) ^ truncR (rD (lg (rD (a / 2 ^ t)) / b))) * 2 ^ t),
          truncR (rD (lg (rD (a / 2 ^ t)) / b))) := by
      unfold ebQuant
      rw [if_neg (by simpa [roundedOps] using hle)]
      rfl
    rw [he] at h ⊢
    simp only at h ⊢
    push Not at hle
    set y := rD (a / 2 ^ t) with hy
    set z := rD (lg y / b) with hz
    have hapos : 0 < a := ht.trans hle
    have hy1 : 1 ≤ y := by
      have := hD.mono (show (1 : ℝ) ≤ a / 2 ^ t by rw [le_div_iff₀ ht]; linarith)
      rwa [r1] at this
    have hyle : y ≤ (1 + u) * (a / 2 ^ t) := hD.le (div_nonneg hapos.le ht.le)
    -- the code is positive, so `z ≥ 1`
    have hz1 : 1 ≤ z := by
      by_contra hc
      push Not at hc
      have : truncR z ≤ 0 := by
        unfold truncR
        split
        · have : ⌊z⌋ < 1 := Int.floor_lt.2 (by exact_mod_cast hc)
          omega
        · rename_i hneg
          exact Int.ceil_le.2 (by push_cast; push Not at hneg; exact hneg.le)
      omega
    -- the division by the logarithm of the base is exact
    have hzle : (b : ℝ) * z ≤ lg y := by
      rcases hb with rfl | rfl
      · have : z = lg y := by rw [hz]; push_cast; rw [div_one, hl.rep]
        rw [this]; simp
      · by_cases hlg : 1 ≤ |lg y|
        · have : z = lg y / 2 := by
            have := hD.half (lg y) (by rw [hl.rep]; exact hlg)
            rw [hl.rep] at this
            rw [hz]; push_cast; exact this
          rw [this]; push_cast; linarith
        · exfalso
          push Not at hlg
          have h1 : lg y / 2 ≤ (2 : ℝ) ^ (-1 : ℤ) := by
            have := le_abs_self (lg y)
            norm_num; linarith
          have h2 := hD.mono h1
          rw [hD.pow2all] at h2
          have : z ≤ (2 : ℝ) ^ (-1 : ℤ) := by rw [hz]; push_cast; exact h2
          norm_num at this
          linarith
    set id := truncR z with hid
    have hidz : (id : ℝ) ≤ z := by
      rw [hid, truncR_nonneg (by linarith)]; exact Int.floor_le z
    have hpow : ((2 ^ b : ℤ) : ℝ) ^ id = (2 : ℝ) ^ ((b : ℤ) * id) := by
      push_cast
      rw [zpow_mul, zpow_natCast]
    refine ⟨(b : ℤ) * id + t, ?_, ?_⟩
    · rw [hpow, hD.pow2all, ← zpow_add₀ (by norm_num : (2 : ℝ) ≠ 0), hD.pow2all]
    · have h1 : ((b : ℤ) * id : ℤ) ≤ lg y := by
        push_cast
        exact (mul_le_mul_of_nonneg_left hidz (by positivity)).trans hzle
      have h2 : (2 : ℝ) ^ ((b : ℤ) * id) ≤ y * (2 : ℝ) ^ δ := by
        rw [← Real.rpow_intCast]
        calc (2 : ℝ) ^ ((((b : ℤ) * id : ℤ)) : ℝ) ≤ (2 : ℝ) ^ (Real.logb 2 y + δ) :=
              Real.rpow_le_rpow_of_exponent_le (by norm_num) (h1.trans (hl.upper y hy1 (lt_of_le_of_lt hyle hov)))
          _ = _ := by
            rw [Real.rpow_add (by norm_num), Real.rpow_logb (by norm_num) (by norm_num)
              (by linarith)]
      rw [zpow_add₀ (by norm_num : (2 : ℝ) ≠ 0)]
      have hδ : (0 : ℝ) < (2 : ℝ) ^ δ := Real.rpow_pos_of_pos (by norm_num) _
      calc _ ≤ y * (2 : ℝ) ^ δ * 2 ^ t := mul_le_mul_of_nonneg_right h2 ht.le
        _ ≤ (1 + u) * (a / 2 ^ t) * (2 : ℝ) ^ δ * 2 ^ t :=
          mul_le_mul_of_nonneg_right (mul_le_mul_of_nonneg_right hyle hδ.le) ht.le
        _ = _ := by field_simp

end CpSZ
