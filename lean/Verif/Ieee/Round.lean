import Verif.Special
import Mathlib.Data.Rat.Floor
import Mathlib.Algebra.Order.Field.Power
import Mathlib.Tactic.Linarith
import Mathlib.Tactic.Positivity
import Mathlib.Tactic.Ring
import Mathlib.Tactic.FieldSimp
/-
IEEE-754 binary formats: rounding of exact results to nearest, ties to even, with subnormal
numbers and overflow.  Nothing of /repo is modelled here; C++ `float` and `double` are assumed
to be binary32 and binary64.
-/

namespace CpSZ.Ieee

/-- `2^e`. -/
def p2 (e : Int) : ℚ := Fp.ipow 2 e

theorem p2_eq (e : Int) : p2 e = (2 : ℚ) ^ e := by
  unfold p2 Fp.ipow
  split
  · rename_i h
    obtain ⟨n, rfl⟩ := Int.eq_ofNat_of_zero_le h
    simp
  · rename_i h
    obtain ⟨n, hn⟩ := Int.eq_ofNat_of_zero_le (show 0 ≤ -e by omega)
    have : e = -(n : Int) := by omega
    subst this
    simp

theorem p2_pos (e : Int) : 0 < p2 e := by rw [p2_eq]; exact zpow_pos (by norm_num) _

theorem p2_add (a b : Int) : p2 (a + b) = p2 a * p2 b := by
  simp only [p2_eq]; exact zpow_add₀ (by norm_num) _ _

theorem p2_nat (n : Nat) : p2 n = 2 ^ n := by rw [p2_eq, zpow_natCast]

theorem p2_zero : p2 0 = 1 := by rw [p2_eq, zpow_zero]

theorem p2_one : p2 1 = 2 := by rw [p2_eq, zpow_one]

theorem p2_succ (e : Int) : p2 (e + 1) = 2 * p2 e := by rw [p2_add, p2_one]; ring

theorem p2_le {a b : Int} (h : a ≤ b) : p2 a ≤ p2 b := by
  simp only [p2_eq]; exact zpow_le_zpow_right₀ (by norm_num) h

theorem p2_lt {a b : Int} (h : a < b) : p2 a < p2 b := by
  simp only [p2_eq]; exact zpow_lt_zpow_right₀ (by norm_num) h

theorem lt_of_p2_lt {a b : Int} (h : p2 a < p2 b) : a < b := by
  by_contra hc
  exact absurd (p2_le (not_lt.1 hc)) (not_le.2 h)

/-- Exponent of a positive number: the `e` with `2^e ≤ q < 2^(e+1)`. -/
def ilog (q : ℚ) : Int :=
  let e := (Nat.log2 q.num.natAbs : Int) - Nat.log2 q.den
  if p2 e ≤ q then e else e - 1

theorem ilog_spec {q : ℚ} (h : 0 < q) : p2 (ilog q) ≤ q ∧ q < p2 (ilog q + 1) := by
  have hn : 0 < q.num := Rat.num_pos.2 h
  have hd : 0 < q.den := q.den_pos
  have hq : q = (q.num.natAbs : ℚ) / q.den := by
    have h1 : ((q.num.natAbs : Int) : ℚ) = (q.num : ℚ) := by
      congr 1; omega
    rw [← Int.cast_natCast, h1, Rat.num_div_den]
  have e1 := Nat.log2_self_le (n := q.num.natAbs) (by omega)
  have e2 := Nat.lt_log2_self (n := q.num.natAbs)
  have e3 := Nat.log2_self_le (n := q.den) (by omega)
  have e4 := Nat.lt_log2_self (n := q.den)
  have hd' : (0 : ℚ) < q.den := by exact_mod_cast hd
  have k1 : (2 : ℚ) ^ Nat.log2 q.num.natAbs ≤ q.num.natAbs := by exact_mod_cast e1
  have k2 : (q.num.natAbs : ℚ) < 2 ^ (Nat.log2 q.num.natAbs + 1) := by exact_mod_cast e2
  have k3 : (2 : ℚ) ^ Nat.log2 q.den ≤ q.den := by exact_mod_cast e3
  have k4 : (q.den : ℚ) < 2 ^ (Nat.log2 q.den + 1) := by exact_mod_cast e4
  have up : q < p2 ((Nat.log2 q.num.natAbs : Int) - Nat.log2 q.den + 1) := by
    have : p2 ((Nat.log2 q.num.natAbs : Int) - Nat.log2 q.den + 1) * 2 ^ Nat.log2 q.den =
        2 ^ (Nat.log2 q.num.natAbs + 1) := by
      rw [← p2_nat, ← p2_nat, ← p2_add]; congr 1; push_cast; ring
    refine lt_of_eq_of_lt hq ?_
    rw [div_lt_iff₀ hd']
    calc _ < _ := k2
      _ = _ := this.symm
      _ ≤ _ := by
        refine mul_le_mul_of_nonneg_left k3 ?_
        exact (p2_pos _).le
  have lo : p2 ((Nat.log2 q.num.natAbs : Int) - Nat.log2 q.den - 1) ≤ q := by
    have : p2 ((Nat.log2 q.num.natAbs : Int) - Nat.log2 q.den - 1) * 2 ^ (Nat.log2 q.den + 1) =
        2 ^ (Nat.log2 q.num.natAbs) := by
      rw [← p2_nat, ← p2_nat, ← p2_add]; congr 1; push_cast; ring
    refine le_of_le_of_eq ?_ hq.symm
    rw [le_div_iff₀ hd']
    calc _ ≤ _ := mul_le_mul_of_nonneg_left k4.le (p2_pos _).le
      _ = _ := this
      _ ≤ _ := k1
  unfold ilog
  simp only
  split
  · rename_i hc; exact ⟨hc, up⟩
  · rename_i hc
    refine ⟨lo, ?_⟩
    rw [sub_add_cancel]
    exact not_le.1 hc

theorem ilog_unique {q : ℚ} {e : Int} (h1 : p2 e ≤ q) (h2 : q < p2 (e + 1)) : ilog q = e := by
  obtain ⟨k1, k2⟩ := ilog_spec (lt_of_lt_of_le (p2_pos e) h1)
  have a := lt_of_p2_lt (lt_of_le_of_lt k1 h2)
  have b := lt_of_p2_lt (lt_of_le_of_lt h1 k2)
  omega

theorem ilog_mono {x y : ℚ} (hx : 0 < x) (h : x ≤ y) : ilog x ≤ ilog y := by
  have := lt_of_p2_lt (lt_of_le_of_lt ((ilog_spec hx).1.trans h) (ilog_spec (hx.trans_le h)).2)
  omega

/-- The nearest integer, ties to even. -/
def rne (q : ℚ) : Int :=
  let f := ⌊q⌋
  if q - f < 1 / 2 then f else if 1 / 2 < q - f then f + 1 else if f % 2 = 0 then f else f + 1

theorem rne_near (q : ℚ) : |(rne q : ℚ) - q| ≤ 1 / 2 := by
  have h1 := Int.floor_le q
  have h2 := Int.lt_floor_add_one q
  rw [abs_le]
  unfold rne
  simp only
  split
  · constructor <;> linarith
  · split
    · push_cast; constructor <;> linarith
    · split <;> push_cast <;> constructor <;> linarith

theorem rne_int (n : Int) : rne n = n := by
  unfold rne
  simp

theorem rne_mono {x y : ℚ} (h : x ≤ y) : rne x ≤ rne y := by
  rcases lt_or_eq_of_le (Int.floor_le_floor h) with hf | hf
  · have hx : rne x ≤ ⌊x⌋ + 1 := by unfold rne; simp only; split_ifs <;> omega
    have hy : ⌊y⌋ ≤ rne y := by unfold rne; simp only; split_ifs <;> omega
    omega
  · unfold rne
    simp only [hf]
    by_cases a1 : x - ⌊y⌋ < 1 / 2
    · rw [if_pos a1]; split_ifs <;> omega
    · rw [if_neg a1, if_neg (show ¬ (y - ⌊y⌋ < 1 / 2) by linarith)]
      by_cases a2 : 1 / 2 < x - ⌊y⌋
      · rw [if_pos a2, if_pos (show 1 / 2 < y - ⌊y⌋ by linarith)]
      · rw [if_neg a2]; split_ifs <;> omega

theorem le_rne {n : Int} {q : ℚ} (h : (n : ℚ) ≤ q) : n ≤ rne q := by
  have := rne_mono h; rwa [rne_int] at this

theorem rne_le {n : Int} {q : ℚ} (h : q ≤ n) : rne q ≤ n := by
  have := rne_mono h; rwa [rne_int] at this

/-! ### Formats -/

/-- A binary format: `ew` bits of exponent, `p` bits of precision (one of them hidden). -/
structure Fmt where
  ew : Nat
  p : Nat

/-- `float`. -/
def binary32 : Fmt := ⟨8, 24⟩

/-- `double`. -/
def binary64 : Fmt := ⟨11, 53⟩

namespace Fmt

/-- Largest exponent. -/
def emax (F : Fmt) : Int := 2 ^ (F.ew - 1) - 1

/-- Smallest exponent of a normal number. -/
def emin (F : Fmt) : Int := 1 - F.emax

/-- Exponent of the last bit of the subnormal numbers. -/
def umin (F : Fmt) : Int := F.emin - (F.p - 1)

/-- Exponent of the last bit of the numbers of the size of `y > 0`. -/
def ulp (F : Fmt) (y : ℚ) : Int := max (ilog y - (F.p - 1)) F.umin

/-- What is needed of a format. -/
structure Ok (F : Fmt) : Prop where
  p2 : 2 ≤ F.p
  wide : 2 * (F.p : Int) ≤ F.emax

end Fmt

theorem ok32 : binary32.Ok := ⟨by decide, by decide⟩
theorem ok64 : binary64.Ok := ⟨by decide, by decide⟩

/-- Rounding of a number that is not negative, before the check for overflow. -/
def rmag (F : Fmt) (y : ℚ) : ℚ := if y = 0 then 0 else rne (y / p2 (F.ulp y)) * p2 (F.ulp y)

/-- Rounding: to nearest, ties to even; results of `2^(emax+1)` and more are infinite. -/
def round (F : Fmt) (x : ℚ) : Fp ℚ :=
  if rmag F |x| < p2 (F.emax + 1) then .fin (if x < 0 then -rmag F |x| else rmag F |x|)
  else .inf (decide (x < 0))

/-- The numbers of the format. -/
def Rep (F : Fmt) (x : ℚ) : Prop :=
  ∃ (n : Int) (e : Int), x = n * p2 e ∧ |n| ≤ 2 ^ F.p ∧ F.umin ≤ e ∧ |x| < p2 (F.emax + 1)

section
variable {F : Fmt}

theorem rmag_zero : rmag F 0 = 0 := if_pos rfl

theorem rmag_pos_eq {y : ℚ} (h : 0 < y) : rmag F y = rne (y / p2 (F.ulp y)) * p2 (F.ulp y) :=
  if_neg h.ne'

theorem rmag_nonneg {y : ℚ} (h : 0 ≤ y) : 0 ≤ rmag F y := by
  rcases eq_or_lt_of_le h with rfl | h
  · rw [rmag_zero]
  · rw [rmag_pos_eq h]
    have : (0 : Int) ≤ rne (y / p2 (F.ulp y)) :=
      le_rne (by push_cast; exact div_nonneg h.le (p2_pos _).le)
    exact mul_nonneg (by exact_mod_cast this) (p2_pos _).le

/-- A number `n·2^e` with few enough digits is not changed. -/
theorem rmag_exact (hF : F.Ok) {y : ℚ} {n e : Int} (hy : y = n * p2 e) (hn : n ≤ 2 ^ F.p)
    (h0 : 0 ≤ y) (he : F.umin ≤ e) : rmag F y = y := by
  rcases eq_or_lt_of_le h0 with h0 | h0
  · rw [← h0, rmag_zero]
  rw [rmag_pos_eq h0]
  have key : ∀ k : Int, y = k * p2 (F.ulp y) →
      (rne (y / p2 (F.ulp y)) : ℚ) * p2 (F.ulp y) = y := by
    intro k hk
    have : y / p2 (F.ulp y) = k := by rw [div_eq_iff (p2_pos _).ne']; exact hk
    rw [this, rne_int]
    exact hk.symm
  have hp := hF.p2
  by_cases hu : F.ulp y ≤ e
  · obtain ⟨k, hk⟩ := Int.eq_ofNat_of_zero_le (show 0 ≤ e - F.ulp y by omega)
    refine key (n * 2 ^ k) ?_
    generalize F.ulp y = u at hk
    rw [hy, show e = (k : Int) + u by omega, p2_add, p2_nat]
    push_cast; ring
  · have hlog : F.ulp y = ilog y - (F.p - 1) := by
      unfold Fmt.ulp at hu ⊢; omega
    have h1 := (ilog_spec h0).1
    have h2 : y ≤ p2 (F.p + e) := by
      rw [hy, p2_add, p2_nat]
      exact mul_le_mul_of_nonneg_right (by exact_mod_cast hn) (p2_pos e).le
    have h3 : ilog y ≤ F.p + e := by
      by_contra hc
      exact absurd (lt_of_lt_of_le (p2_lt (not_le.1 hc)) h1) (not_lt.2 h2)
    have h4 : ilog y = F.p + e := by omega
    have hyp : y = p2 (F.p + e) := le_antisymm h2 (by rw [← h4]; exact h1)
    have hu' : F.ulp y = e + 1 := by omega
    refine key (2 ^ (F.p - 1)) ?_
    rw [hu']
    have : p2 (F.p + e) = 2 ^ (F.p - 1) * p2 (e + 1) := by
      rw [← p2_nat, ← p2_add]; congr 1; omega
    rw [hyp, this]
    push_cast
    ring

theorem ulp_mono {x y : ℚ} (hx : 0 < x) (h : x ≤ y) : F.ulp x ≤ F.ulp y := by
  have := ilog_mono hx h
  unfold Fmt.ulp
  omega

theorem umin_le_ulp (y : ℚ) : F.umin ≤ F.ulp y := le_max_right _ _

/-- Rounding does not pass a multiple of the last bit. -/
theorem rmag_le_of {x z : ℚ} {k : Int} (hx : 0 < x) (hz : z = k * p2 (F.ulp x)) (h : x ≤ z) :
    rmag F x ≤ z := by
  rw [rmag_pos_eq hx, hz]
  refine mul_le_mul_of_nonneg_right ?_ (p2_pos _).le
  have : rne (x / p2 (F.ulp x)) ≤ k := by
    apply rne_le
    rw [div_le_iff₀ (p2_pos _), ← hz]
    exact h
  exact_mod_cast this

theorem le_rmag_of {x z : ℚ} {k : Int} (hx : 0 < x) (hz : z = k * p2 (F.ulp x)) (h : z ≤ x) :
    z ≤ rmag F x := by
  rw [rmag_pos_eq hx, hz]
  refine mul_le_mul_of_nonneg_right ?_ (p2_pos _).le
  have : k ≤ rne (x / p2 (F.ulp x)) := by
    apply le_rne
    rw [le_div_iff₀ (p2_pos _), ← hz]
    exact h
  exact_mod_cast this

theorem p2_mul_of_le {a b : Int} (h : a ≤ b) : ∃ k : Int, p2 b = k * p2 a := by
  obtain ⟨k, hk⟩ := Int.eq_ofNat_of_zero_le (show 0 ≤ b - a by omega)
  refine ⟨2 ^ k, ?_⟩
  rw [show b = (k : Int) + a by omega, p2_add, p2_nat]
  push_cast
  rfl

theorem rmag_mono (hF : F.Ok) {x y : ℚ} (hx : 0 ≤ x) (h : x ≤ y) : rmag F x ≤ rmag F y := by
  rcases eq_or_lt_of_le hx with rfl | hx
  · rw [rmag_zero]; exact rmag_nonneg h
  have hp := hF.p2
  have hy := hx.trans_le h
  rcases lt_or_eq_of_le (ulp_mono (F := F) hx h) with hu | hu
  · have hl : F.ulp y = ilog y - (F.p - 1) := by
      have := umin_le_ulp (F := F) x
      unfold Fmt.ulp at hu ⊢; omega
    have hlog : ilog x < ilog y := by
      unfold Fmt.ulp at hu; omega
    obtain ⟨k1, e1⟩ := p2_mul_of_le (show F.ulp x ≤ ilog y by omega)
    obtain ⟨k2, e2⟩ := p2_mul_of_le (show F.ulp y ≤ ilog y by omega)
    refine (rmag_le_of hx e1 ?_).trans (le_rmag_of hy e2 (ilog_spec hy).1)
    exact (ilog_spec hx).2.le.trans (p2_le (by omega))
  · rw [rmag_pos_eq hx, rmag_pos_eq hy, hu]
    refine mul_le_mul_of_nonneg_right ?_ (p2_pos _).le
    have := rne_mono (div_le_div_of_nonneg_right h (p2_pos (F.ulp y)).le)
    exact_mod_cast this

/-- Relative error of normal results. -/
theorem rmag_rel {x : ℚ} (h : p2 F.emin ≤ x) : |rmag F x - x| ≤ p2 (-F.p) * x := by
  have hx := (p2_pos _).trans_le h
  obtain ⟨l1, l2⟩ := ilog_spec hx
  have hl : F.emin ≤ ilog x := by
    have := lt_of_p2_lt (lt_of_le_of_lt h l2); omega
  have hu : F.ulp x = ilog x - (F.p - 1) := by
    unfold Fmt.ulp Fmt.umin; omega
  rw [rmag_pos_eq hx]
  have e : (rne (x / p2 (F.ulp x)) : ℚ) * p2 (F.ulp x) - x =
      ((rne (x / p2 (F.ulp x)) : ℚ) - x / p2 (F.ulp x)) * p2 (F.ulp x) := by
    rw [sub_mul, div_mul_cancel₀ _ (p2_pos _).ne']
  rw [e, abs_mul, abs_of_pos (p2_pos (F.ulp x))]
  calc _ ≤ 1 / 2 * p2 (F.ulp x) := mul_le_mul_of_nonneg_right (rne_near _) (p2_pos _).le
    _ = p2 (-F.p) * p2 (ilog x) := by
      have : p2 (F.ulp x) = 2 * (p2 (-F.p) * p2 (ilog x)) := by
        rw [← p2_add, ← p2_succ, hu]; congr 1; ring
      rw [this]; ring
    _ ≤ _ := mul_le_mul_of_nonneg_left l1 (p2_pos _).le

/-- What is rounded below a power of two was below it by half a unit of the last place. -/
theorem rmag_guard (hF : F.Ok) {x : ℚ} {k : Int} (hk : F.emin < k) (h0 : 0 ≤ x)
    (h : rmag F x < p2 k) : x ≤ p2 k * (1 - p2 (-(F.p + 1))) := by
  have hp := hF.p2
  have hlt : x < p2 k := by
    by_contra hc
    have h1 := rmag_mono hF (p2_pos k).le (not_lt.1 hc)
    rw [rmag_exact hF (n := 1) (e := k) (by simp) (by
      have : (0 : Int) < 2 ^ F.p := by positivity
      omega) (p2_pos k).le (by unfold Fmt.umin; omega)] at h1
    exact absurd h (not_lt.2 h1)
  have hhalf : p2 (k - 1) ≤ p2 k * (1 - p2 (-(F.p + 1))) := by
    have e1 : p2 k = 2 * p2 (k - 1) := by rw [← p2_succ]; congr 1; ring
    have e2 : p2 (-(F.p + 1)) ≤ p2 (-1) := p2_le (by omega)
    have e3 : p2 (-1) = 1 / 2 := by rw [p2_eq]; norm_num
    rw [e3] at e2
    rw [e1]
    nlinarith [p2_pos (k - 1)]
  rcases lt_or_ge x (p2 (k - 1)) with hs | hs
  · exact hs.le.trans hhalf
  have hx := (p2_pos _).trans_le hs
  have hl : ilog x = k - 1 := ilog_unique hs (by rwa [sub_add_cancel])
  have hu : F.ulp x = k - F.p := by
    unfold Fmt.ulp Fmt.umin; omega
  rw [rmag_pos_eq hx, hu] at h
  have e1 : p2 k = 2 ^ F.p * p2 (k - F.p) := by rw [← p2_nat, ← p2_add]; congr 1; ring
  rw [e1] at h
  have h1 : (rne (x / p2 (k - F.p)) : ℚ) < ((2 ^ F.p : Int) : ℚ) := by
    push_cast
    exact lt_of_mul_lt_mul_right h (p2_pos _).le
  have h2 : (rne (x / p2 (k - F.p)) : ℚ) ≤ 2 ^ F.p - 1 := by
    have : rne (x / p2 (k - F.p)) < (2 ^ F.p : Int) := by exact_mod_cast h1
    have : rne (x / p2 (k - F.p)) ≤ (2 ^ F.p : Int) - 1 := by omega
    exact_mod_cast this
  have h3 := (abs_le.1 (rne_near (x / p2 (k - F.p)))).1
  have h4 : x / p2 (k - F.p) ≤ 2 ^ F.p - 1 / 2 := by linarith
  rw [div_le_iff₀ (p2_pos _)] at h4
  refine h4.trans (le_of_eq ?_)
  have e3 : p2 (-(F.p + 1)) * 2 ^ F.p = 1 / 2 := by
    rw [← p2_nat, ← p2_add, show -((F.p : Int) + 1) + F.p = -1 by ring, p2_eq]; norm_num
  rw [e1]
  calc _ = 2 ^ F.p * p2 (k - F.p) - 1 / 2 * p2 (k - F.p) := by ring
    _ = _ := by rw [← e3]; ring

/-! ### Numbers of the format -/

theorem Rep.neg {x : ℚ} (h : Rep F x) : Rep F (-x) := by
  obtain ⟨n, e, h1, h2, h3, h4⟩ := h
  exact ⟨-n, e, by rw [h1]; push_cast; ring, by rwa [abs_neg], h3, by rwa [abs_neg]⟩

theorem rep_neg_iff {x : ℚ} : Rep F (-x) ↔ Rep F x :=
  ⟨fun h => by simpa using h.neg, Rep.neg⟩

theorem Rep.abs {x : ℚ} (h : Rep F x) : Rep F |x| := by
  rcases abs_choice x with e | e <;> rw [e]
  · exact h
  · exact h.neg

theorem rep_zero : Rep F 0 :=
  ⟨0, F.umin, by simp, by simp, le_refl _, by rw [abs_zero]; exact p2_pos _⟩

theorem emin_le (hF : F.Ok) : F.emin ≤ 0 ∧ F.umin ≤ 0 ∧ 4 ≤ F.emax ∧ F.umin ≤ -1 - F.p := by
  have h1 := hF.wide
  have h2 := hF.p2
  unfold Fmt.umin Fmt.emin
  omega

theorem rep_p2 {k : Int} (h1 : F.umin ≤ k) (h2 : k ≤ F.emax) : Rep F (p2 k) :=
  ⟨1, k, by simp, by
    rw [abs_one]
    have : (0 : Int) < 2 ^ F.p := by positivity
    omega, h1, by rw [abs_of_pos (p2_pos _)]; exact p2_lt (by omega)⟩

theorem rep_int (hF : F.Ok) {n : Int} (h : |n| ≤ 2 ^ F.p) : Rep F n := by
  refine ⟨n, 0, by rw [p2_zero, mul_one], h, (emin_le hF).2.1, ?_⟩
  have h1 : (|n| : ℚ) ≤ 2 ^ F.p := by exact_mod_cast h
  refine lt_of_le_of_lt h1 ?_
  rw [← p2_nat]
  have := hF.wide
  exact p2_lt (by omega)

/-- Numbers of one format are numbers of a larger one. -/
theorem Rep.widen {F G : Fmt} (hp : F.p ≤ G.p) (hu : G.umin ≤ F.umin) (he : F.emax ≤ G.emax)
    {x : ℚ} (h : Rep F x) : Rep G x := by
  obtain ⟨n, e, h1, h2, h3, h4⟩ := h
  refine ⟨n, e, h1, h2.trans ?_, hu.trans h3, lt_of_lt_of_le h4 (p2_le (by omega))⟩
  exact pow_le_pow_right₀ (by norm_num) hp

theorem rmag_rep (hF : F.Ok) {x : ℚ} (h : Rep F x) (h0 : 0 ≤ x) : rmag F x = x := by
  obtain ⟨n, e, h1, h2, h3, -⟩ := h
  exact rmag_exact hF h1 ((le_abs_self n).trans h2) h0 h3

/-- Numbers of the format are not changed. -/
theorem round_rep (hF : F.Ok) {x : ℚ} (h : Rep F x) : round F x = .fin x := by
  have h1 := rmag_rep hF h.abs (abs_nonneg x)
  unfold round
  rw [h1]
  obtain ⟨-, -, -, -, -, h4⟩ := h
  rw [if_pos h4]
  split
  · rename_i hx; rw [abs_of_neg hx, neg_neg]
  · rename_i hx; rw [abs_of_nonneg (not_lt.1 hx)]

theorem round_zero (hF : F.Ok) : round F 0 = .fin 0 := round_rep hF rep_zero

theorem round_neg (hF : F.Ok) (x : ℚ) : round F (-x) = Fp.neg (round F x) := by
  rcases lt_trichotomy x 0 with h | rfl | h
  · have h1 : ¬ (-x < 0) := by linarith
    unfold round
    simp only [abs_neg, h, h1, if_true, if_false, decide_true, decide_false]
    split <;> simp [Fp.neg]
  · rw [neg_zero, round_zero hF]; simp [Fp.neg]
  · have h1 : ¬ (x < 0) := by linarith
    have h2 : -x < 0 := by linarith
    unfold round
    simp only [abs_neg, h1, h2, if_true, if_false, decide_true, decide_false]
    split <;> simp [Fp.neg]

theorem round_not_nan (x : ℚ) : round F x ≠ .nan := by
  unfold round; split <;> simp

/-- A finite result. -/
theorem round_fin {x y : ℚ} (h : round F x = .fin y) :
    |y| = rmag F |x| ∧ |y| < p2 (F.emax + 1) ∧ (0 ≤ x → 0 ≤ y) ∧ (x ≤ 0 → y ≤ 0) := by
  have hn := rmag_nonneg (F := F) (abs_nonneg x)
  unfold round at h
  split at h
  · rename_i hlt
    simp only [Fp.fin.injEq] at h
    split at h
    · rename_i hx
      have e : |y| = rmag F |x| := by rw [← h, abs_neg, abs_of_nonneg hn]
      exact ⟨e, by rw [e]; exact hlt, fun h0 => absurd hx (not_lt.2 h0), fun _ => by linarith⟩
    · rename_i hx
      have e : |y| = rmag F |x| := by rw [← h, abs_of_nonneg hn]
      refine ⟨e, by rw [e]; exact hlt, fun _ => by linarith, fun h0 => ?_⟩
      have : x = 0 := by linarith [not_lt.1 hx]
      rw [this, abs_zero, rmag_zero] at h
      linarith
  · cases h

theorem rmag_repr {y : ℚ} (h0 : 0 ≤ y) (h : rmag F y < p2 (F.emax + 1)) :
    Rep F (rmag F y) := by
  rcases eq_or_lt_of_le h0 with rfl | h0
  · rw [rmag_zero]; exact rep_zero
  refine ⟨rne (y / p2 (F.ulp y)), F.ulp y, rmag_pos_eq h0, ?_, umin_le_ulp _, ?_⟩
  · have h1 : (0 : Int) ≤ rne (y / p2 (F.ulp y)) :=
      le_rne (by push_cast; exact div_nonneg h0.le (p2_pos _).le)
    rw [abs_of_nonneg h1]
    apply rne_le
    rw [div_le_iff₀ (p2_pos _)]
    push_cast
    rw [← p2_nat, ← p2_add]
    refine (ilog_spec h0).2.le.trans (p2_le ?_)
    have : ilog y - (F.p - 1) ≤ F.ulp y := le_max_left _ _
    omega
  · rw [abs_of_nonneg (rmag_nonneg h0.le)]; exact h

theorem round_is_rep {x y : ℚ} (h : round F x = .fin y) : Rep F y := by
  obtain ⟨h1, h2, -, -⟩ := round_fin h
  have : Rep F |y| := by
    rw [h1]
    exact rmag_repr (abs_nonneg x) (by rw [← h1]; exact h2)
  rcases abs_choice y with e | e <;> rw [e] at this
  · exact this
  · exact rep_neg_iff.1 this

/-- Smaller numbers have finite results if larger ones have. -/
theorem round_bounded (hF : F.Ok) {x b : ℚ} (hb : Rep F b) (h : |x| ≤ b) :
    ∃ y, round F x = .fin y ∧ |y| ≤ b := by
  have h0 := (abs_nonneg x).trans h
  have h1 := rmag_mono hF (abs_nonneg x) h
  rw [rmag_rep hF hb h0] at h1
  have h2 : rmag F |x| < p2 (F.emax + 1) := by
    obtain ⟨-, -, -, -, -, h4⟩ := hb
    exact lt_of_le_of_lt h1 (lt_of_le_of_lt (le_abs_self b) h4)
  have : ∃ y, round F x = .fin y := by
    unfold round; rw [if_pos h2]; exact ⟨_, rfl⟩
  obtain ⟨y, hy⟩ := this
  exact ⟨y, hy, by rw [(round_fin hy).1]; exact h1⟩

/-- Results do not pass numbers of the format. -/
theorem round_ge (hF : F.Ok) {x y b : ℚ} (hb : Rep F b) (h0 : 0 ≤ b) (h : b ≤ x)
    (hy : round F x = .fin y) : b ≤ y := by
  obtain ⟨h1, -, h3, -⟩ := round_fin hy
  have hx := h0.trans h
  rw [abs_of_nonneg (h3 hx), abs_of_nonneg hx] at h1
  rw [h1, ← rmag_rep hF hb h0]
  exact rmag_mono hF h0 h

theorem round_le (hF : F.Ok) {x y b : ℚ} (hb : Rep F b) (h0 : 0 ≤ b) (h : x ≤ b)
    (hy : round F x = .fin y) : y ≤ b := by
  obtain ⟨h1, -, h3, h4⟩ := round_fin hy
  rcases le_total 0 x with hx | hx
  · rw [abs_of_nonneg (h3 hx), abs_of_nonneg hx] at h1
    rw [h1, ← rmag_rep hF hb h0]
    exact rmag_mono hF hx h
  · exact (h4 hx).trans h0

/-- Multiples of the smallest number are not rounded to zero. -/
theorem round_ne_zero (hF : F.Ok) {x : ℚ} {n : Int} (hx : x = n * p2 F.umin) (h0 : x ≠ 0) :
    round F x ≠ .fin 0 := by
  intro h
  have hn : n ≠ 0 := by rintro rfl; simp at hx; exact h0 hx
  have h1 : p2 F.umin ≤ |x| := by
    rw [hx, abs_mul, abs_of_pos (p2_pos _)]
    have : (1 : Int) ≤ |n| := Int.one_le_abs hn
    have : (1 : ℚ) ≤ |(n : ℚ)| := by exact_mod_cast this
    nlinarith [p2_pos F.umin]
  have h2 := rmag_mono hF (p2_pos _).le h1
  have hu := emin_le hF
  rw [rmag_rep hF (rep_p2 (le_refl _) (by omega)) (p2_pos _).le] at h2
  have h3 := (round_fin h).1
  rw [abs_zero] at h3
  rw [← h3] at h2
  exact absurd (p2_pos F.umin) (not_lt.2 h2)

theorem Rep.mul_umin {x : ℚ} (h : Rep F x) : ∃ n : Int, x = n * p2 F.umin := by
  obtain ⟨n, e, h1, -, h3, -⟩ := h
  obtain ⟨k, hk⟩ := p2_mul_of_le h3
  exact ⟨n * k, by rw [h1, hk]; push_cast; ring⟩

/-- Different numbers of the format have a difference that is not rounded to zero. -/
theorem round_sub_ne (hF : F.Ok) {x y : ℚ} (hx : Rep F x) (hy : Rep F y) (h : x ≠ y) :
    round F (x - y) ≠ .fin 0 := by
  obtain ⟨n, hn⟩ := hx.mul_umin
  obtain ⟨k, hk⟩ := hy.mul_umin
  refine round_ne_zero hF (n := n - k) ?_ (sub_ne_zero.2 h)
  rw [hn, hk]; push_cast; ring

/-- Halving is exact away from the subnormal numbers. -/
theorem Rep.half (hF : F.Ok) {x : ℚ} (h : Rep F x) (h1 : p2 (F.emin + 1) ≤ x) : Rep F (x / 2) := by
  obtain ⟨n, e, e1, e2, e3, e4⟩ := h
  have hx := (p2_pos _).trans_le h1
  have hp := hF.p2
  have e5 : |x / 2| < p2 (F.emax + 1) := by
    rw [abs_of_pos hx] at e4
    rw [abs_of_pos (by linarith)]; linarith
  by_cases he : F.umin ≤ e - 1
  · refine ⟨n, e - 1, ?_, e2, he, e5⟩
    have : p2 e = 2 * p2 (e - 1) := by rw [← p2_succ]; congr 1; ring
    rw [e1, this]; ring
  · have he : e = F.umin := by omega
    have hn : n ≤ 2 ^ F.p := (le_abs_self n).trans e2
    have hn' : (2 : Int) ^ F.p ≤ n := by
      have : (2 : ℚ) ^ F.p ≤ n := by
        have e6 : p2 (F.emin + 1) = 2 ^ F.p * p2 e := by
          rw [← p2_nat, ← p2_add, he]; congr 1; unfold Fmt.umin; ring
        rw [e6, e1] at h1
        exact le_of_mul_le_mul_right h1 (p2_pos e)
      exact_mod_cast this
    have : n = 2 ^ F.p := le_antisymm hn hn'
    refine ⟨2 ^ (F.p - 1), e, ?_, ?_, e3, e5⟩
    · rw [e1, this]
      have : (2 : ℚ) ^ F.p = 2 * 2 ^ (F.p - 1) := by
        rw [← pow_succ']; congr 1; omega
      push_cast
      rw [this]; ring
    · rw [abs_of_pos (by positivity)]
      exact pow_le_pow_right₀ (by norm_num) (by omega)
end

end CpSZ.Ieee
