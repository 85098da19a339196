import Verif.Offline3D.Approx
/-
Rounding to 24 significant bits is an instance of `IsBinary32`.
-/

namespace CpSZ.Offline3D
open Roots

theorem flPos_half {rnd : ℝ → ℤ} (hr : IsNearest rnd) {p : ℕ} {y : ℝ} (hy : 0 < y) :
    |flPos rnd p y - y| ≤ (2 : ℝ) ^ (-(p : ℤ)) * y := by
  have h2 : (0 : ℝ) < (2 : ℝ) ^ ulpExp p y := zpow_pos (by norm_num) _
  have l1 : (2 : ℝ) ^ Int.log 2 y ≤ y := by
    exact_mod_cast Int.zpow_log_le_self (b := 2) (by norm_num) hy
  have e : flPos rnd p y - y =
      ((rnd (y / (2 : ℝ) ^ ulpExp p y) : ℝ) - y / (2 : ℝ) ^ ulpExp p y) * (2 : ℝ) ^ ulpExp p y := by
    rw [sub_mul, div_mul_cancel₀ _ h2.ne']; rfl
  rw [e, abs_mul, abs_of_pos h2]
  calc _ ≤ 1 / 2 * (2 : ℝ) ^ ulpExp p y := mul_le_mul_of_nonneg_right (hr.half _) h2.le
    _ = (2 : ℝ) ^ (-(p : ℤ)) * (2 : ℝ) ^ Int.log 2 y := by
      rw [← zpow_add₀ (by norm_num : (2 : ℝ) ≠ 0), ulpExp,
        show -(p : ℤ) + Int.log 2 y = Int.log 2 y - ((p : ℤ) - 1) - 1 by omega,
        zpow_sub_one₀ (by norm_num : (2 : ℝ) ≠ 0)]
      ring
    _ ≤ _ := mul_le_mul_of_nonneg_left l1 (zpow_pos (by norm_num) _).le

theorem valF_of {E n : ℕ} (hE : 1 ≤ E) (h1 : 2 ^ 23 ≤ n) (h2 : n < 2 ^ 24) :
    valF (2 ^ 23 * E + (n - 2 ^ 23)) = (n : ℝ) * 2 ^ ((E : ℤ) - 150) := by
  have e1 : (2 ^ 23 * E + (n - 2 ^ 23)) / 2 ^ 23 = E := by omega
  have e2 : (2 ^ 23 * E + (n - 2 ^ 23)) % 2 ^ 23 = n - 2 ^ 23 := by omega
  unfold valF
  rw [e1, e2, if_neg (by omega), show 2 ^ 23 + (n - 2 ^ 23) = n by omega]

theorem fl_binary32 {rnd : ℝ → ℤ} (hr : IsNearest rnd) : IsBinary32 (fl rnd 24) := by
  have hi := hr.toIsIntRounding
  have hF := fl_isFloat hi (p := 24) (by norm_num)
  refine ⟨⟨hF.toIsRounding, hF.pow2all, fun x => ?_⟩, fun x h1 h2 => ?_⟩
  · rcases lt_trichotomy x 0 with h | rfl | h
    · have := flPos_half hr (p := 24) (y := -x) (by linarith)
      unfold fl
      rw [if_neg (by linarith), abs_of_neg h]
      rw [show -flPos rnd 24 (-x) - x = -(flPos rnd 24 (-x) - -x) by ring, abs_neg]
      exact this
    · simp [fl, flPos_zero hi]
    · have := flPos_half hr (p := 24) h
      unfold fl
      rw [if_pos h.le, abs_of_pos h]
      exact this
  · have hx : 0 < x := lt_of_lt_of_le (by positivity) h1
    have l1 : (2 : ℝ) ^ Int.log 2 x ≤ x := by
      exact_mod_cast Int.zpow_log_le_self (b := 2) (by norm_num) hx
    have l2 : x < (2 : ℝ) ^ (Int.log 2 x + 1) := by
      exact_mod_cast Int.lt_zpow_succ_log_self (b := 2) (by norm_num) x
    obtain ⟨s1, s2⟩ := sig_range (p := 24) (by norm_num) hx
    have t1 := hi.mono s1
    have t2 := hi.mono s2.le
    rw [hi.int] at t1 t2
    have e1 : -126 ≤ Int.log 2 x := by
      have := lt_of_le_of_lt h1 l2
      have := (zpow_lt_zpow_iff_right₀ (by norm_num : (1 : ℝ) < 2)).1 this
      omega
    have e2 : Int.log 2 x ≤ 127 :=
      (zpow_le_zpow_iff_right₀ (by norm_num : (1 : ℝ) < 2)).1 (l1.trans h2)
    have hf : fl rnd 24 x = rnd (x / (2 : ℝ) ^ ulpExp 24 x) * (2 : ℝ) ^ ulpExp 24 x := by
      unfold fl; rw [if_pos hx.le]; rfl
    have hU : ulpExp 24 x = Int.log 2 x - 23 := rfl
    by_cases hc : rnd (x / (2 : ℝ) ^ ulpExp 24 x) = 2 ^ 24
    · -- carried into the next binade
      have e3 : Int.log 2 x ≤ 126 := by
        by_contra hgt
        have he : Int.log 2 x = 127 := by omega
        rw [he] at l1
        have hx' : x = (2 : ℝ) ^ (127 : ℤ) := le_antisymm h2 l1
        have := hF.pow2all 127
        rw [← hx', hf, hc, ulpExp, he, hx'] at this
        norm_num at this
      refine ⟨2 ^ 23 * (Int.log 2 x + 128).toNat + (2 ^ 23 - 2 ^ 23), by omega, ?_⟩
      rw [valF_of (by omega) (le_refl _) (by norm_num), hf, hc, hU, Int.toNat_of_nonneg (by omega),
        show Int.log 2 x + 128 - 150 = Int.log 2 x - 23 + 1 by ring, zpow_add_one₀ (by norm_num)]
      push_cast
      ring
    · refine ⟨2 ^ 23 * (Int.log 2 x + 127).toNat +
        ((rnd (x / (2 : ℝ) ^ ulpExp 24 x)).toNat - 2 ^ 23), by omega, ?_⟩
      rw [valF_of (by omega) (by omega) (by omega), hf, Int.toNat_of_nonneg (by omega)]
      generalize rnd (x / (2 : ℝ) ^ ulpExp 24 x) = N at t1 t2 hc
      rw [hU, show Int.log 2 x + 127 - 150 = Int.log 2 x - 23 by ring]
      congr 1
      rw [← Int.cast_natCast, Int.toNat_of_nonneg (by omega)]

end CpSZ.Offline3D
