import Mathlib.Tactic.Linarith
import Mathlib.Tactic.Positivity
import Mathlib.Tactic.FieldSimp
import Mathlib.Tactic.Ring
import Verif.Roots
/-
C68: accuracy of the approximate roots.
-/

namespace CpSZ.Roots

/-! ### First guess -/

theorem valF_normal {E m : Nat} (hE : E ≠ 0) (hm : m < 2 ^ 23) :
    valF (2 ^ 23 * E + m) = ((2 ^ 23 + m : Nat) : ℝ) * 2 ^ ((E : ℤ) - 150) := by
  have h1 : (2 ^ 23 * E + m) / 2 ^ 23 = E := by omega
  have h2 : (2 ^ 23 * E + m) % 2 ^ 23 = m := by omega
  unfold valF
  rw [h1, h2, if_neg hE]

/-- The guess of the cube root: significand `Y / 2^23` between 1 and 2, or twice this, at the
exponent that belongs to the root. -/
theorem cbrtGuess_val {k j m : Nat} (hk : k ≤ 84) (hj : j < 3) (hm : m < 2 ^ 23) :
    ∃ Y : Nat, valF (cbrtGuess (2 ^ 23 * (3 * k + j) + m)) = (Y : ℝ) * 2 ^ ((k : ℤ) - 66) ∧
      ((Y < 2 ^ 24 ∧ 65536 * Y ≤ 65536 * (2 ^ 23 + 5322656) + 2 ^ 23 * 21845 * j + 21845 * m ∧
        65536 * (2 ^ 23 + 5322656) + 2 ^ 23 * 21845 * j + 21845 * m ≤
          65536 * Y + 2 ^ 23 * k + 262144) ∨
       (2 ^ 24 ≤ Y ∧ 65536 * (Y / 2) ≤ 65536 * 5322656 + 2 ^ 23 * 21845 * j + 21845 * m ∧ Y % 2 = 0 ∧
        65536 * 5322656 + 2 ^ 23 * 21845 * j + 21845 * m ≤
          65536 * (Y / 2) + 2 ^ 23 * k + 262144)) := by
  have hc : ∃ c, cbrtGuess (2 ^ 23 * (3 * k + j) + m) = 0x2a5137a0 + c ∧
      65536 * c ≤ 21845 * (2 ^ 23 * (3 * k + j) + m) ∧
      21845 * (2 ^ 23 * (3 * k + j) + m) ≤ 65536 * c + 262144 := by
    refine ⟨_, rfl, ?_, ?_⟩ <;> omega
  obtain ⟨c, hg, c1, c2⟩ := hc
  rw [hg]
  -- position of the guess relative to the exponent `84 + k`
  obtain ⟨h, hh⟩ : ∃ h, 0x2a5137a0 + c = 2 ^ 23 * (84 + k) + h := ⟨0x2a5137a0 + c - 2 ^ 23 * (84 + k), by omega⟩
  by_cases hlt : h < 2 ^ 23
  · refine ⟨2 ^ 23 + h, ?_, Or.inl ⟨by omega, by omega, by omega⟩⟩
    rw [hh, valF_normal (by omega) hlt]
    congr 2
    push_cast
    ring
  · obtain ⟨h', rfl⟩ : ∃ h', h = 2 ^ 23 + h' := ⟨h - 2 ^ 23, by omega⟩
    refine ⟨2 * (2 ^ 23 + h'), ?_, Or.inr ⟨by omega, by omega, by omega, by omega⟩⟩
    rw [hh, show 2 ^ 23 * (84 + k) + (2 ^ 23 + h') = 2 ^ 23 * (85 + k) + h' by ring,
      valF_normal (by omega) (by omega)]
    rw [show ((85 + k : Nat) : ℤ) - 150 = ((k : ℤ) - 66) + 1 by push_cast; ring, zpow_add_one₀ (by norm_num)]
    push_cast
    ring

/-- A cube below its chord. -/
theorem cube_chord {y a b : ℝ} (h0 : 0 ≤ a) (h1 : a ≤ y) (h2 : y ≤ b) :
    y ^ 3 ≤ a ^ 3 + (y - a) * (a ^ 2 + a * b + b ^ 2) := by
  have : a ^ 3 + (y - a) * (a ^ 2 + a * b + b ^ 2) - y ^ 3 =
    (y - a) * ((b - y) * (a + b + y)) := by ring
  have : 0 ≤ (y - a) * ((b - y) * (a + b + y)) := by
    apply mul_nonneg (by linarith) (mul_nonneg (by linarith) (by linarith))
  linarith

/-- A cube above its tangent. -/
theorem cube_tangent {y c : ℝ} (h0 : 0 ≤ y) (h1 : 0 ≤ c) : 3 * c ^ 2 * y - 2 * c ^ 3 ≤ y ^ 3 := by
  have : y ^ 3 - (3 * c ^ 2 * y - 2 * c ^ 3) = (y - c) ^ 2 * (y + 2 * c) := by ring
  have : 0 ≤ (y - c) ^ 2 * (y + 2 * c) := by positivity
  linarith

/-- The guess of the cube root is within 3.35 percent, stated for the cubes. -/
theorem cbrtGuess_cube {E m : Nat} (h1 : 1 ≤ E) (h2 : E ≤ 254) (hm : m < 2 ^ 23) :
    0 < valF (cbrtGuess (2 ^ 23 * E + m)) ∧
    0.968 ^ 3 * valF (2 ^ 23 * E + m) ≤ valF (cbrtGuess (2 ^ 23 * E + m)) ^ 3 ∧
    valF (cbrtGuess (2 ^ 23 * E + m)) ^ 3 ≤ 1.0335 ^ 3 * valF (2 ^ 23 * E + m) := by
  obtain ⟨k, j, rfl, hj⟩ : ∃ k j, E = 3 * k + j ∧ j < 3 := ⟨E / 3, E % 3, by omega, by omega⟩
  have hk : k ≤ 84 := by omega
  obtain ⟨Y, hY, hb⟩ := cbrtGuess_val hk hj hm
  rw [hY, valF_normal (by omega) hm]
  -- a common power of two
  have e1 : ((Y : ℝ) * 2 ^ ((k : ℤ) - 66)) ^ 3 =
      ((Y : ℝ) / 2 ^ 23) ^ 3 * (2 ^ (3 * (k : ℤ) - 129)) := by
    rw [mul_pow, div_pow, show (3 * (k : ℤ) - 129) = ((k : ℤ) - 66) * 3 + 69 by ring,
      zpow_add₀ (by norm_num : (2 : ℝ) ≠ 0), zpow_mul, zpow_ofNat, zpow_ofNat]
    field_simp
  have e2 : ((2 ^ 23 + m : Nat) : ℝ) * 2 ^ (((3 * k + j : Nat) : ℤ) - 150) =
      (4 * 2 ^ j * (1 + (m : ℝ) / 2 ^ 23)) * (2 ^ (3 * (k : ℤ) - 129)) := by
    rw [show ((3 * k + j : Nat) : ℤ) - 150 = (3 * (k : ℤ) - 129) + (j : ℤ) + (-21) by push_cast; ring,
      zpow_add₀ (by norm_num), zpow_add₀ (by norm_num), zpow_natCast]
    push_cast
    norm_num
    ring
  rw [e1, e2]
  have hp : (0 : ℝ) < 2 ^ (3 * (k : ℤ) - 129) := by positivity
  -- the real quantities
  have hm' : (m : ℝ) ≤ 2 ^ 23 := by exact_mod_cast hm.le
  have hk' : (k : ℝ) ≤ 84 := by exact_mod_cast hk
  obtain ⟨f, hf⟩ : ∃ f : ℝ, f = (m : ℝ) / 2 ^ 23 := ⟨_, rfl⟩
  obtain ⟨y, hy⟩ : ∃ y : ℝ, y = (Y : ℝ) / 2 ^ 23 := ⟨_, rfl⟩
  have hmf : (m : ℝ) = f * 2 ^ 23 := by rw [hf]; field_simp
  have hYy : (Y : ℝ) = y * 2 ^ 23 := by rw [hy]; field_simp
  rw [← hf, ← hy]
  have hf0 : 0 ≤ f := by rw [hf]; positivity
  have hf1 : f ≤ 1 := by rw [hf, div_le_one (by norm_num)]; exact hm'
  suffices hs : 0 < y ∧ 0.968 ^ 3 * (4 * 2 ^ j * (1 + f)) ≤ y ^ 3 ∧
      y ^ 3 ≤ 1.0335 ^ 3 * (4 * 2 ^ j * (1 + f)) from
    ⟨by rw [hYy]; have := hs.1; positivity, by
      rw [← mul_assoc]; exact mul_le_mul_of_nonneg_right hs.2.1 hp.le, by
      rw [← mul_assoc]; exact mul_le_mul_of_nonneg_right hs.2.2 hp.le⟩
  rcases hb with ⟨b0, b1, b2⟩ | ⟨b0, b1, b3, b2⟩
  · have c0 : (Y : ℝ) ≤ 2 ^ 24 := by exact_mod_cast b0.le
    have c1 : (65536 * Y : ℝ) ≤ 65536 * (2 ^ 23 + 5322656) + 2 ^ 23 * 21845 * j + 21845 * m := by
      exact_mod_cast b1
    have c2 : (65536 * (2 ^ 23 + 5322656) + 2 ^ 23 * 21845 * j + 21845 * m : ℝ) ≤
        65536 * Y + 2 ^ 23 * k + 262144 := by exact_mod_cast b2
    rw [hYy, hmf] at *
    rcases (by omega : j = 0 ∨ j = 1 ∨ j = 2) with rfl | rfl | rfl
    · push_cast at c1 c2
      have y0 : 1.6332 ≤ y := by linarith
      have y1 : y ≤ 1.968 := by linarith
      have t := cube_tangent (y := y) (c := 1.9) (by linarith) (by norm_num)
      have u := cube_chord (y := y) (a := 1.6332) (b := 1.968) (by norm_num) y0 y1
      norm_num at t u ⊢
      refine ⟨by linarith, by linarith, by linarith⟩
    · push_cast at c1 c2
      have y0 : 1.966 ≤ y := by linarith
      have t := cube_tangent (y := y) (c := 2) (by linarith) (by norm_num)
      have u := cube_chord (y := y) (a := 1.966) (b := 2) (by norm_num) y0 (by linarith)
      norm_num at t u ⊢
      refine ⟨by linarith, by linarith, by linarith⟩
    · push_cast at c1 c2
      linarith
  · obtain ⟨Z, rfl⟩ : ∃ Z, Y = 2 * Z := ⟨Y / 2, by omega⟩
    rw [Nat.mul_div_cancel_left _ (by norm_num)] at b1 b2
    obtain ⟨z, hz⟩ : ∃ z : ℝ, z = (Z : ℝ) / 2 ^ 23 := ⟨_, rfl⟩
    have hZz : (Z : ℝ) = z * 2 ^ 23 := by rw [hz]; field_simp
    have hyz : y = 2 * z := by rw [hy, hz]; push_cast; ring
    have c0 : (2 : ℝ) ^ 24 ≤ 2 * Z := by exact_mod_cast b0
    have c1 : (65536 * Z : ℝ) ≤ 65536 * 5322656 + 2 ^ 23 * 21845 * j + 21845 * m := by
      exact_mod_cast b1
    have c2 : (65536 * 5322656 + 2 ^ 23 * 21845 * j + 21845 * m : ℝ) ≤
        65536 * Z + 2 ^ 23 * k + 262144 := by exact_mod_cast b2
    rw [hZz, hmf] at *
    rw [hyz]
    rcases (by omega : j = 0 ∨ j = 1 ∨ j = 2) with rfl | rfl | rfl
    · push_cast at c1 c2
      linarith
    · push_cast at c1 c2
      have y0 : 1 ≤ z := by linarith
      have y1 : z ≤ 1.3013 := by linarith
      have t := cube_tangent (y := z) (c := 1) (by linarith) (by norm_num)
      have u := cube_chord (y := z) (a := 1) (b := 1.3013) (by norm_num) y0 y1
      rw [mul_pow]
      norm_num at t u ⊢
      refine ⟨by linarith, by linarith, by linarith⟩
    · push_cast at c1 c2
      have y0 : 1.2998 ≤ z := by linarith
      have y1 : z ≤ 1.6346 := by linarith
      have t := cube_tangent (y := z) (c := 1.45) (by linarith) (by norm_num)
      have u := cube_chord (y := z) (a := 1.2998) (b := 1.6346) (by norm_num) y0 y1
      rw [mul_pow]
      norm_num at t u ⊢
      refine ⟨by linarith, by linarith, by linarith⟩

/-- The guess of the square root. -/
theorem sqrtGuess_val {k j m : Nat} (hj : j < 2) (hm : m < 2 ^ 23) :
    ∃ Y : Nat, valF (sqrtGuess (2 ^ 23 * (2 * k + j) + m)) = (Y : ℝ) * 2 ^ ((k : ℤ) - 87) ∧
      ((Y < 2 ^ 24 ∧ Y = 2 ^ 23 + 3882880 + 2 ^ 22 * j + m / 2) ∨
       (2 ^ 24 ≤ Y ∧ Y = 2 * (3882880 + 2 ^ 22 * j + m / 2))) := by
  have hg : sqrtGuess (2 ^ 23 * (2 * k + j) + m) =
      2 ^ 23 * (63 + k) + (3882880 + 2 ^ 22 * j + m / 2) := by
    unfold sqrtGuess; omega
  rw [hg]
  obtain ⟨h, hh⟩ : ∃ h, 3882880 + 2 ^ 22 * j + m / 2 = h := ⟨_, rfl⟩
  rw [hh]
  by_cases hlt : h < 2 ^ 23
  · refine ⟨2 ^ 23 + h, ?_, Or.inl ⟨by omega, by omega⟩⟩
    rw [valF_normal (by omega) hlt]
    congr 2
    push_cast
    ring
  · obtain ⟨h', rfl⟩ : ∃ h', h = 2 ^ 23 + h' := ⟨h - 2 ^ 23, by omega⟩
    refine ⟨2 * (2 ^ 23 + h'), ?_, Or.inr ⟨by omega, by omega⟩⟩
    rw [show 2 ^ 23 * (63 + k) + (2 ^ 23 + h') = 2 ^ 23 * (64 + k) + h' by ring,
      valF_normal (by omega) (by omega)]
    rw [show ((64 + k : Nat) : ℤ) - 150 = ((k : ℤ) - 87) + 1 by push_cast; ring,
      zpow_add_one₀ (by norm_num)]
    push_cast
    ring

/-- The guess of the square root is within 3.55 percent, stated for the squares. -/
theorem sqrtGuess_square {E m : Nat} (h1 : 1 ≤ E) (hm : m < 2 ^ 23) :
    0 < valF (sqrtGuess (2 ^ 23 * E + m)) ∧
    0.9645 ^ 2 * valF (2 ^ 23 * E + m) ≤ valF (sqrtGuess (2 ^ 23 * E + m)) ^ 2 ∧
    valF (sqrtGuess (2 ^ 23 * E + m)) ^ 2 ≤ 1.035 ^ 2 * valF (2 ^ 23 * E + m) := by
  obtain ⟨k, j, rfl, hj⟩ : ∃ k j, E = 2 * k + j ∧ j < 2 := ⟨E / 2, E % 2, by omega, by omega⟩
  obtain ⟨Y, hY, hb⟩ := sqrtGuess_val (k := k) hj hm
  rw [hY, valF_normal (by omega) hm]
  have e1 : ((Y : ℝ) * 2 ^ ((k : ℤ) - 87)) ^ 2 =
      ((Y : ℝ) / 2 ^ 23) ^ 2 * (2 ^ (2 * (k : ℤ) - 128)) := by
    rw [mul_pow, div_pow, show (2 * (k : ℤ) - 128) = ((k : ℤ) - 87) * 2 + 46 by ring,
      zpow_add₀ (by norm_num : (2 : ℝ) ≠ 0), zpow_mul, zpow_ofNat, zpow_ofNat]
    field_simp
  have e2 : ((2 ^ 23 + m : Nat) : ℝ) * 2 ^ (((2 * k + j : Nat) : ℤ) - 150) =
      (2 * 2 ^ j * (1 + (m : ℝ) / 2 ^ 23)) * (2 ^ (2 * (k : ℤ) - 128)) := by
    rw [show ((2 * k + j : Nat) : ℤ) - 150 = (2 * (k : ℤ) - 128) + (j : ℤ) + (-22) by push_cast; ring,
      zpow_add₀ (by norm_num), zpow_add₀ (by norm_num), zpow_natCast]
    push_cast
    norm_num
    ring
  rw [e1, e2]
  have hp : (0 : ℝ) < 2 ^ (2 * (k : ℤ) - 128) := by positivity
  have hm' : (m : ℝ) ≤ 2 ^ 23 := by exact_mod_cast hm.le
  obtain ⟨f, hf⟩ : ∃ f : ℝ, f = (m : ℝ) / 2 ^ 23 := ⟨_, rfl⟩
  obtain ⟨y, hy⟩ : ∃ y : ℝ, y = (Y : ℝ) / 2 ^ 23 := ⟨_, rfl⟩
  have hmf : (m : ℝ) = f * 2 ^ 23 := by rw [hf]; field_simp
  have hYy : (Y : ℝ) = y * 2 ^ 23 := by rw [hy]; field_simp
  rw [← hf, ← hy]
  have hf0 : 0 ≤ f := by rw [hf]; positivity
  have hf1 : f ≤ 1 := by rw [hf, div_le_one (by norm_num)]; exact hm'
  suffices hs : 0 < y ∧ 0.9645 ^ 2 * (2 * 2 ^ j * (1 + f)) ≤ y ^ 2 ∧
      y ^ 2 ≤ 1.035 ^ 2 * (2 * 2 ^ j * (1 + f)) from
    ⟨by rw [hYy]; have := hs.1; positivity, by
      rw [← mul_assoc]; exact mul_le_mul_of_nonneg_right hs.2.1 hp.le, by
      rw [← mul_assoc]; exact mul_le_mul_of_nonneg_right hs.2.2 hp.le⟩
  have tangent : ∀ c z : ℝ, 2 * c * z - c ^ 2 ≤ z ^ 2 := fun c z => by nlinarith [sq_nonneg (z - c)]
  have chord : ∀ a b z : ℝ, a ≤ z → z ≤ b → z ^ 2 ≤ (a + b) * z - a * b := fun a b z h1 h2 => by
    nlinarith [mul_nonneg (sub_nonneg.2 h1) (sub_nonneg.2 h2)]
  rcases hb with ⟨b0, b1⟩ | ⟨b0, b1⟩
  · have c0 : (Y : ℝ) ≤ 2 ^ 24 := by exact_mod_cast b0.le
    have c1 : (2 * Y : ℝ) ≤ 2 ^ 24 + 2 * 3882880 + 2 ^ 23 * j + m := by
      exact_mod_cast (by omega : 2 * Y ≤ 2 ^ 24 + 2 * 3882880 + 2 ^ 23 * j + m)
    have c2 : (2 ^ 24 + 2 * 3882880 + 2 ^ 23 * j + m : ℝ) ≤ 2 * Y + 1 := by
      exact_mod_cast (by omega : 2 ^ 24 + 2 * 3882880 + 2 ^ 23 * j + m ≤ 2 * Y + 1)
    clear hy e1 hY hm'
    rw [hYy] at c0 c1 c2
    rw [hmf] at c1 c2
    rcases (by omega : j = 0 ∨ j = 1) with rfl | rfl
    · push_cast at c1 c2
      have t := tangent 1.9 y
      have u := chord 1.4628 1.963 y (by linarith) (by linarith)
      norm_num at t u ⊢
      refine ⟨by linarith, by linarith, by linarith⟩
    · push_cast at c1 c2
      have t := tangent 2 y
      have u := chord 1.962 2 y (by linarith) (by linarith)
      norm_num at t u ⊢
      refine ⟨by linarith, by linarith, by linarith⟩
  · obtain ⟨Z, rfl⟩ : ∃ Z, Y = 2 * Z := ⟨Y / 2, by omega⟩
    obtain ⟨z, hz⟩ : ∃ z : ℝ, z = (Z : ℝ) / 2 ^ 23 := ⟨_, rfl⟩
    have hZz : (Z : ℝ) = z * 2 ^ 23 := by rw [hz]; field_simp
    have hyz : y = 2 * z := by rw [hy, hz]; push_cast; ring
    have c0 : (2 : ℝ) ^ 24 ≤ 2 * Z := by exact_mod_cast b0
    have c1 : (2 * Z : ℝ) ≤ 2 * 3882880 + 2 ^ 23 * j + m := by
      exact_mod_cast (by omega : 2 * Z ≤ 2 * 3882880 + 2 ^ 23 * j + m)
    have c2 : (2 * 3882880 + 2 ^ 23 * j + m : ℝ) ≤ 2 * Z + 1 := by
      exact_mod_cast (by omega : 2 * 3882880 + 2 ^ 23 * j + m ≤ 2 * Z + 1)
    clear hy e1 hY hm'
    rw [hZz] at c0 c1 c2
    rw [hmf] at c1 c2
    rw [hyz]
    rcases (by omega : j = 0 ∨ j = 1) with rfl | rfl
    · push_cast at c1 c2
      linarith
    · push_cast at c1 c2
      have t := tangent 1 z
      have u := chord 1 1.463 z (by linarith) (by linarith)
      rw [mul_pow]
      norm_num at t u ⊢
      refine ⟨by linarith, by linarith, by linarith⟩

/-! ### Newton steps -/

/-- What is assumed of the rounding to `float`: half a unit in the last place in the normal range. -/
def IsFloatRounding (r : ℝ → ℝ) : Prop :=
  ∀ x, 2 ^ (-126 : ℤ) ≤ x → x ≤ 2 ^ (127 : ℤ) → |r x - x| ≤ 2 ^ (-24 : ℤ) * x

/-- Multiplicative form, with simpler constants. -/
theorem IsFloatRounding.mul {r : ℝ → ℝ} (hr : IsFloatRounding r) {x : ℝ}
    (h1 : 2 ^ (-126 : ℤ) ≤ x) (h2 : x ≤ 2 ^ (127 : ℤ)) :
    (1 - 6 / 10 ^ 8) * x ≤ r x ∧ r x ≤ (1 + 6 / 10 ^ 8) * x := by
  obtain ⟨a, b⟩ := abs_le.1 (hr x h1 h2)
  have hx : 0 < x := lt_of_lt_of_le (by positivity) h1
  have hu : (2 : ℝ) ^ (-24 : ℤ) ≤ 6 / 10 ^ 8 := by norm_num
  have := mul_le_mul_of_nonneg_right hu hx.le
  rw [sub_mul, add_mul, one_mul]
  clear h1 h2 hu hr
  generalize (2 : ℝ) ^ (-24 : ℤ) * x = u at *
  constructor <;> linarith

/-- One step of `acbrt1` in terms of the exact step: `x` is `ρ` times the root `s`. -/
theorem cbrtStep_near {r : ℝ → ℝ} (hr : IsFloatRounding r) {s ρ : ℝ} (hs1 : 2 ^ (-43 : ℤ) ≤ s)
    (hs2 : s ≤ 2 ^ (43 : ℤ)) (h1 : 0.9 ≤ ρ) (h2 : ρ ≤ 1.1) :
    (1 - 3 / 10 ^ 7) * ((2 * ρ + 1 / ρ ^ 2) / 3 * s) ≤ cbrtStep r (s ^ 3) (ρ * s) ∧
    cbrtStep r (s ^ 3) (ρ * s) ≤ (1 + 3 / 10 ^ 7) * ((2 * ρ + 1 / ρ ^ 2) / 3 * s) := by
  have hs : 0 < s := lt_of_lt_of_le (by positivity) hs1
  have hρ : 0 < ρ := by linarith
  have hσ : 0 < 1 / ρ ^ 2 := by positivity
  have hσ1 : 1 / ρ ^ 2 ≤ 2 := by
    rw [div_le_iff₀ (by positivity)]; nlinarith
  have hσ2 : 1 / 2 ≤ 1 / ρ ^ 2 := by
    rw [div_le_div_iff₀ (by norm_num) (by positivity)]; nlinarith
  -- crude ranges
  have s2a : (2 : ℝ) ^ (-86 : ℤ) ≤ s ^ 2 := by
    have := pow_le_pow_left₀ (by positivity) hs1 2
    refine le_trans (le_of_eq ?_) this
    rw [← zpow_natCast, ← zpow_mul]; norm_num
  have s2b : s ^ 2 ≤ (2 : ℝ) ^ (86 : ℤ) := by
    have := pow_le_pow_left₀ hs.le hs2 2
    refine le_trans this (le_of_eq ?_)
    rw [← zpow_natCast, ← zpow_mul]; norm_num
  have lo : ∀ c : ℝ, 1 / 8 ≤ c → 2 ^ (-126 : ℤ) ≤ c * s := fun c hc => by
    calc (2 : ℝ) ^ (-126 : ℤ) ≤ 1 / 8 * 2 ^ (-43 : ℤ) := by norm_num
      _ ≤ c * s := mul_le_mul hc hs1 (by positivity) (by linarith)
  have hi : ∀ c : ℝ, 0 ≤ c → c ≤ 8 → c * s ≤ 2 ^ (127 : ℤ) := fun c h0 hc => by
    calc c * s ≤ 8 * 2 ^ (43 : ℤ) := mul_le_mul hc hs2 hs.le (by norm_num)
      _ ≤ (2 : ℝ) ^ (127 : ℤ) := by norm_num
  -- the square
  obtain ⟨q, hq⟩ : ∃ q, r (ρ * s * (ρ * s)) = q := ⟨_, rfl⟩
  have hqq : ρ * s * (ρ * s) = ρ ^ 2 * s ^ 2 := by ring
  have b1 := hr.mul (x := ρ * s * (ρ * s))
    (by rw [hqq]
        calc (2 : ℝ) ^ (-126 : ℤ) ≤ 1 / 8 * 2 ^ (-86 : ℤ) := by norm_num
          _ ≤ ρ ^ 2 * s ^ 2 := mul_le_mul (by nlinarith) s2a (by positivity) (by positivity))
    (by rw [hqq]
        calc ρ ^ 2 * s ^ 2 ≤ 8 * 2 ^ (86 : ℤ) := mul_le_mul (by nlinarith) s2b (by positivity) (by norm_num)
          _ ≤ (2 : ℝ) ^ (127 : ℤ) := by norm_num)
  rw [hq, hqq] at b1
  have hq0 : 0 < q := lt_of_lt_of_le (by positivity) b1.1
  clear hs1 hs2 s2a s2b
  -- the quotient, as a multiple `κ` of the root
  obtain ⟨κ, hκ⟩ : ∃ κ, s ^ 3 / q = κ * s := ⟨s ^ 2 / q, by field_simp⟩
  have hκq : κ * q = s ^ 2 := by
    have : s ^ 3 / q * q = κ * s * q := by rw [hκ]
    rw [div_mul_cancel₀ _ hq0.ne'] at this
    have h3 : s * s ^ 2 = s * (κ * q) := by linarith [this, (by ring : s ^ 3 = s * s ^ 2), (by ring : κ * s * q = s * (κ * q))]
    exact (mul_left_cancel₀ hs.ne' h3).symm
  have hκ0 : 0 < κ := by
    by_contra h
    have : κ * q ≤ 0 := mul_nonpos_of_nonpos_of_nonneg (not_lt.1 h) hq0.le
    have : 0 < s ^ 2 := by positivity
    linarith
  have hs2p : 0 < s ^ 2 := by positivity
  have hσρ : 1 / ρ ^ 2 * ρ ^ 2 = 1 := by field_simp
  have k1 : (1 - 7 / 10 ^ 8) * (1 / ρ ^ 2) ≤ κ := by
    -- `κ ρ² (1 + u) ≥ 1`
    have h : s ^ 2 ≤ κ * ((1 + 6 / 10 ^ 8) * (ρ ^ 2 * s ^ 2)) := by
      rw [← hκq]; exact mul_le_mul_of_nonneg_left (by rw [hκq]; exact b1.2) hκ0.le
    have h' : 1 ≤ κ * (1 + 6 / 10 ^ 8) * ρ ^ 2 := by
      by_contra hc
      have : κ * (1 + 6 / 10 ^ 8) * ρ ^ 2 * s ^ 2 < 1 * s ^ 2 :=
        mul_lt_mul_of_pos_right (not_le.1 hc) hs2p
      linarith
    have h2 : 1 / ρ ^ 2 ≤ κ * (1 + 6 / 10 ^ 8) := by
      rw [div_le_iff₀ (by positivity)]; exact h'
    linarith
  have k2 : κ ≤ (1 + 7 / 10 ^ 8) * (1 / ρ ^ 2) := by
    have h : κ * ((1 - 6 / 10 ^ 8) * (ρ ^ 2 * s ^ 2)) ≤ s ^ 2 := by
      rw [← hκq]; exact mul_le_mul_of_nonneg_left (by rw [hκq]; exact b1.1) hκ0.le
    have h' : κ * (1 - 6 / 10 ^ 8) * ρ ^ 2 ≤ 1 := by
      by_contra hc
      have : 1 * s ^ 2 < κ * (1 - 6 / 10 ^ 8) * ρ ^ 2 * s ^ 2 :=
        mul_lt_mul_of_pos_right (not_le.1 hc) hs2p
      linarith
    have h2 : κ * (1 - 6 / 10 ^ 8) ≤ 1 / ρ ^ 2 := by
      rw [le_div_iff₀ (by positivity)]; exact h'
    linarith
  have b2 := hr.mul (x := κ * s) (lo _ (by linarith)) (hi _ hκ0.le (by linarith))
  have b3 := hr.mul (x := (2 * ρ) * s) (lo _ (by linarith)) (hi _ (by linarith) (by linarith))
  have e3 : 2 * (ρ * s) = (2 * ρ) * s := by ring
  unfold cbrtStep
  rw [hq, hκ, e3]
  obtain ⟨A, hA⟩ : ∃ A, r (κ * s) = A := ⟨_, rfl⟩
  obtain ⟨B, hB⟩ : ∃ B, r ((2 * ρ) * s) = B := ⟨_, rfl⟩
  rw [hA] at b2
  rw [hB] at b3
  rw [hA, hB]
  -- from now on in terms of `W s`
  obtain ⟨σ, hσd⟩ : ∃ σ, 1 / ρ ^ 2 = σ := ⟨_, rfl⟩
  rw [hσd] at k1 k2 hσ1 hσ2 hσ ⊢
  have m1 := mul_le_mul_of_nonneg_right k1 hs.le
  have m2 := mul_le_mul_of_nonneg_right k2 hs.le
  have pos1 : 0 < σ * s := by positivity
  have pos2 : 0 < ρ * s := by positivity
  have c1 : (1 - 14 / 10 ^ 8) * ((2 * ρ + σ) * s) ≤ B + A := by nlinarith [b2.1, b3.1]
  have c2 : B + A ≤ (1 + 14 / 10 ^ 8) * ((2 * ρ + σ) * s) := by nlinarith [b2.2, b3.2]
  obtain ⟨w, hw⟩ : ∃ w, B + A = w * s := ⟨(B + A) / s, by field_simp⟩
  rw [hw] at c1 c2 ⊢
  have w1 : (1 - 14 / 10 ^ 8) * (2 * ρ + σ) ≤ w := by
    rw [← mul_assoc] at c1; exact le_of_mul_le_mul_right c1 hs
  have w2 : w ≤ (1 + 14 / 10 ^ 8) * (2 * ρ + σ) := by
    rw [← mul_assoc] at c2; exact le_of_mul_le_mul_right c2 hs
  have b4 := hr.mul (x := w * s) (lo _ (by linarith)) (hi _ (by linarith) (by linarith))
  obtain ⟨v, hv⟩ : ∃ v, r (w * s) = v * s := ⟨r (w * s) / s, by field_simp⟩
  rw [hv] at b4 ⊢
  have v1 : (1 - 6 / 10 ^ 8) * w ≤ v := by
    have := b4.1; rw [← mul_assoc] at this; exact le_of_mul_le_mul_right this hs
  have v2 : v ≤ (1 + 6 / 10 ^ 8) * w := by
    have := b4.2; rw [← mul_assoc] at this; exact le_of_mul_le_mul_right this hs
  have t1 : (1 : ℝ) / 3 ≤ third := by unfold third; norm_num
  have t2 : third ≤ (1 + 3 / 10 ^ 8) / 3 := by unfold third; norm_num
  have e5 : third * (v * s) = (third * v) * s := by ring
  rw [e5]
  have v0 : 0 < v := by nlinarith
  have tv1 := mul_le_mul_of_nonneg_right t1 v0.le
  have tv2 := mul_le_mul_of_nonneg_right t2 v0.le
  have b5 := hr.mul (x := third * v * s) (lo _ (by linarith)) (hi _ (by linarith) (by linarith))
  have f1 : (1 - 3 / 10 ^ 7) * ((2 * ρ + σ) / 3) ≤ (1 - 6 / 10 ^ 8) * (third * v) := by linarith
  have f2 : (1 + 6 / 10 ^ 8) * (third * v) ≤ (1 + 3 / 10 ^ 7) * ((2 * ρ + σ) / 3) := by linarith
  have g1 := mul_le_mul_of_nonneg_right f1 hs.le
  have g2 := mul_le_mul_of_nonneg_right f2 hs.le
  constructor
  · linarith [b5.1]
  · linarith [b5.2]

/-- The exact step never undershoots. -/
theorem cbrt_newton_ge {ρ : ℝ} (h : 0 < ρ) : 1 ≤ (2 * ρ + 1 / ρ ^ 2) / 3 := by
  have e : (2 * ρ + 1 / ρ ^ 2) / 3 = (2 * ρ ^ 3 + 1) / (3 * ρ ^ 2) := by field_simp
  rw [e, le_div_iff₀ (by positivity)]
  nlinarith [mul_nonneg (sq_nonneg (ρ - 1)) (by linarith : 0 ≤ 2 * ρ + 1)]

/-- How far the exact step overshoots. -/
theorem cbrt_newton_le {ρ a b : ℝ} (h : 0 < ρ) (h1 : |ρ - 1| ≤ a)
    (h2 : a ^ 2 * (2 * ρ + 1) ≤ 3 * b * ρ ^ 2) : (2 * ρ + 1 / ρ ^ 2) / 3 ≤ 1 + b := by
  have e : (2 * ρ + 1 / ρ ^ 2) / 3 = (2 * ρ ^ 3 + 1) / (3 * ρ ^ 2) := by field_simp
  rw [e, div_le_iff₀ (by positivity)]
  have : (ρ - 1) ^ 2 ≤ a ^ 2 := sq_le_sq' (by linarith [(abs_le.1 h1).1]) (abs_le.1 h1).2
  nlinarith [mul_le_mul_of_nonneg_right this (by linarith : 0 ≤ 2 * ρ + 1)]

/-- The root of a normal number is well inside the range. -/
theorem valF_range {E m : ℕ} (hE : 1 ≤ E) (hE2 : E ≤ 254) (hm : m < 2 ^ 23) :
    2 ^ (-126 : ℤ) ≤ valF (2 ^ 23 * E + m) ∧ valF (2 ^ 23 * E + m) ≤ 2 ^ (128 : ℤ) := by
  rw [valF_normal (by omega) hm]
  have hm' : (m : ℝ) < 2 ^ 23 := by exact_mod_cast hm
  have f1 : (2 : ℝ) ^ 23 ≤ ((2 ^ 23 + m : ℕ) : ℝ) := by push_cast; linarith [Nat.cast_nonneg (α := ℝ) m]
  have f2 : ((2 ^ 23 + m : ℕ) : ℝ) ≤ (2 : ℝ) ^ 24 := by push_cast; linarith
  have z1 : (2 : ℝ) ^ (-149 : ℤ) ≤ 2 ^ ((E : ℤ) - 150) := zpow_le_zpow_right₀ (by norm_num) (by omega)
  have z2 : (2 : ℝ) ^ ((E : ℤ) - 150) ≤ 2 ^ (104 : ℤ) := zpow_le_zpow_right₀ (by norm_num) (by omega)
  constructor
  · calc (2 : ℝ) ^ (-126 : ℤ) = 2 ^ 23 * 2 ^ (-149 : ℤ) := by norm_num
      _ ≤ _ := mul_le_mul f1 z1 (by positivity) (by positivity)
  · calc _ ≤ (2 : ℝ) ^ 24 * 2 ^ (104 : ℤ) := mul_le_mul f2 z2 (by positivity) (by positivity)
      _ = _ := by norm_num

theorem cbrt_range {s x : ℝ} (hs : 0 < s) (h : s ^ 3 = x) (h1 : 2 ^ (-126 : ℤ) ≤ x)
    (h2 : x ≤ 2 ^ (128 : ℤ)) : 2 ^ (-43 : ℤ) ≤ s ∧ s ≤ 2 ^ (43 : ℤ) := by
  subst h
  constructor
  · by_contra hc
    have h3 := pow_lt_pow_left₀ (not_le.1 hc) hs.le (n := 3) (by norm_num)
    have h4 := lt_of_le_of_lt h1 h3
    norm_num at h4
  · by_contra hc
    have h3 := pow_lt_pow_left₀ (not_le.1 hc) (by positivity) (n := 3) (by norm_num)
    have h4 := lt_of_lt_of_le h3 h2
    norm_num at h4

/-- `acbrt1` against the exact root. -/
theorem acbrt1_near {r : ℝ → ℝ} (hr : IsFloatRounding r) {E m : ℕ} (hE : 1 ≤ E) (hE2 : E ≤ 254)
    (hm : m < 2 ^ 23) {s : ℝ} (hs : 0 < s) (h : s ^ 3 = valF (2 ^ 23 * E + m)) :
    (1 - 4 / 10 ^ 7) * s ≤ acbrt1 r (2 ^ 23 * E + m) ∧
    acbrt1 r (2 ^ 23 * E + m) ≤ (1 + 17 / 10 ^ 7) * s := by
  obtain ⟨g0, g1, g2⟩ := cbrtGuess_cube hE hE2 hm
  have hR := valF_range hE hE2 hm
  obtain ⟨r1, r2⟩ := cbrt_range hs h hR.1 hR.2
  clear hR
  unfold acbrt1
  rw [← h] at g1 g2 ⊢
  obtain ⟨ρ, hρ⟩ : ∃ ρ, valF (cbrtGuess (2 ^ 23 * E + m)) = ρ * s :=
    ⟨valF (cbrtGuess (2 ^ 23 * E + m)) / s, by field_simp⟩
  simp only [hρ] at g0 g1 g2 ⊢
  have ρ0 : 0 < ρ := by
    by_contra hc; exact absurd g0 (not_lt.2 (mul_nonpos_of_nonpos_of_nonneg (not_lt.1 hc) hs.le))
  rw [← mul_pow] at g1 g2
  have a1 : 0.968 ≤ ρ := by
    have := (pow_le_pow_iff_left₀ (by positivity) (by positivity) (by norm_num : 3 ≠ 0)).1 g1
    exact le_of_mul_le_mul_right this hs
  have a2 : ρ ≤ 1.0335 := by
    have := (pow_le_pow_iff_left₀ (by positivity) (by positivity) (by norm_num : 3 ≠ 0)).1 g2
    exact le_of_mul_le_mul_right this hs
  obtain ⟨b1, b2⟩ := cbrtStep_near hr r1 r2 (ρ := ρ) (by linarith) (by linarith)
  have t1 := cbrt_newton_ge ρ0
  have t2 : (2 * ρ + 1 / ρ ^ 2) / 3 ≤ 1 + 0.00115 := by
    rcases le_total 1 ρ with h1 | h1
    · exact cbrt_newton_le ρ0 (a := 0.0335) (abs_le.2 ⟨by linarith, by linarith⟩) (by nlinarith)
    · exact cbrt_newton_le ρ0 (a := 0.032) (abs_le.2 ⟨by linarith, by linarith⟩) (by nlinarith)
  obtain ⟨τ, hτ⟩ : ∃ τ, (2 * ρ + 1 / ρ ^ 2) / 3 = τ := ⟨_, rfl⟩
  rw [hτ] at b1 b2 t1 t2
  obtain ⟨μ, hμ⟩ : ∃ μ, cbrtStep r (s ^ 3) (ρ * s) = μ * s :=
    ⟨cbrtStep r (s ^ 3) (ρ * s) / s, by field_simp⟩
  rw [hμ] at b1 b2 ⊢
  rw [← mul_assoc] at b1 b2
  have u1 := le_of_mul_le_mul_right b1 hs
  have u2 := le_of_mul_le_mul_right b2 hs
  have v1 : 1 - 3 / 10 ^ 7 ≤ μ := by linarith
  have v2 : μ ≤ 1 + 0.001151 := by linarith
  obtain ⟨c1, c2⟩ := cbrtStep_near hr r1 r2 (ρ := μ) (by linarith) (by linarith)
  have μ0 : 0 < μ := by linarith
  have t3 := cbrt_newton_ge μ0
  have t4 : (2 * μ + 1 / μ ^ 2) / 3 ≤ 1 + 1.34 / 10 ^ 6 :=
    cbrt_newton_le μ0 (a := 0.001151) (abs_le.2 ⟨by linarith, by linarith⟩) (by nlinarith)
  clear r1 r2 b1 b2
  have w1 := mul_le_mul_of_nonneg_right t3 hs.le
  have w2 := mul_le_mul_of_nonneg_right t4 hs.le
  constructor
  · linarith
  · linarith

/-- One step of `asqrt1` in terms of the exact step. -/
theorem sqrtStep_near {r : ℝ → ℝ} (hr : IsFloatRounding r) {s ρ : ℝ} (hs1 : 2 ^ (-64 : ℤ) ≤ s)
    (hs2 : s ≤ 2 ^ (64 : ℤ)) (h1 : 0.9 ≤ ρ) (h2 : ρ ≤ 1.1) :
    (1 - 19 / 10 ^ 8) * ((ρ + 1 / ρ) / 2 * s) ≤ sqrtStep r (s ^ 2) (ρ * s) ∧
    sqrtStep r (s ^ 2) (ρ * s) ≤ (1 + 19 / 10 ^ 8) * ((ρ + 1 / ρ) / 2 * s) := by
  have hs : 0 < s := lt_of_lt_of_le (by positivity) hs1
  have hρ : 0 < ρ := by linarith
  have hσ1 : 1 / ρ ≤ 2 := by
    rw [div_le_iff₀ (by positivity)]; linarith
  have hσ2 : 1 / 2 ≤ 1 / ρ := by
    rw [div_le_div_iff₀ (by norm_num) (by positivity)]; linarith
  have lo : ∀ c : ℝ, 1 / 8 ≤ c → 2 ^ (-126 : ℤ) ≤ c * s := fun c hc => by
    calc (2 : ℝ) ^ (-126 : ℤ) ≤ 1 / 8 * 2 ^ (-64 : ℤ) := by norm_num
      _ ≤ c * s := mul_le_mul hc hs1 (by positivity) (by linarith)
  have hi : ∀ c : ℝ, 0 ≤ c → c ≤ 8 → c * s ≤ 2 ^ (127 : ℤ) := fun c h0 hc => by
    calc c * s ≤ 8 * 2 ^ (64 : ℤ) := mul_le_mul hc hs2 hs.le (by norm_num)
      _ ≤ (2 : ℝ) ^ (127 : ℤ) := by norm_num
  clear hs1 hs2
  have e1 : s ^ 2 / (ρ * s) = 1 / ρ * s := by field_simp
  unfold sqrtStep
  rw [e1]
  obtain ⟨σ, hσd⟩ : ∃ σ, 1 / ρ = σ := ⟨_, rfl⟩
  rw [hσd] at hσ1 hσ2 ⊢
  have b2 := hr.mul (x := σ * s) (lo _ (by linarith)) (hi _ (by linarith) (by linarith))
  obtain ⟨A, hA⟩ : ∃ A, r (σ * s) = A * s := ⟨r (σ * s) / s, by field_simp⟩
  rw [hA, ← mul_assoc, ← mul_assoc] at b2
  rw [hA, ← add_mul]
  have a1 := le_of_mul_le_mul_right b2.1 hs
  have a2 := le_of_mul_le_mul_right b2.2 hs
  have b3 := hr.mul (x := (ρ + A) * s) (lo _ (by linarith)) (hi _ (by linarith) (by linarith))
  obtain ⟨B, hB⟩ : ∃ B, r ((ρ + A) * s) = B * s := ⟨r ((ρ + A) * s) / s, by field_simp⟩
  rw [hB, ← mul_assoc, ← mul_assoc] at b3
  have c1 := le_of_mul_le_mul_right b3.1 hs
  have c2 := le_of_mul_le_mul_right b3.2 hs
  rw [hB, show (0.5 : ℝ) * (B * s) = 0.5 * B * s by ring]
  have b4 := hr.mul (x := 0.5 * B * s) (lo _ (by linarith)) (hi _ (by linarith) (by linarith))
  have f1 : (1 - 19 / 10 ^ 8) * ((ρ + σ) / 2) ≤ (1 - 6 / 10 ^ 8) * (0.5 * B) := by linarith
  have f2 : (1 + 6 / 10 ^ 8) * (0.5 * B) ≤ (1 + 19 / 10 ^ 8) * ((ρ + σ) / 2) := by linarith
  have g1 := mul_le_mul_of_nonneg_right f1 hs.le
  have g2 := mul_le_mul_of_nonneg_right f2 hs.le
  constructor
  · linarith [b4.1]
  · linarith [b4.2]

theorem sqrt_newton_ge {ρ : ℝ} (h : 0 < ρ) : 1 ≤ (ρ + 1 / ρ) / 2 := by
  have e : (ρ + 1 / ρ) / 2 = (ρ ^ 2 + 1) / (2 * ρ) := by field_simp
  rw [e, le_div_iff₀ (by positivity)]
  nlinarith [sq_nonneg (ρ - 1)]

theorem sqrt_newton_le {ρ a b : ℝ} (h : 0 < ρ) (h1 : |ρ - 1| ≤ a) (h2 : a ^ 2 ≤ 2 * b * ρ) :
    (ρ + 1 / ρ) / 2 ≤ 1 + b := by
  have e : (ρ + 1 / ρ) / 2 = (ρ ^ 2 + 1) / (2 * ρ) := by field_simp
  rw [e, div_le_iff₀ (by positivity)]
  have : (ρ - 1) ^ 2 ≤ a ^ 2 := sq_le_sq' (by linarith [(abs_le.1 h1).1]) (abs_le.1 h1).2
  nlinarith

theorem sqrt_range {s x : ℝ} (hs : 0 < s) (h : s ^ 2 = x) (h1 : 2 ^ (-126 : ℤ) ≤ x)
    (h2 : x ≤ 2 ^ (128 : ℤ)) : 2 ^ (-64 : ℤ) ≤ s ∧ s ≤ 2 ^ (64 : ℤ) := by
  subst h
  constructor
  · by_contra hc
    have h3 := pow_lt_pow_left₀ (not_le.1 hc) hs.le (n := 2) (by norm_num)
    have h4 := lt_of_le_of_lt h1 h3
    norm_num at h4
  · by_contra hc
    have h3 := pow_lt_pow_left₀ (not_le.1 hc) (by positivity) (n := 2) (by norm_num)
    have h4 := lt_of_lt_of_le h3 h2
    norm_num at h4

/-- `asqrt1` against the exact root. -/
theorem asqrt1_near {r : ℝ → ℝ} (hr : IsFloatRounding r) {E m : ℕ} (hE : 1 ≤ E) (hE2 : E ≤ 254)
    (hm : m < 2 ^ 23) {s : ℝ} (hs : 0 < s) (h : s ^ 2 = valF (2 ^ 23 * E + m)) :
    (1 - 2 / 10 ^ 7) * s ≤ asqrt1 r (2 ^ 23 * E + m) ∧
    asqrt1 r (2 ^ 23 * E + m) ≤ (1 + 5 / 10 ^ 7) * s := by
  obtain ⟨g0, g1, g2⟩ := sqrtGuess_square hE hm
  have hR := valF_range hE hE2 hm
  obtain ⟨r1, r2⟩ := sqrt_range hs h hR.1 hR.2
  clear hR
  unfold asqrt1
  rw [← h] at g1 g2 ⊢
  obtain ⟨ρ, hρ⟩ : ∃ ρ, valF (sqrtGuess (2 ^ 23 * E + m)) = ρ * s :=
    ⟨valF (sqrtGuess (2 ^ 23 * E + m)) / s, by field_simp⟩
  simp only [hρ] at g0 g1 g2 ⊢
  have ρ0 : 0 < ρ := by
    by_contra hc; exact absurd g0 (not_lt.2 (mul_nonpos_of_nonpos_of_nonneg (not_lt.1 hc) hs.le))
  rw [← mul_pow] at g1 g2
  have a1 : 0.9645 ≤ ρ := by
    have := (pow_le_pow_iff_left₀ (by positivity) (by positivity) (by norm_num : 2 ≠ 0)).1 g1
    exact le_of_mul_le_mul_right this hs
  have a2 : ρ ≤ 1.035 := by
    have := (pow_le_pow_iff_left₀ (by positivity) (by positivity) (by norm_num : 2 ≠ 0)).1 g2
    exact le_of_mul_le_mul_right this hs
  obtain ⟨b1, b2⟩ := sqrtStep_near hr r1 r2 (ρ := ρ) (by linarith) (by linarith)
  have t1 := sqrt_newton_ge ρ0
  have t2 : (ρ + 1 / ρ) / 2 ≤ 1 + 0.000654 := by
    rcases le_total 1 ρ with h1 | h1
    · exact sqrt_newton_le ρ0 (a := ρ - 1) (abs_le.2 ⟨by linarith, by linarith⟩) (by nlinarith)
    · exact sqrt_newton_le ρ0 (a := 1 - ρ) (abs_le.2 ⟨by linarith, by linarith⟩) (by nlinarith)
  obtain ⟨τ, hτ⟩ : ∃ τ, (ρ + 1 / ρ) / 2 = τ := ⟨_, rfl⟩
  rw [hτ] at b1 b2 t1 t2
  obtain ⟨μ, hμ⟩ : ∃ μ, sqrtStep r (s ^ 2) (ρ * s) = μ * s :=
    ⟨sqrtStep r (s ^ 2) (ρ * s) / s, by field_simp⟩
  rw [hμ] at b1 b2 ⊢
  rw [← mul_assoc] at b1 b2
  have u1 := le_of_mul_le_mul_right b1 hs
  have u2 := le_of_mul_le_mul_right b2 hs
  have v1 : 1 - 19 / 10 ^ 8 ≤ μ := by linarith
  have v2 : μ ≤ 1 + 0.000655 := by linarith
  obtain ⟨c1, c2⟩ := sqrtStep_near hr r1 r2 (ρ := μ) (by linarith) (by linarith)
  have μ0 : 0 < μ := by linarith
  have t3 := sqrt_newton_ge μ0
  have t4 : (μ + 1 / μ) / 2 ≤ 1 + 2.15 / 10 ^ 7 :=
    sqrt_newton_le μ0 (a := 0.000655) (abs_le.2 ⟨by linarith, by linarith⟩) (by nlinarith)
  clear r1 r2 b1 b2
  have w1 := mul_le_mul_of_nonneg_right t3 hs.le
  have w2 := mul_le_mul_of_nonneg_right t4 hs.le
  constructor
  · linarith
  · linarith

end CpSZ.Roots
