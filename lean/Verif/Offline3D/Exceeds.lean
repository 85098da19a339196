import Verif.Offline3D.Binary32
/-
The bound computed with approximate roots can exceed the bound with exact roots.
-/

namespace CpSZ.Offline3D
open ThreeD Offline2D Roots

theorem newton_lo {ρ a : ℝ} (ha : 0 ≤ a) (h1 : 1 + a ≤ ρ) (h2 : ρ ≤ 1.0335) :
    1 + 0.956 * a ^ 2 ≤ (2 * ρ + 1 / ρ ^ 2) / 3 := by
  have h0 : 0 < ρ := by linarith
  have e : (2 * ρ + 1 / ρ ^ 2) / 3 = 1 + (ρ - 1) ^ 2 * ((2 * ρ + 1) / (3 * ρ ^ 2)) := by
    field_simp; ring
  have f : 0.956 ≤ (2 * ρ + 1) / (3 * ρ ^ 2) := by
    rw [le_div_iff₀ (by positivity)]; nlinarith
  have g : a ^ 2 ≤ (ρ - 1) ^ 2 := by nlinarith
  rw [e]
  have := mul_le_mul g f (by norm_num) (by positivity)
  linarith

theorem newton_lo' {ρ a : ℝ} (ha : 0 ≤ a) (h1 : 1 + a ≤ ρ) (h2 : ρ ≤ 1.0012) :
    1 + 0.998 * a ^ 2 ≤ (2 * ρ + 1 / ρ ^ 2) / 3 := by
  have h0 : 0 < ρ := by linarith
  have e : (2 * ρ + 1 / ρ ^ 2) / 3 = 1 + (ρ - 1) ^ 2 * ((2 * ρ + 1) / (3 * ρ ^ 2)) := by
    field_simp; ring
  have f : 0.998 ≤ (2 * ρ + 1) / (3 * ρ ^ 2) := by
    rw [le_div_iff₀ (by positivity)]; nlinarith
  have g : a ^ 2 ≤ (ρ - 1) ^ 2 := by nlinarith
  rw [e]
  have := mul_le_mul g f (by norm_num) (by positivity)
  linarith

/-- Two steps from a guess that is 3% too large. -/
theorem two_steps_lo {r : ℝ → ℝ} (hr : IsFloatRounding r) {s ρ : ℝ} (hs1 : 2 ^ (-43 : ℤ) ≤ s)
    (hs2 : s ≤ 2 ^ (43 : ℤ)) (h1 : 1.0322 ≤ ρ) (h2 : ρ ≤ 1.0335) :
    (1 + 67 / 10 ^ 8) * s ≤ cbrtStep r (s ^ 3) (cbrtStep r (s ^ 3) (ρ * s)) := by
  have hs : 0 < s := lt_of_lt_of_le (by positivity) hs1
  have ρ0 : 0 < ρ := by linarith
  obtain ⟨b1, b2⟩ := cbrtStep_near hr hs1 hs2 (ρ := ρ) (by linarith) (by linarith)
  have t1 := newton_lo (a := 0.0322) (by norm_num) (by linarith) h2
  have t2 : (2 * ρ + 1 / ρ ^ 2) / 3 ≤ 1 + 0.00115 :=
    cbrt_newton_le ρ0 (a := 0.0335) (abs_le.2 ⟨by linarith, by linarith⟩) (by nlinarith)
  obtain ⟨τ, hτ⟩ : ∃ τ, (2 * ρ + 1 / ρ ^ 2) / 3 = τ := ⟨_, rfl⟩
  rw [hτ] at b1 b2 t1 t2
  obtain ⟨μ, hμ⟩ : ∃ μ, cbrtStep r (s ^ 3) (ρ * s) = μ * s :=
    ⟨cbrtStep r (s ^ 3) (ρ * s) / s, by field_simp⟩
  rw [hμ] at b1 b2 ⊢
  rw [← mul_assoc] at b1 b2
  have u1 := le_of_mul_le_mul_right b1 hs
  have u2 := le_of_mul_le_mul_right b2 hs
  have v1 : 1 + 0.00099 ≤ μ := by linarith
  have v2 : μ ≤ 1.0012 := by linarith
  obtain ⟨c1, -⟩ := cbrtStep_near hr hs1 hs2 (ρ := μ) (by linarith) (by linarith)
  have t3 := newton_lo' (by norm_num) v1 v2
  clear hs1 hs2 b1 b2
  have w1 := mul_le_mul_of_nonneg_right t3 hs.le
  linarith

/-- Two steps from a guess good to one in a thousand. -/
theorem two_steps_hi {r : ℝ → ℝ} (hr : IsFloatRounding r) {s ρ : ℝ} (hs1 : 2 ^ (-43 : ℤ) ≤ s)
    (hs2 : s ≤ 2 ^ (43 : ℤ)) (h1 : 0.999 ≤ ρ) (h2 : ρ ≤ 1.001) :
    cbrtStep r (s ^ 3) (cbrtStep r (s ^ 3) (ρ * s)) ≤ (1 + 31 / 10 ^ 8) * s := by
  have hs : 0 < s := lt_of_lt_of_le (by positivity) hs1
  have ρ0 : 0 < ρ := by linarith
  obtain ⟨b1, b2⟩ := cbrtStep_near hr hs1 hs2 (ρ := ρ) (by linarith) (by linarith)
  have t1 := cbrt_newton_ge ρ0
  have t2 : (2 * ρ + 1 / ρ ^ 2) / 3 ≤ 1 + 0.000002 :=
    cbrt_newton_le ρ0 (a := 0.001) (abs_le.2 ⟨by linarith, by linarith⟩) (by nlinarith)
  obtain ⟨τ, hτ⟩ : ∃ τ, (2 * ρ + 1 / ρ ^ 2) / 3 = τ := ⟨_, rfl⟩
  rw [hτ] at b1 b2 t1 t2
  obtain ⟨μ, hμ⟩ : ∃ μ, cbrtStep r (s ^ 3) (ρ * s) = μ * s :=
    ⟨cbrtStep r (s ^ 3) (ρ * s) / s, by field_simp⟩
  rw [hμ] at b1 b2 ⊢
  rw [← mul_assoc] at b1 b2
  have u1 := le_of_mul_le_mul_right b1 hs
  have u2 := le_of_mul_le_mul_right b2 hs
  have v1 : 1 - 3 / 10 ^ 7 ≤ μ := by linarith
  have v2 : μ ≤ 1 + 0.000003 := by linarith
  have μ0 : 0 < μ := by linarith
  obtain ⟨-, c2⟩ := cbrtStep_near hr hs1 hs2 (ρ := μ) (by linarith) (by linarith)
  have t4 : (2 * μ + 1 / μ ^ 2) / 3 ≤ 1 + 1 / 10 ^ 9 :=
    cbrt_newton_le μ0 (a := 0.000003) (abs_le.2 ⟨by linarith, by linarith⟩) (by nlinarith)
  clear hs1 hs2 b1 b2
  have w2 := mul_le_mul_of_nonneg_right t4 hs.le
  linarith

theorem valF_inj {i j : Nat} (h : valF i = valF j) : i = j := by
  have mono : ∀ {i j : Nat}, i < j → valF i < valF j := by
    intro i j h
    have step : ∀ k : Nat, valF k < valF (k + 1) := by
      intro k
      unfold valF
      have hz : ∀ e : ℤ, (0 : ℝ) < 2 ^ e := fun e => by positivity
      by_cases hc : k % 2 ^ 23 = 2 ^ 23 - 1
      · have e1 : (k + 1) / 2 ^ 23 = k / 2 ^ 23 + 1 := by omega
        have e2 : (k + 1) % 2 ^ 23 = 0 := by omega
        have en : ¬ (k / 2 ^ 23 + 1 = 0) := by omega
        rw [e1, e2, if_neg en]
        by_cases h0 : k / 2 ^ 23 = 0
        · have hk : k = 2 ^ 23 - 1 := by omega
          rw [if_pos h0, h0, hk]
          norm_num
        · rw [if_neg h0, hc]
          generalize k / 2 ^ 23 = K
          push_cast
          rw [show (K : ℤ) + 1 - 150 = (K : ℤ) - 150 + 1 by ring, zpow_add_one₀ (by norm_num)]
          have := hz ((K : ℤ) - 150)
          nlinarith
      · have e1 : (k + 1) / 2 ^ 23 = k / 2 ^ 23 := by omega
        have e2 : (k + 1) % 2 ^ 23 = k % 2 ^ 23 + 1 := by omega
        rw [e1, e2]
        split
        · refine mul_lt_mul_of_pos_right ?_ (hz _)
          push_cast; linarith
        · refine mul_lt_mul_of_pos_right ?_ (hz _)
          push_cast; linarith
    exact strictMono_nat_of_lt_succ step h
  rcases lt_trichotomy i j with g | g | g
  · exact absurd h (mono g).ne
  · exact g
  · exact absurd h (mono g).ne'

/-- The pattern of a `float` value. -/
theorem pat_valF {i : Nat} (hi : i < 255 * 2 ^ 23) : pat (valF i) = i := by
  obtain ⟨-, h2⟩ := pat_spec ⟨i, hi, rfl⟩
  exact valF_inj h2

/-- The values 2 and 13/8. -/
theorem keepA_exceeds {r : ℝ → ℝ} (h : IsBinary32 r) : keep3 2 (13 / 8) < keepA r 2 (13 / 8) := by
  have v2 : valF (2 ^ 23 * 128 + 0) = 2 := by
    have := valF_of (E := 128) (n := 2 ^ 23) (by norm_num) (by norm_num) (by norm_num)
    rw [show 2 ^ 23 - 2 ^ 23 = 0 by norm_num] at this
    rw [this]; norm_num
  have v13 : valF (2 ^ 23 * 127 + 5242880) = 13 / 8 := by
    have := valF_of (E := 127) (n := 2 ^ 23 + 5242880) (by norm_num) (by norm_num) (by norm_num)
    rw [show 2 ^ 23 + 5242880 - 2 ^ 23 = 5242880 by norm_num] at this
    rw [this]; norm_num
  have p2 : pat 2 = 2 ^ 23 * 128 + 0 := by rw [← v2]; exact pat_valF (by norm_num)
  have p13 : pat (13 / 8) = 2 ^ 23 * 127 + 5242880 := by rw [← v13]; exact pat_valF (by norm_num)
  have g2 : valF (cbrtGuess (2 ^ 23 * 128 + 0)) = 10909600 / 2 ^ 23 := by
    rw [show cbrtGuess (2 ^ 23 * 128 + 0) = 2 ^ 23 * 127 + (10909600 - 2 ^ 23) by decide,
      valF_of (by norm_num) (by norm_num) (by norm_num)]
    norm_num
  have g13 : valF (cbrtGuess (2 ^ 23 * 127 + 5242880)) = 9861040 / 2 ^ 23 := by
    rw [show cbrtGuess (2 ^ 23 * 127 + 5242880) = 2 ^ 23 * 127 + (9861040 - 2 ^ 23) by decide,
      valF_of (by norm_num) (by norm_num) (by norm_num)]
    norm_num
  have hs := root_pos (x := 2) (by norm_num)
  have ht := root_pos (x := 13 / 8) (by norm_num)
  have cs := root_cube (x := 2) (by norm_num)
  have ct := root_cube (x := 13 / 8) (by norm_num)
  unfold keepA keep3
  rw [p2, p13]
  generalize root 3 2 = s at *
  generalize root 3 (13 / 8) = t at *
  have s1 : 1.2599 ≤ s := le_of_pow_le_pow_left₀ (n := 3) (by norm_num) hs.le (by rw [cs]; norm_num)
  have s2 : s ≤ 1.25993 := le_of_pow_le_pow_left₀ (n := 3) (by norm_num) (by norm_num) (by rw [cs]; norm_num)
  have t1 : 1.1756 ≤ t := le_of_pow_le_pow_left₀ (n := 3) (by norm_num) ht.le (by rw [ct]; norm_num)
  have t2 : t ≤ 1.1757 := le_of_pow_le_pow_left₀ (n := 3) (by norm_num) (by norm_num) (by rw [ct]; norm_num)
  have z1 : (2 : ℝ) ^ (-43 : ℤ) ≤ 1 := by norm_num
  have z2 : (2 : ℝ) ≤ 2 ^ (43 : ℤ) := by norm_num
  have P1 : (1 + 67 / 10 ^ 8) * s ≤ acbrt1 r (2 ^ 23 * 128 + 0) := by
    have := two_steps_lo h.fr (s := s) (ρ := 10909600 / 2 ^ 23 / s) (z1.trans (by linarith))
      (le_trans (by linarith) z2) (by rw [le_div_iff₀ hs]; norm_num; linarith)
      (by rw [div_le_iff₀ hs]; norm_num; linarith)
    rw [div_mul_cancel₀ _ hs.ne', cs] at this
    unfold acbrt1
    rw [v2, g2]
    exact this
  have N1 : acbrt1 r (2 ^ 23 * 127 + 5242880) ≤ (1 + 31 / 10 ^ 8) * t := by
    have := two_steps_hi h.fr (s := t) (ρ := 9861040 / 2 ^ 23 / t) (z1.trans (by linarith))
      (le_trans (by linarith) z2) (by rw [le_div_iff₀ ht]; norm_num; linarith)
      (by rw [div_le_iff₀ ht]; norm_num; linarith)
    rw [div_mul_cancel₀ _ ht.ne', ct] at this
    unfold acbrt1
    rw [v13, g13]
    exact this
  have P2 : acbrt1 r (2 ^ 23 * 128 + 0) ≤ 1.27 := by
    have := (acbrt1_near h.fr (E := 128) (m := 0) (by norm_num) (by norm_num) (by norm_num) hs
      (by rw [v2, cs])).2
    linarith
  have N2 : 1.17 ≤ acbrt1 r (2 ^ 23 * 127 + 5242880) := by
    have := (acbrt1_near h.fr (E := 127) (m := 5242880) (by norm_num) (by norm_num) (by norm_num) ht
      (by rw [v13, ct])).1
    linarith
  clear z1 z2 p2 p13 v2 v13 g2 g13
  generalize acbrt1 r (2 ^ 23 * 128 + 0) = P at *
  generalize acbrt1 r (2 ^ 23 * 127 + 5242880) = N at *
  have hPN : 0 < P - N := by linarith
  have hsum : 0 < P + N := by linarith
  unfold ratio
  have a1 := (h.bd hPN.le).1
  have a2 := (h.bd hsum.le).2
  have a0 : 0 < r (P - N) := lt_of_lt_of_le (mul_pos (by norm_num) hPN) a1
  have a3 : 0 < r (P + N) := lt_of_lt_of_le (mul_pos (by norm_num) hsum) (h.bd hsum.le).1
  rw [abs_of_pos a0, abs_of_pos (by linarith : 0 < s - t)]
  have a4 := (h.bd (div_pos a0 a3).le).1
  refine lt_of_lt_of_le ?_ a4
  have a5 : (1 - 13 / 10 ^ 8) * ((P - N) / (P + N)) ≤ r (P - N) / r (P + N) := by
    rw [le_div_iff₀ a3]
    have e : (1 - 13 / 10 ^ 8 : ℝ) * ((P - N) / (P + N)) * ((1 + 6 / 10 ^ 8) * (P + N)) =
        (1 - 13 / 10 ^ 8) * (1 + 6 / 10 ^ 8) * (P - N) := by field_simp
    have := mul_le_mul_of_nonneg_left a2
      (mul_nonneg (by norm_num : (0 : ℝ) ≤ 1 - 13 / 10 ^ 8) (div_pos hPN hsum).le)
    rw [e] at this
    refine this.trans (le_trans ?_ a1)
    exact mul_le_mul_of_nonneg_right (by norm_num) hPN.le
  have a6 : (s - t) / (s + t) < (1 - 2 / 10 ^ 7) * ((P - N) / (P + N)) := by
    rw [mul_div_assoc', div_lt_div_iff₀ (by linarith) hsum]
    have c1 : (1 + 67 / 10 ^ 8) * s * (2 * t - 2 / 10 ^ 7 * (s + t)) ≤
        P * (2 * t - 2 / 10 ^ 7 * (s + t)) := mul_le_mul_of_nonneg_right P1 (by linarith)
    have c2 : N * (2 * s - 2 / 10 ^ 7 * (s + t)) ≤
        (1 + 31 / 10 ^ 8) * t * (2 * s - 2 / 10 ^ 7 * (s + t)) :=
      mul_le_mul_of_nonneg_right N1 (by linarith)
    have c3 : (1.2599 : ℝ) * 1.1756 ≤ s * t := mul_le_mul s1 t1 (by norm_num) (by linarith)
    nlinarith [mul_nonneg (sub_nonneg.2 s1) (sub_nonneg.2 t1)]
  have a7 := div_pos hPN hsum
  have : (1 - 2 / 10 ^ 7) * ((P - N) / (P + N)) ≤ (1 - 6 / 10 ^ 8) * (r (P - N) / r (P + N)) := by
    have := mul_le_mul_of_nonneg_left a5 (by norm_num : (0 : ℝ) ≤ 1 - 6 / 10 ^ 8)
    refine le_trans ?_ this
    rw [← mul_assoc]
    exact mul_le_mul_of_nonneg_right (by norm_num) a7.le
  linarith

end CpSZ.Offline3D
