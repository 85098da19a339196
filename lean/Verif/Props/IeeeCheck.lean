import Verif.Props.IeeeRelax
/-
Property C103: `check_cp` in IEEE-754 arithmetic against the exact geometry.
-/

namespace CpSZ.Ieee
open CpSZ.Online2D CpSZ.Mesh2D

section
variable {F : Fmt}

theorem rep_scaled (hp : 24 ≤ F.p) {n k : Int} (h : |n| ≤ 2 ^ 22) (h1 : F.umin ≤ k)
    (h2 : k + 22 ≤ F.emax) : Rep F (n * p2 k) := by
  refine ⟨n, k, rfl, h.trans (pow_le_pow_right₀ (by norm_num) (by omega)), h1, ?_⟩
  have hn : (|n| : ℚ) ≤ p2 22 := by
    rw [show (22 : Int) = ((22 : Nat) : Int) from rfl, p2_nat]
    exact_mod_cast h
  rw [abs_mul, abs_of_pos (p2_pos k)]
  calc |(n : ℚ)| * p2 k ≤ p2 22 * p2 k := mul_le_mul_of_nonneg_right hn (p2_pos k).le
    _ = p2 (k + 22) := by rw [← p2_add, add_comm]
    _ < p2 (F.emax + 1) := p2_lt (by omega)

theorem sub_int (hF : F.Ok) (hp : 24 ≤ F.p) {k : Int} (h1 : F.umin ≤ k) (h2 : k + 22 ≤ F.emax)
    {a b : Pat F} {x y : Int} (ha : dec F a = .fin (x * p2 k))
    (hb : dec F b = .fin (y * p2 k)) (h : |x - y| ≤ 2 ^ 22) :
    dec F (bsub F a b) = .fin ((x - y : Int) * p2 k) := by
  rw [dec_sub hF, ha, hb, sub_fin, ← sub_mul, ← Int.cast_sub]
  exact round_rep hF (rep_scaled hp h h1 h2)

theorem mul_int (hF : F.Ok) (hp : 24 ≤ F.p) {k : Int} (h1 : F.umin ≤ 2 * k)
    (h2 : 2 * k + 22 ≤ F.emax) {a b : Pat F} {x y : Int} (ha : dec F a = .fin (x * p2 k))
    (hb : dec F b = .fin (y * p2 k)) (h : |x * y| ≤ 2 ^ 22) :
    dec F (bmul F a b) = .fin ((x * y : Int) * p2 (2 * k)) := by
  unfold bmul
  refine (dec_enc hF _ (val_mul _ _)).trans ?_
  rw [ha, hb]
  change round F ((x : ℚ) * p2 k * (y * p2 k)) = _
  rw [show (x : ℚ) * p2 k * (y * p2 k) = ((x * y : Int) : ℚ) * p2 (2 * k) by
    rw [two_mul, p2_add]; push_cast; ring]
  exact round_rep hF (rep_scaled hp h h1 h2)

theorem neg_int (hF : F.Ok) {k : Int} {a : Pat F} {x : Int} (ha : dec F a = .fin (x * p2 k)) :
    dec F (bneg F a) = .fin ((-x : Int) * p2 k) := by
  rw [dec_neg hF, ha, Int.cast_neg, neg_mul]; rfl

theorem prod_le {x y : Int} (hx : |x| ≤ 2 ^ 10) (hy : |y| ≤ 2 ^ 10) : |x * y| ≤ 2 ^ 20 := by
  rw [abs_mul]
  calc |x| * |y| ≤ 2 ^ 10 * 2 ^ 10 := mul_le_mul hx hy (abs_nonneg _) (by norm_num)
    _ = 2 ^ 20 := by norm_num

theorem div_num (hF : F.Ok) {a b : Pat F} {x y : ℚ} (ha : dec F a = .fin x) (hb : dec F b = .fin y)
    (hy : y ≠ 0) : dec F (bdiv F a b) = round F (x / y) := by
  unfold bdiv
  rw [ha, hb]
  simp only [hy, if_false]
  exact dec_enc hF _ (val_round _)

theorem div_zero_num (hF : F.Ok) {a b : Pat F} {x : ℚ} (ha : dec F a = .fin x)
    (hb : dec F b = .fin 0) : dec F (bdiv F a b) = .nan ∨ ∃ s, dec F (bdiv F a b) = .inf s := by
  unfold bdiv
  rw [ha, hb]
  simp only [if_true]
  split
  · exact Or.inl (dec_enc hF _ trivial)
  · exact Or.inr ⟨_, dec_enc hF _ trivial⟩

/-- Twice the area spanned by three vectors. -/
def area (u0 v0 u1 v1 u2 v2 : Int) : Int := (u0 - u2) * (v1 - v2) - (v0 - v2) * (u1 - u2)

/-- The numbers that `check_cp` computes for integers, times a power of two, if the
determinant is not zero. -/
theorem chk_values (hF : F.Ok) (hp : 24 ≤ F.p) (hp64 : F.p ≤ binary64.p) (hu : binary64.umin ≤ F.umin)
    (he : F.emax ≤ binary64.emax) {p q w : Pat F × Pat F} {u0 v0 u1 v1 u2 v2 k : Int}
    (hk1 : F.umin ≤ 2 * k) (hk2 : 2 * k + 22 ≤ F.emax)
    (hp0 : dec F p.1 = .fin (u0 * p2 k) ∧ dec F p.2 = .fin (v0 * p2 k))
    (hq : dec F q.1 = .fin (u1 * p2 k) ∧ dec F q.2 = .fin (v1 * p2 k))
    (hw : dec F w.1 = .fin (u2 * p2 k) ∧ dec F w.2 = .fin (v2 * p2 k))
    (hb : |u0| ≤ 512 ∧ |v0| ≤ 512 ∧ |u1| ≤ 512 ∧ |v1| ≤ 512 ∧ |u2| ≤ 512 ∧ |v2| ≤ 512) :
    (area u0 v0 u1 v1 u2 v2 = 0 → chkBits F p q w = false) ∧
    (area u0 v0 u1 v1 u2 v2 ≠ 0 → |area u0 v0 u1 v1 u2 v2| ≤ 2 ^ 21 ∧ ∃ X0 X1 Y Z X2 : ℚ,
      round F (((u1 * v2 - u2 * v1 : Int) : ℚ) / (area u0 v0 u1 v1 u2 v2 : Int)) = .fin X0 ∧
      round F (((u2 * v0 - u0 * v2 : Int) : ℚ) / (area u0 v0 u1 v1 u2 v2 : Int)) = .fin X1 ∧
      round binary64 (1 - X0) = .fin Y ∧ round binary64 (Y - X1) = .fin Z ∧ round F Z = .fin X2 ∧
      (chkBits F p q w = true ↔ (0 ≤ X0 ∧ X0 ≤ 1) ∧ (0 ≤ X1 ∧ X1 ≤ 1) ∧ 0 ≤ X2 ∧ X2 ≤ 1)) := by
  obtain ⟨b1, b2, b3, b4, b5, b6⟩ := hb
  have d : ∀ {x y : Int}, |x| ≤ 512 → |y| ≤ 512 → |x - y| ≤ 2 ^ 10 := by
    intro x y hx hy
    rw [abs_le] at *
    constructor <;> omega
  have n : ∀ {x : Int}, |x| ≤ 512 → |-x| ≤ 2 ^ 10 := by
    intro x hx
    rw [abs_neg]; exact hx.trans (by norm_num)
  have s : ∀ {x y : Int}, |x| ≤ 2 ^ 20 → |y| ≤ 2 ^ 20 → |x - y| ≤ 2 ^ 21 := by
    intro x y hx hy
    rw [abs_le] at *
    constructor <;> omega
  have k0 : ∀ {x : Int}, |x| ≤ 2 ^ 10 → |x| ≤ 2 ^ 22 := fun h => h.trans (by norm_num)
  have k1 : ∀ {x : Int}, |x| ≤ 2 ^ 20 → |x| ≤ 2 ^ 22 := fun h => h.trans (by norm_num)
  have k2 : ∀ {x : Int}, |x| ≤ 2 ^ 21 → |x| ≤ 2 ^ 22 := fun h => h.trans (by norm_num)
  have hem := hF.wide
  have hum := (emin_le hF).2.1
  have hk3 : F.umin ≤ k := by omega
  have hk4 : k + 22 ≤ F.emax := by omega
  have a00 := sub_int hF hp hk3 hk4 hp0.1 hw.1 (k0 (d b1 b5))
  have a01 := sub_int hF hp hk3 hk4 hq.1 hw.1 (k0 (d b3 b5))
  have a10 := sub_int hF hp hk3 hk4 hp0.2 hw.2 (k0 (d b2 b6))
  have a11 := sub_int hF hp hk3 hk4 hq.2 hw.2 (k0 (d b4 b6))
  have c0 := neg_int hF hw.1
  have c1 := neg_int hF hw.2
  have p1 := prod_le (d b1 b5) (d b4 b6)
  have p2' := prod_le (d b2 b6) (d b3 b5)
  have p3 := prod_le (n b5) (d b4 b6)
  have p4 := prod_le (d b3 b5) (n b6)
  have p5 := prod_le (d b1 b5) (n b6)
  have p6 := prod_le (n b5) (d b2 b6)
  have hD := sub_int hF hp hk1 hk2 (mul_int hF hp hk1 hk2 a00 a11 (k1 p1)) (mul_int hF hp hk1 hk2 a10 a01 (k1 p2')) (k2 (s p1 p2'))
  have hN0 := sub_int hF hp hk1 hk2 (mul_int hF hp hk1 hk2 c0 a11 (k1 p3)) (mul_int hF hp hk1 hk2 a01 c1 (k1 p4)) (k2 (s p3 p4))
  have hN1 := sub_int hF hp hk1 hk2 (mul_int hF hp hk1 hk2 a00 c1 (k1 p5)) (mul_int hF hp hk1 hk2 c0 a10 (k1 p6)) (k2 (s p5 p6))
  have m1 := s p1 p2'
  have m2 := s p3 p4
  have m3 := s p5 p6
  have e1 : (u0 - u2) * (v1 - v2) - (v0 - v2) * (u1 - u2) = area u0 v0 u1 v1 u2 v2 := rfl
  have e2 : -u2 * (v1 - v2) - (u1 - u2) * -v2 = u1 * v2 - u2 * v1 := by ring
  have e3 : (u0 - u2) * -v2 - -u2 * (v0 - v2) = u2 * v0 - u0 * v2 := by ring
  rw [e1] at hD m1
  rw [e2] at hN0 m2
  rw [e3] at hN1 m3
  constructor
  · intro h0
    rw [h0, Int.cast_zero, zero_mul] at hD
    have hz := div_zero_num hF hN0 hD
    have : (Fp.le (.fin 0) (dec F (bdiv F (bsub F (bmul F (bneg F w.1) (bsub F q.2 w.2))
          (bmul F (bsub F q.1 w.1) (bneg F w.2))) (bsub F (bmul F (bsub F p.1 w.1) (bsub F q.2 w.2))
          (bmul F (bsub F p.2 w.2) (bsub F q.1 w.1))))) &&
        Fp.le (dec F (bdiv F (bsub F (bmul F (bneg F w.1) (bsub F q.2 w.2))
          (bmul F (bsub F q.1 w.1) (bneg F w.2))) (bsub F (bmul F (bsub F p.1 w.1) (bsub F q.2 w.2))
          (bmul F (bsub F p.2 w.2) (bsub F q.1 w.1))))) (.fin 1)) = false := by
      rcases hz with hz | ⟨s, hz⟩
      · rw [hz]; rfl
      · rw [hz]; cases s <;> rfl
    unfold chkBits
    simp only [List.all_cons, this, Bool.false_and]
  · intro h0
    refine ⟨m1, ?_⟩
    have h0' : ((area u0 v0 u1 v1 u2 v2 : Int) : ℚ) ≠ 0 := by exact_mod_cast h0
    have hk0 := (p2_pos (2 * k)).ne'
    have r0 := div_num hF hN0 hD (mul_ne_zero h0' hk0)
    have r1 := div_num hF hN1 hD (mul_ne_zero h0' hk0)
    rw [mul_div_mul_right _ _ hk0] at r0 r1
    have quo : ∀ {N : Int}, |N| ≤ 2 ^ 21 →
        |(N : ℚ) / (area u0 v0 u1 v1 u2 v2 : Int)| ≤ p2 21 := by
      intro N hN
      have hA : (1 : ℚ) ≤ |((area u0 v0 u1 v1 u2 v2 : Int) : ℚ)| := by
        exact_mod_cast Int.one_le_abs h0
      have hN' : |(N : ℚ)| ≤ p2 21 := by
        rw [show (21 : Int) = ((21 : Nat) : Int) from rfl, p2_nat]
        exact_mod_cast hN
      rw [abs_div, div_le_iff₀ (by linarith)]
      have := p2_pos 21
      nlinarith
    obtain ⟨X0, x0, y0⟩ := round_bounded hF (rep_p2 (by omega) (by omega)) (quo m2)
    obtain ⟨X1, x1, y1⟩ := round_bounded hF (rep_p2 (by omega) (by omega)) (quo m3)
    rw [x0] at r0
    rw [x1] at r1
    obtain ⟨hc1, hc2⟩ : 1 + p2 21 ≤ p2 22 ∧ p2 22 + p2 21 ≤ p2 23 := by decide +kernel
    obtain ⟨Y, x2, y2⟩ := round_bounded ok64 (rep_p2 (F := binary64) (k := 22) (by decide) (by decide))
      (x := 1 - X0) (by rw [abs_le] at *; constructor <;> linarith)
    obtain ⟨Z, x3, y3⟩ := round_bounded ok64 (rep_p2 (F := binary64) (k := 23) (by decide) (by decide))
      (x := Y - X1) (by rw [abs_le] at *; constructor <;> linarith)
    obtain ⟨X2, x4, y4⟩ := round_bounded hF (rep_p2 (F := F) (k := 23) (by omega) (by omega)) y3
    refine ⟨X0, X1, Y, Z, X2, x0, x1, x2, x3, x4, ?_⟩
    have one : dec binary64 (enc binary64 false (.fin 1)) = .fin 1 := by decide +kernel
    have w0 := (dec_conv_wide hF hp64 hu he _).trans r0
    have w1 := (dec_conv_wide hF hp64 hu he _).trans r1
    have r2 : dec F (conv binary64 F (bsub binary64 (bsub binary64 (enc binary64 false (.fin 1))
        (conv F binary64 (bdiv F (bsub F (bmul F (bneg F w.1) (bsub F q.2 w.2))
          (bmul F (bsub F q.1 w.1) (bneg F w.2))) (bsub F (bmul F (bsub F p.1 w.1) (bsub F q.2 w.2))
          (bmul F (bsub F p.2 w.2) (bsub F q.1 w.1))))))
        (conv F binary64 (bdiv F (bsub F (bmul F (bsub F p.1 w.1) (bneg F w.2))
          (bmul F (bneg F w.1) (bsub F p.2 w.2))) (bsub F (bmul F (bsub F p.1 w.1) (bsub F q.2 w.2))
          (bmul F (bsub F p.2 w.2) (bsub F q.1 w.1))))))) = .fin X2 := by
      unfold conv
      refine (dec_enc hF _ (val_narrow _)).trans ?_
      change narrow F (dec binary64 (bsub binary64 (bsub binary64 (enc binary64 false (.fin 1))
        (conv F binary64 _)) (conv F binary64 _))) = _
      rw [dec_sub ok64, dec_sub ok64, one, w0, w1, sub_fin, x2, sub_fin, x3]
      exact x4
    unfold chkBits
    simp only [List.all_cons, List.all_nil, Bool.and_true, r0, r1, r2, Fp.le, Bool.and_eq_true,
      decide_eq_true_eq]

/-- A quotient of integers is not smaller than the reciprocal of the denominator. -/
theorem quo_gap {N D : Int} (hD : |D| ≤ 2 ^ 21) (h : 0 < (N : ℚ) / D) : p2 (-21) ≤ (N : ℚ) / D := by
  have hD0 : (D : ℚ) ≠ 0 := by rintro e; rw [e] at h; simp at h
  have hN0 : (N : ℚ) ≠ 0 := by rintro e; rw [e] at h; simp at h
  have hN1 : (1 : ℚ) ≤ |(N : ℚ)| := by exact_mod_cast Int.one_le_abs (by exact_mod_cast hN0)
  have hD1 : |(D : ℚ)| ≤ 2 ^ 21 := by exact_mod_cast hD
  have hD2 : 0 < |(D : ℚ)| := abs_pos.2 hD0
  rw [← abs_of_pos h, abs_div, le_div_iff₀ hD2]
  have e : p2 (-21) * 2 ^ 21 = 1 := by decide +kernel
  have := mul_le_mul_of_nonneg_left hD1 (p2_pos (-21)).le
  linarith

theorem round_err24 (hF : F.Ok) (hp : 24 ≤ F.p) {x y : ℚ} (h : round F x = .fin y) :
    |y - x| ≤ p2 (-24) * (|x| + p2 (-24)) := by
  refine (round_err h).trans (mul_le_mul (p2_le (by omega)) ?_ ?_ (p2_pos _).le)
  · have : p2 F.emin ≤ p2 (-24) := p2_le (by
      have := hF.wide
      unfold Fmt.emin
      omega)
    linarith
  · have := p2_pos F.emin
    have := abs_nonneg x
    linarith

theorem round_err53 {x y : ℚ} (h : round binary64 x = .fin y) (hx : |x| ≤ 1) :
    |y - x| ≤ p2 (-52) := by
  refine (round_err h).trans ?_
  have e : p2 (-(binary64.p : Int)) * (1 + p2 binary64.emin) ≤ p2 (-52) := by decide +kernel
  exact (mul_le_mul_of_nonneg_left (by linarith) (p2_pos _).le).trans e

theorem round_neg_of (hF : F.Ok) {k : Int} (h1 : F.umin ≤ k) (h2 : k ≤ F.emax) {x y : ℚ}
    (h : x ≤ -p2 k) (hy : round F x = .fin y) : y ≤ -p2 k := by
  have hr : Rep F (-p2 k) := by
    obtain ⟨n, e, r1, r2, r3, r4⟩ := rep_p2 h1 h2
    exact ⟨-n, e, by rw [r1]; push_cast; ring, by rwa [abs_neg], r3, by rwa [abs_neg]⟩
  exact round_mono hF h hy (round_rep hF hr)

/-- Soundness, in terms of the quotients. -/
theorem chk_sound (hF : F.Ok) (hp : 24 ≤ F.p) {N0 N1 D : Int} (hD : |D| ≤ 2 ^ 21) (hD0 : D ≠ 0)
    {X0 X1 Y Z X2 : ℚ} (h0 : round F ((N0 : ℚ) / D) = .fin X0) (h1 : round F ((N1 : ℚ) / D) = .fin X1)
    (h2 : round binary64 (1 - X0) = .fin Y) (h3 : round binary64 (Y - X1) = .fin Z)
    (h4 : round F Z = .fin X2) (t0 : 0 ≤ X0 ∧ X0 ≤ 1) (t1 : 0 ≤ X1 ∧ X1 ≤ 1) (t2 : 0 ≤ X2) :
    0 ≤ (N0 : ℚ) / D ∧ 0 ≤ (N1 : ℚ) / D ∧ 0 ≤ ((D - N0 - N1 : Int) : ℚ) / D := by
  have hw := hF.wide
  have hum := (emin_le hF).2.2.2
  have hc : p2 (-21) = 8 * p2 (-24) ∧ p2 (-52) < p2 (-24) / 1000 ∧ p2 (-24) < 1 / 1000 ∧ 0 < p2 (-24) ∧
      0 < p2 (-52) := by
    decide +kernel
  obtain ⟨c1, c2, c3, c4, c5⟩ := hc
  have nn : ∀ {N : Int} {X : ℚ}, round F ((N : ℚ) / D) = .fin X → 0 ≤ X → 0 ≤ (N : ℚ) / D := by
    intro N X h hX
    by_contra hneg
    have hg := quo_gap (N := -N) hD (by push_cast; rw [neg_div]; linarith)
    push_cast at hg
    rw [neg_div] at hg
    have := round_neg_of hF (k := -21) (by omega) (by omega) (by linarith) h
    linarith
  have e0 := nn h0 t0.1
  have e1 := nn h1 t1.1
  refine ⟨e0, e1, ?_⟩
  by_contra hneg
  have hg := quo_gap (N := -(D - N0 - N1)) hD (by push_cast at hneg ⊢; rw [neg_div]; linarith)
  have hD' : (D : ℚ) ≠ 0 := by exact_mod_cast hD0
  have hs : ((-(D - N0 - N1) : Int) : ℚ) / D = (N0 : ℚ) / D + N1 / D - 1 := by
    push_cast; field_simp; ring
  rw [hs] at hg
  have up : ∀ {x X : ℚ}, round F x = .fin X → 0 ≤ x → X ≤ 1 → x - X ≤ 3 * p2 (-24) := by
    intro x X h hx hX
    have he := round_err24 hF hp h
    rw [abs_of_nonneg hx, abs_le] at he
    have hx2 : x ≤ 2 := by nlinarith
    nlinarith
  have u0 := up h0 e0 t0.2
  have u1 := up h1 e1 t1.2
  have u2 := round_err53 h2 (by rw [abs_le]; constructor <;> linarith [t0.1, t0.2])
  rw [abs_le] at u2
  have z := round_neg_of ok64 (k := -24) (by decide) (by decide) (by linarith) h3
  have z2 := round_neg_of hF (k := -24) (by omega) (by omega) z h4
  linarith

/-- Completeness, in terms of the quotients. -/
theorem chk_complete (hF : F.Ok) (hp : 24 ≤ F.p) {N0 N1 D : Int} (hD : |D| ≤ 2 ^ 21) (hD0 : D ≠ 0)
    {X0 X1 Y Z X2 : ℚ} (h0 : round F ((N0 : ℚ) / D) = .fin X0) (h1 : round F ((N1 : ℚ) / D) = .fin X1)
    (h2 : round binary64 (1 - X0) = .fin Y) (h3 : round binary64 (Y - X1) = .fin Z)
    (h4 : round F Z = .fin X2) (t0 : 0 < (N0 : ℚ) / D) (t1 : 0 < (N1 : ℚ) / D)
    (t2 : 0 < ((D - N0 - N1 : Int) : ℚ) / D) :
    (0 ≤ X0 ∧ X0 ≤ 1) ∧ (0 ≤ X1 ∧ X1 ≤ 1) ∧ 0 ≤ X2 ∧ X2 ≤ 1 := by
  have hc : p2 (-21) = 8 * p2 (-24) ∧ p2 (-52) < p2 (-24) / 1000 ∧ p2 (-24) < 1 / 1000 ∧ 0 < p2 (-24) ∧
      0 < p2 (-52) := by
    decide +kernel
  obtain ⟨c1, c2, c3, c4, c5⟩ := hc
  have hg := quo_gap hD t2
  have hD' : (D : ℚ) ≠ 0 := by exact_mod_cast hD0
  have hs : ((D - N0 - N1 : Int) : ℚ) / D = 1 - (N0 : ℚ) / D - N1 / D := by
    push_cast; field_simp
  rw [hs] at hg
  have r1 : ∀ {G : Fmt}, G.Ok → Rep G 1 := fun hG => by
    rw [← p2_zero]
    exact rep_p2 (emin_le hG).2.1 (by have := (emin_le hG).2.2.1; omega)
  have r0 : ∀ {G : Fmt}, G.Ok → Rep G 0 := fun hG => by
    have := rep_int hG (n := 0) (by simp)
    simpa using this
  have a0 := round_ge hF (r0 hF) le_rfl t0.le h0
  have a1 := round_ge hF (r0 hF) le_rfl t1.le h1
  have b0 := round_le hF (r1 hF) zero_le_one (by linarith) h0
  have b1 := round_le hF (r1 hF) zero_le_one (by linarith) h1
  have u0 := round_err24 hF hp h0
  have u1 := round_err24 hF hp h1
  rw [abs_of_pos t0, abs_le] at u0
  rw [abs_of_pos t1, abs_le] at u1
  have u2 := round_err53 h2 (by rw [abs_le]; constructor <;> linarith)
  rw [abs_le] at u2
  have v0 : X0 - (N0 : ℚ) / D ≤ 2 * p2 (-24) := by nlinarith
  have v1 : X1 - (N1 : ℚ) / D ≤ 2 * p2 (-24) := by nlinarith
  have y1 := round_le ok64 (r1 ok64) zero_le_one (by linarith) h2
  have z0 := round_ge ok64 (r0 ok64) le_rfl (by linarith) h3
  have z1 := round_le ok64 (r1 ok64) zero_le_one (by linarith) h3
  exact ⟨⟨a0, b0⟩, ⟨a1, b1⟩, round_ge hF (r0 hF) le_rfl z0 h4, round_le hF (r1 hF) zero_le_one z1 h4⟩

/-- **C103.** `check_cp` on vectors whose components are integers of at most 512, times a power of
two that is neither so small nor so large that products leave the range of the format.  If it answers
"yes", the triangle holds a critical point; if the triangle is not degenerate and holds one in its
interior, it answers "yes"; if the triangle is degenerate it answers "no". -/
theorem C103_check (hF : F = binary32 ∨ F = binary64) {p q w : Pat F × Pat F}
    {u0 v0 u1 v1 u2 v2 k : Int} (hk1 : F.umin ≤ 2 * k) (hk2 : 2 * k + 22 ≤ F.emax)
    (hp : dec F p.1 = .fin (u0 * p2 k) ∧ dec F p.2 = .fin (v0 * p2 k))
    (hq : dec F q.1 = .fin (u1 * p2 k) ∧ dec F q.2 = .fin (v1 * p2 k))
    (hw : dec F w.1 = .fin (u2 * p2 k) ∧ dec F w.2 = .fin (v2 * p2 k))
    (hb : |u0| ≤ 512 ∧ |v0| ≤ 512 ∧ |u1| ≤ 512 ∧ |v1| ≤ 512 ∧ |u2| ≤ 512 ∧ |v2| ≤ 512) :
    (chkBits F p q w = true → HasCP ((u0 : ℝ), (v0 : ℝ)) ((u1 : ℝ), (v1 : ℝ)) ((u2 : ℝ), (v2 : ℝ))) ∧
    ((u0 - u2) * (v1 - v2) ≠ (v0 - v2) * (u1 - u2) →
      (∃ a b c : ℝ, 0 < a ∧ 0 < b ∧ 0 < c ∧ a + b + c = 1 ∧ a * u0 + b * u1 + c * u2 = 0 ∧
        a * v0 + b * v1 + c * v2 = 0) → chkBits F p q w = true) ∧
    ((u0 - u2) * (v1 - v2) = (v0 - v2) * (u1 - u2) → chkBits F p q w = false) := by
  obtain ⟨oF, o1, o2, o3, o4⟩ : F.Ok ∧ 24 ≤ F.p ∧ F.p ≤ binary64.p ∧ binary64.umin ≤ F.umin ∧
      F.emax ≤ binary64.emax := by
    rcases hF with e | e
    · subst e; exact ⟨ok32, by decide, by decide, by decide, by decide⟩
    · subst e; exact ⟨ok64, by decide, by decide, by decide, by decide⟩
  obtain ⟨k0, k1⟩ := chk_values oF o1 o2 o3 o4 hk1 hk2 hp hq hw hb
  have hA : ((area u0 v0 u1 v1 u2 v2 : Int) : ℝ) = (u0 - u2) * (v1 - v2) - (v0 - v2) * (u1 - u2) := by
    unfold area; push_cast; ring
  refine ⟨fun h => ?_, fun hd hcp => ?_, fun hd => k0 (by unfold area; omega)⟩
  · have hne : area u0 v0 u1 v1 u2 v2 ≠ 0 := fun e => by rw [k0 e] at h; cases h
    obtain ⟨m, X0, X1, Y, Z, X2, h0, h1, h2, h3, h4, h5⟩ := k1 hne
    obtain ⟨t0, t1, t2, -⟩ := h5.1 h
    obtain ⟨s0, s1, s2⟩ := chk_sound oF o1 m hne h0 h1 h2 h3 h4 t0 t1 t2
    have hne' : ((area u0 v0 u1 v1 u2 v2 : Int) : ℝ) ≠ 0 := by exact_mod_cast hne
    refine ⟨((u1 * v2 - u2 * v1 : Int) : ℝ) / (area u0 v0 u1 v1 u2 v2 : Int),
      ((u2 * v0 - u0 * v2 : Int) : ℝ) / (area u0 v0 u1 v1 u2 v2 : Int),
      ((area u0 v0 u1 v1 u2 v2 - (u1 * v2 - u2 * v1) - (u2 * v0 - u0 * v2) : Int) : ℝ) /
        (area u0 v0 u1 v1 u2 v2 : Int), by exact_mod_cast s0, by exact_mod_cast s1,
      by exact_mod_cast s2, ?_, ?_, ?_⟩
    · field_simp; push_cast; ring
    · field_simp; push_cast; rw [hA]; ring
    · field_simp; push_cast; rw [hA]; ring
  · have hne : area u0 v0 u1 v1 u2 v2 ≠ 0 := by unfold area; omega
    have hne' : ((area u0 v0 u1 v1 u2 v2 : Int) : ℝ) ≠ 0 := by exact_mod_cast hne
    obtain ⟨m, X0, X1, Y, Z, X2, h0, h1, h2, h3, h4, h5⟩ := k1 hne
    obtain ⟨a, b, c, ha, hb', hc, hs, g1, g2⟩ := hcp
    have ec : c = 1 - a - b := by linarith
    subst ec
    have ea : ((u1 * v2 - u2 * v1 : Int) : ℝ) / (area u0 v0 u1 v1 u2 v2 : Int) = a := by
      rw [div_eq_iff hne', hA]; push_cast
      linear_combination (u1 - u2 : ℝ) * g2 - (v1 - v2 : ℝ) * g1
    have eb : ((u2 * v0 - u0 * v2 : Int) : ℝ) / (area u0 v0 u1 v1 u2 v2 : Int) = b := by
      rw [div_eq_iff hne', hA]; push_cast
      linear_combination (v0 - v2 : ℝ) * g1 - (u0 - u2 : ℝ) * g2
    have ec : ((area u0 v0 u1 v1 u2 v2 - (u1 * v2 - u2 * v1) - (u2 * v0 - u0 * v2) : Int) : ℝ) /
        (area u0 v0 u1 v1 u2 v2 : Int) = 1 - a - b := by
      rw [← ea, ← eb]; push_cast; field_simp
    refine h5.2 (chk_complete oF o1 m hne h0 h1 h2 h3 h4 ?_ ?_ ?_)
    · rw [← ea] at ha; exact_mod_cast ha
    · rw [← eb] at hb'; exact_mod_cast hb'
    · rw [← ec] at hc; exact_mod_cast hc

end

/-- A `float` with an integer value. -/
def fint (n : Int) : Pat binary32 := enc binary32 false (.fin n)

/-- C103: critical points on an edge can be missed, and the answer depends on the order of the
vertices: the vectors (2,0), (-1,0), (0,1) have a zero on the edge of the first two, which the
test does not find, since `1/3` and `2/3` are both rounded up; it finds it in the order (0,1), (2,0),
(-1,0). -/
theorem C103_edge :
    HasCP (((2 : Int) : ℝ), ((0 : Int) : ℝ)) (((-1 : Int) : ℝ), ((0 : Int) : ℝ))
      (((0 : Int) : ℝ), ((1 : Int) : ℝ)) ∧
    chkBits binary32 (fint 2, fint 0) (fint (-1), fint 0) (fint 0, fint 1) = false ∧
    chkBits binary32 (fint 0, fint 1) (fint 2, fint 0) (fint (-1), fint 0) = true := by
  refine ⟨⟨1 / 3, 2 / 3, 0, ?_⟩, by decide +kernel, by decide +kernel⟩
  norm_num

/-- Non-vacuity: a triangle with a critical point in its interior. -/
example : (dec binary32 (fint 3) = .fin (3 : Int) ∧ dec binary32 (fint 1) = .fin (1 : Int)) ∧
    chkBits binary32 (fint 3, fint 1) (fint (-2), fint 1) (fint 0, fint (-5)) = true ∧
    HasCP (((3 : Int) : ℝ), ((1 : Int) : ℝ)) (((-2 : Int) : ℝ), ((1 : Int) : ℝ))
      (((0 : Int) : ℝ), ((-5 : Int) : ℝ)) := by
  have h : chkBits binary32 (fint 3, fint 1) (fint (-2), fint 1) (fint 0, fint (-5)) = true := by
    decide +kernel
  exact ⟨by decide +kernel, h, (C103_check (k := 0) (Or.inl rfl) (by decide) (by decide) (by decide +kernel) (by decide +kernel)
    (by decide +kernel) (by decide)).1 h⟩

end CpSZ.Ieee
