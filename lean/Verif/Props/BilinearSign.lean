import Verif.Bilinear.Derive
/-
C75: the sign-keeping bounds of the bilinear mode, in exact arithmetic.
-/

namespace CpSZ.VMode.Bilinear

/-! ### Specification -/

/-- Both positive or both negative. -/
def SameSign (x y : ℝ) : Prop := (0 < x ∧ 0 < y) ∨ (x < 0 ∧ y < 0)

/-- The quadratic form `a*e1^2 + b*e2^2 + c*e1*e2 + d*e1 + e*e2 + f`. -/
def form (a b c d e f x y : ℝ) : ℝ := a * x ^ 2 + b * y ^ 2 + c * x * y + d * x + e * y + f

/-- Bilinear interpolation of the four values of a cell, with `p1` at the origin, `p0` and `p2`
next to it and `p3` opposite. -/
def bil (p0 p1 p2 p3 x y : ℝ) : ℝ :=
  p1 * (1 - x) * (1 - y) + p0 * x * (1 - y) + p2 * (1 - x) * y + p3 * x * y

/-! ### Linear forms -/

/-- **C75** `max_eb_to_keep_sign_2d_online`: relative changes of `A` and `B` below the bound keep the
sign of `A + B + C` ... -/
theorem C75_linear (A B C e1 e2 : ℝ) (h1 : |e1| < keepSign A B C) (h2 : |e2| < keepSign A B C) :
    SameSign (A + B + C) (A * (1 + e1) + B * (1 + e2) + C) := by
  unfold keepSign at h1 h2
  split at h1
  · exact absurd h1 (by have := abs_nonneg e1; linarith)
  rename_i hne
  rw [if_neg hne] at h2
  have hpos : 0 < |A| + |B| := lt_of_le_of_ne (by positivity) (Ne.symm hne)
  rw [lt_div_iff₀ hpos] at h1 h2
  have hb : |A * e1 + B * e2| < |A + B + C| := by
    have t := abs_add_le (A * e1) (B * e2)
    rw [abs_mul, abs_mul] at t
    rcases le_total |e1| |e2| with h | h
    · have := mul_le_mul_of_nonneg_left h (abs_nonneg A)
      linarith
    · have := mul_le_mul_of_nonneg_left h (abs_nonneg B)
      linarith
  have hs : A * (1 + e1) + B * (1 + e2) + C = (A + B + C) + (A * e1 + B * e2) := by ring
  rw [hs]
  have ⟨l, u⟩ := abs_lt.1 hb
  rcases lt_trichotomy (A + B + C) 0 with h | h | h
  · rw [abs_of_neg h] at u
    exact Or.inr ⟨h, by linarith⟩
  · rw [h, abs_zero] at hb
    exact absurd hb (not_lt.2 (abs_nonneg _))
  · rw [abs_of_pos h] at l
    exact Or.inl ⟨h, by linarith⟩

/-- **C75** ... and no larger bound would: changes of exactly this size reach zero. -/
theorem C75_linear_maximal (A B C : ℝ) (h : ¬ (A = 0 ∧ B = 0)) :
    ∃ e1 e2, |e1| = keepSign A B C ∧ |e2| = keepSign A B C ∧
      A * (1 + e1) + B * (1 + e2) + C = 0 := by
  have hne : |A| + |B| ≠ 0 := by
    intro h0
    have hA := abs_nonneg A
    have hB := abs_nonneg B
    exact h ⟨abs_eq_zero.1 (by linarith), abs_eq_zero.1 (by linarith)⟩
  have hpos : 0 < |A| + |B| := lt_of_le_of_ne (by positivity) (Ne.symm hne)
  set s := (A + B + C) / (|A| + |B|) with hs
  have hk : keepSign A B C = |s| := by
    unfold keepSign
    rw [if_neg hne, hs, abs_div, abs_of_pos hpos]
  have hS : (|A| + |B|) * s = A + B + C := by rw [hs]; field_simp
  have key : ∀ X : ℝ, ∃ e, |e| = |s| ∧ X * e = -(|X| * s) := by
    intro X
    rcases le_total 0 X with hX | hX
    · exact ⟨-s, abs_neg s, by rw [abs_of_nonneg hX]; ring⟩
    · exact ⟨s, rfl, by rw [abs_of_nonpos hX]; ring⟩
  obtain ⟨e1, a1, b1⟩ := key A
  obtain ⟨e2, a2, b2⟩ := key B
  refine ⟨e1, e2, by rw [a1, hk], by rw [a2, hk], ?_⟩
  have : A * (1 + e1) + B * (1 + e2) + C = (A + B + C) + (A * e1 + B * e2) := by ring
  rw [this, b1, b2, ← hS]
  ring

example : keepSign 3 (-1) 2 = 1 := by norm_num [keepSign]

/-! ### Quadratic polynomials -/

/-- The polynomial through its roots. -/
theorem poly_roots (a b c : ℝ) (ha : a ≠ 0) (hD : 0 ≤ b * b - 4 * a * c) (t : ℝ) :
    a * t ^ 2 + b * t + c = a * (t - (-b + -1 * √(b * b - 4 * a * c)) / (2 * a)) *
      (t - (-b + 1 * √(b * b - 4 * a * c)) / (2 * a)) := by
  have hs := Real.mul_self_sqrt hD
  set s := √(b * b - 4 * a * c)
  have : c = (b * b - s * s) / (4 * a) := by rw [hs]; field_simp; ring
  rw [this]
  field_simp
  ring

/-- **C75** `max_eb_to_keep_sign_quadratic` for a proper quadratic polynomial. -/
theorem C75_quadratic_partial (a b c t : ℝ) (ha : a ≠ 0) (hc : c ≠ 0) (h0 : 0 ≤ t)
    (h : t < keepQuadratic a b c) : SameSign c (a * t ^ 2 + b * t + c) := by
  by_cases hD : 0 ≤ b * b - 4 * a * c
  · have hp := poly_roots a b c ha hD t
    have hp0 := poly_roots a b c ha hD 0
    have hs : 0 ≤ √(b * b - 4 * a * c) := Real.sqrt_nonneg _
    unfold keepQuadratic rootMin at h
    simp only [ha, false_or, not_lt.2 hD, if_false] at h
    have hx : (-b + 1 * √(b * b - 4 * a * c)) / (2 * a) =
        (-b + -1 * √(b * b - 4 * a * c)) / (2 * a) + √(b * b - 4 * a * c) / a := by
      field_simp; ring
    rw [hp]
    generalize hx1 : (-b + -1 * √(b * b - 4 * a * c)) / (2 * a) = x1 at *
    generalize hx2 : (-b + 1 * √(b * b - 4 * a * c)) / (2 * a) = x2 at *
    have hc' : c = a * x1 * x2 := by rw [show c = a * 0 ^ 2 + b * 0 + c by ring, hp0]; ring
    generalize √(b * b - 4 * a * c) = s at *
    rcases lt_or_gt_of_ne hc with hneg | hpos
    · -- c < 0, root x2
      rw [if_neg (not_lt.2 hneg.le)] at h
      refine Or.inr ⟨hneg, ?_⟩
      rcases lt_or_gt_of_ne ha with hA | hA
      · -- a < 0, x2 ≤ x1
        have hle : x2 ≤ x1 := by
          have : s / a ≤ 0 := div_nonpos_of_nonneg_of_nonpos hs hA.le
          linarith
        split at h
        · have := lt_of_lt_of_le h (min_le_right _ _)
          have : 0 < (x1 - t) * (x2 - t) := mul_pos (by linarith) (by linarith)
          nlinarith
        · have hx2n : x2 ≤ 0 := by linarith
          have hx1n : x1 < 0 := by
            by_contra hcon
            have : 0 ≤ a * x1 * x2 := by
              have : a * x1 ≤ 0 := mul_nonpos_of_nonpos_of_nonneg hA.le (by linarith)
              exact mul_nonneg_of_nonpos_of_nonpos this hx2n
            linarith
          have : 0 < (t - x1) * (t - x2) := by
            rcases eq_or_lt_of_le hx2n with h | h
            · rw [h] at hc'; linarith
            · exact mul_pos (by linarith) (by linarith)
          nlinarith
      · have hle : x1 ≤ x2 := by
          have : 0 ≤ s / a := div_nonneg hs hA.le
          linarith
        have hprod : x1 * x2 < 0 := by
          by_contra hcon
          have := mul_nonneg hA.le (not_lt.1 hcon)
          linarith
        have hx1n : x1 < 0 := by nlinarith
        have hx2p : 0 < x2 := by nlinarith
        rw [if_pos hx2p] at h
        have := lt_of_lt_of_le h (min_le_right _ _)
        have : 0 < (t - x1) * (x2 - t) := mul_pos (by linarith) (by linarith)
        nlinarith
    · rw [if_pos hpos] at h
      refine Or.inl ⟨hpos, ?_⟩
      rcases lt_or_gt_of_ne ha with hA | hA
      · have hle : x2 ≤ x1 := by
          have : s / a ≤ 0 := div_nonpos_of_nonneg_of_nonpos hs hA.le
          linarith
        have hprod : x1 * x2 < 0 := by
          by_contra hcon
          have := mul_nonneg_of_nonpos_of_nonpos hA.le (neg_nonpos.2 (not_lt.1 hcon))
          nlinarith
        have hx2n : x2 < 0 := by nlinarith
        have hx1p : 0 < x1 := by nlinarith
        rw [if_pos hx1p] at h
        have := lt_of_lt_of_le h (min_le_right _ _)
        have : 0 < (x1 - t) * (t - x2) := mul_pos (by linarith) (by linarith)
        nlinarith
      · have hle : x1 ≤ x2 := by
          have : 0 ≤ s / a := div_nonneg hs hA.le
          linarith
        split at h
        · have := lt_of_lt_of_le h (min_le_right _ _)
          have : 0 < (x1 - t) * (x2 - t) := mul_pos (by linarith) (by linarith)
          nlinarith
        · have hx1n : x1 ≤ 0 := by linarith
          have hx2n : x2 < 0 := by
            by_contra hcon
            have : a * x1 * x2 ≤ 0 :=
              mul_nonpos_of_nonpos_of_nonneg (mul_nonpos_of_nonneg_of_nonpos hA.le hx1n)
                (by linarith)
            linarith
          have : 0 < (t - x1) * (t - x2) := by
            rcases eq_or_lt_of_le hx1n with h | h
            · rw [h] at hc'; linarith
            · exact mul_pos (by linarith) (by linarith)
          nlinarith
  · -- no real root
    have hD' : b * b - 4 * a * c < 0 := not_le.1 hD
    have hq : 4 * a * (a * t ^ 2 + b * t + c) = (2 * a * t + b) ^ 2 - (b * b - 4 * a * c) := by
      ring
    have hpos : 0 < 4 * a * (a * t ^ 2 + b * t + c) := by
      rw [hq]; nlinarith [sq_nonneg (2 * a * t + b)]
    have hac : 0 < a * c := by nlinarith [sq_nonneg b]
    generalize a * t ^ 2 + b * t + c = v at *
    rcases lt_or_gt_of_ne ha with hA | hA
    · exact Or.inr ⟨by nlinarith, by nlinarith⟩
    · exact Or.inl ⟨by nlinarith, by nlinarith⟩

/-- **C75** It is the largest such bound up to one: a bound below one is a root. -/
theorem C75_quadratic_maximal (a b c : ℝ) (h : keepQuadratic a b c < 1) :
    a * keepQuadratic a b c ^ 2 + b * keepQuadratic a b c + c = 0 := by
  have key : ∀ sgn : ℝ, (sgn = 1 ∨ sgn = -1) → rootMin sgn a b c 1 < 1 →
      a * rootMin sgn a b c 1 ^ 2 + b * rootMin sgn a b c 1 + c = 0 := by
    intro sgn hsgn hlt
    unfold rootMin at hlt ⊢
    split at hlt
    · exact absurd hlt (lt_irrefl _)
    rename_i hc
    rw [if_neg hc]
    push Not at hc
    simp only at hlt ⊢
    split at hlt
    · rename_i hx
      rw [if_pos hx, min_eq_right (by
        rcases min_lt_iff.1 hlt with h | h
        · exact absurd h (lt_irrefl _)
        · exact h.le)]
      rw [poly_roots a b c hc.1 hc.2]
      rcases hsgn with rfl | rfl
      · rw [sub_self, mul_zero]
      · rw [sub_self, mul_zero, zero_mul]
    · exact absurd hlt (lt_irrefl _)
  unfold keepQuadratic at h ⊢
  split at h
  · rename_i hc
    rw [if_pos hc]
    exact key _ (Or.inr rfl) h
  · rename_i hc
    rw [if_neg hc]
    exact key _ (Or.inl rfl) h

/-- **C75** A linear polynomial is not covered: division by zero leaves the bound at one. -/
theorem C75_quadratic_linear_lost : keepQuadratic 0 (-2) 1 = 1 ∧
    ¬ SameSign 1 (0 * (3 / 4 : ℝ) ^ 2 + -2 * (3 / 4) + 1) := by
  constructor
  · simp [keepQuadratic, rootMin]
  · rintro (⟨_, h⟩ | ⟨h, _⟩) <;> norm_num at h

-- `t^2 - 3t + 2` is positive up to its first root 1, `t^2 - 3t + 5/4` up to 1/2.
example : SameSign (5 / 4) (1 * (1 / 4 : ℝ) ^ 2 + -3 * (1 / 4) + 5 / 4) := by
  refine C75_quadratic_partial 1 (-3) (5 / 4) (1 / 4) (by norm_num) (by norm_num) (by norm_num) ?_
  have : (√(4 : ℝ)) = 2 := by rw [show (4 : ℝ) = 2 ^ 2 by norm_num]; exact Real.sqrt_sq (by norm_num)
  unfold keepQuadratic rootMin
  norm_num [this]

/-! ### Forms in two variables -/

theorem rootMin_le (sgn a b c eb : ℝ) : rootMin sgn a b c eb ≤ eb := by
  unfold rootMin
  split
  · exact le_rfl
  · simp only
    split
    · exact min_le_left _ _
    · exact le_rfl

theorem rootMin_le_one (sgn a b c eb : ℝ) (h : eb ≤ 1) :
    rootMin sgn a b c eb ≤ rootMin sgn a b c 1 := by
  unfold rootMin
  split
  · exact h
  · simp only
    split
    · exact min_le_min_right _ h
    · exact h

/-- A function convex in each variable is largest at the corners of the square. -/
theorem form_corners (a b c d e f t x y : ℝ) (ha : 0 ≤ a) (hb : 0 ≤ b) (hx : |x| ≤ t)
    (hy : |y| ≤ t) (h1 : form a b c d e f t t < 0) (h2 : form a b c d e f t (-t) < 0)
    (h3 : form a b c d e f (-t) t < 0) (h4 : form a b c d e f (-t) (-t) < 0) :
    form a b c d e f x y < 0 := by
  have ⟨x1, x2⟩ := abs_le.1 hx
  have ⟨y1, y2⟩ := abs_le.1 hy
  rcases eq_or_lt_of_le ((abs_nonneg x).trans hx) with h0 | h0
  · have ex : x = t := by linarith
    have ey : y = t := by linarith
    rw [ex, ey]; exact h1
  have edge : ∀ z, form a b c d e f t z < 0 → form a b c d e f (-t) z < 0 →
      form a b c d e f x z < 0 := by
    intro z g1 g2
    have : 2 * t * form a b c d e f x z ≤
        (x + t) * form a b c d e f t z + (t - x) * form a b c d e f (-t) z := by
      have e0 : (x + t) * form a b c d e f t z + (t - x) * form a b c d e f (-t) z -
          2 * t * form a b c d e f x z = 2 * t * a * ((x + t) * (t - x)) := by
        unfold form; ring
      have : 0 ≤ 2 * t * a * ((x + t) * (t - x)) := by
        have := mul_nonneg (by linarith : 0 ≤ x + t) (by linarith : 0 ≤ t - x)
        positivity
      linarith
    have k1 : (x + t) * form a b c d e f t z ≤ 0 :=
      mul_nonpos_of_nonneg_of_nonpos (by linarith) g1.le
    have k2 : (t - x) * form a b c d e f (-t) z ≤ 0 :=
      mul_nonpos_of_nonneg_of_nonpos (by linarith) g2.le
    by_contra hcon
    have k3 : 0 ≤ 2 * t * form a b c d e f x z := by
      have := not_lt.1 hcon
      positivity
    rcases eq_or_lt_of_le x2 with hxt | hxt
    · rw [hxt] at hcon; exact hcon g1
    · have : (t - x) * form a b c d e f (-t) z < 0 := mul_neg_of_pos_of_neg (by linarith) g2
      linarith
  have e1 := edge t h1 h3
  have e2 := edge (-t) h2 h4
  have : 2 * t * form a b c d e f x y ≤
      (y + t) * form a b c d e f x t + (t - y) * form a b c d e f x (-t) := by
    have e0 : (y + t) * form a b c d e f x t + (t - y) * form a b c d e f x (-t) -
        2 * t * form a b c d e f x y = 2 * t * b * ((y + t) * (t - y)) := by
      unfold form; ring
    have : 0 ≤ 2 * t * b * ((y + t) * (t - y)) := by
      have := mul_nonneg (by linarith : 0 ≤ y + t) (by linarith : 0 ≤ t - y)
      positivity
    linarith
  have k1 : (y + t) * form a b c d e f x t ≤ 0 :=
    mul_nonpos_of_nonneg_of_nonpos (by linarith) e1.le
  have k2 : (t - y) * form a b c d e f x (-t) ≤ 0 :=
    mul_nonpos_of_nonneg_of_nonpos (by linarith) e2.le
  by_contra hcon
  have k3 : 0 ≤ 2 * t * form a b c d e f x y := by
    have := not_lt.1 hcon
    positivity
  rcases eq_or_lt_of_le y2 with hyt | hyt
  · rw [hyt] at hcon; exact hcon e1
  · have : (t - y) * form a b c d e f x (-t) < 0 := mul_neg_of_pos_of_neg (by linarith) e2
    linarith

/-- **C75** `max_eb_to_keep_sign_2d_online_quadratic_cylinder` keeps a positive sign when the
quadratic part is positive semidefinite (which includes the parabolic cylinders that are not turned
upside down) ... -/
theorem C75_cylinder_pos (a b c d e f x y : ℝ) (ha : 0 ≤ a) (hb : 0 ≤ b) (hdet : c * c ≤ 4 * a * b)
    (hf : 0 < f) (hx : |x| < cylinder a b c d e f) (hy : |y| < cylinder a b c d e f) :
    0 < form a b c d e f x y := by
  have hq : 0 ≤ a * x ^ 2 + b * y ^ 2 + c * x * y := by
    rcases eq_or_lt_of_le ha with h0 | h0
    · have hc : c = 0 := by
        rw [← h0] at hdet
        nlinarith [mul_self_nonneg c]
      rw [← h0, hc]
      nlinarith [mul_nonneg hb (sq_nonneg y)]
    · have : 4 * a * (a * x ^ 2 + b * y ^ 2 + c * x * y) =
          (2 * a * x + c * y) ^ 2 + (4 * a * b - c * c) * y ^ 2 := by ring
      have h1 : 0 ≤ 4 * a * (a * x ^ 2 + b * y ^ 2 + c * x * y) := by
        rw [this]
        have := mul_nonneg (by linarith : 0 ≤ 4 * a * b - c * c) (sq_nonneg y)
        positivity
      by_contra hcon
      have := mul_neg_of_pos_of_neg (by linarith : 0 < 4 * a) (not_le.1 hcon)
      linarith
  have hl : |d * x + e * y| < f := by
    unfold cylinder at hx hy
    rw [if_pos hf] at hx hy
    split at hx
    · rename_i h0
      have hd : d = 0 := abs_eq_zero.1 (by have := abs_nonneg d; have := abs_nonneg e; linarith)
      have he : e = 0 := abs_eq_zero.1 (by have := abs_nonneg d; have := abs_nonneg e; linarith)
      rw [hd, he]
      simpa using hf
    · rename_i h0
      rw [if_neg h0] at hy
      have hp : 0 < |d| + |e| := lt_of_le_of_ne (by positivity) (Ne.symm h0)
      have hx' := lt_of_lt_of_le hx (min_le_right _ _)
      have hy' := lt_of_lt_of_le hy (min_le_right _ _)
      rw [lt_div_iff₀ hp] at hx' hy'
      have t := abs_add_le (d * x) (e * y)
      rw [abs_mul, abs_mul] at t
      rcases le_total |x| |y| with h | h
      · have := mul_le_mul_of_nonneg_left h (abs_nonneg d)
        linarith
      · have := mul_le_mul_of_nonneg_left h (abs_nonneg e)
        linarith
  have := (abs_lt.1 hl).1
  unfold form
  linarith

/-- **C75** ... and a negative sign when it is convex in each variable and no diagonal of the square
is degenerate. -/
theorem C75_cylinder_neg_partial (a b c d e f x y : ℝ) (ha : 0 ≤ a) (hb : 0 ≤ b)
    (h1 : a + b + c ≠ 0) (h2 : a + b - c ≠ 0)
    (hf : f < 0) (hx : |x| < cylinder a b c d e f) (hy : |y| < cylinder a b c d e f) :
    form a b c d e f x y < 0 := by
  set t := max |x| |y| with ht
  have ht0 : 0 ≤ t := (abs_nonneg x).trans (le_max_left _ _)
  have htlt : t < cylinder a b c d e f := max_lt hx hy
  unfold cylinder at htlt
  rw [if_neg (not_lt.2 hf.le)] at htlt
  have htc := lt_of_lt_of_le htlt (min_le_right _ _)
  unfold cornersLt0 at htc
  have q : ∀ A B : ℝ, A ≠ 0 → t < rootMin 1 A B f 1 → A * t ^ 2 + B * t + f < 0 := by
    intro A B hA hlt
    rcases C75_quadratic_partial A B f t hA hf.ne ht0
      (by unfold keepQuadratic; rwa [if_neg (not_lt.2 hf.le)]) with h | h
    · exact absurd h.1 (not_lt.2 hf.le)
    · exact h.2
  have l1 : rootMin 1 (a + b + c) (-d - e) f 1 ≤ 1 := rootMin_le _ _ _ _ _
  have l2 := rootMin_le 1 (a + b - c) (-d + e) f (rootMin 1 (a + b + c) (-d - e) f 1)
  have l3 := rootMin_le 1 (a + b - c) (d - e) f
    (rootMin 1 (a + b - c) (-d + e) f (rootMin 1 (a + b + c) (-d - e) f 1))
  have l4 := rootMin_le 1 (a + b + c) (d + e) f (rootMin 1 (a + b - c) (d - e) f
    (rootMin 1 (a + b - c) (-d + e) f (rootMin 1 (a + b + c) (-d - e) f 1)))
  have m2 := rootMin_le_one 1 (a + b - c) (-d + e) f _ l1
  have m3 := rootMin_le_one 1 (a + b - c) (d - e) f _ (l2.trans l1)
  have m4 := rootMin_le_one 1 (a + b + c) (d + e) f _ (l3.trans (l2.trans l1))
  have c1 := q (a + b + c) (d + e) h1 (by linarith)
  have c2 := q (a + b - c) (d - e) h2 (by linarith)
  have c3 := q (a + b - c) (-d + e) h2 (by linarith)
  have c4 := q (a + b + c) (-d - e) h1 (by linarith)
  refine form_corners a b c d e f t x y ha hb (le_max_left _ _) (le_max_right _ _) ?_ ?_ ?_ ?_
  · unfold form; nlinarith
  · unfold form; nlinarith
  · unfold form; nlinarith
  · unfold form; nlinarith

/-- **C75** A degenerate diagonal is not covered: `x^2 + y^2 - 2xy + 2x + 2y - 1` is a parabolic
cylinder, its value at the origin is negative and at `(2/5, 2/5)` positive, but the bound is 1/2. -/
theorem C75_cylinder_lost : 4 * (1 : ℝ) * 1 - -2 * -2 = 0 ∧ cylinder 1 1 (-2) 2 2 (-1) = 1 / 2 ∧
    0 < form 1 1 (-2) 2 2 (-1) (2 / 5) (2 / 5) := by
  refine ⟨by norm_num, ?_, by norm_num [form]⟩
  have : (√(16 : ℝ)) = 4 := by
    rw [show (16 : ℝ) = 4 ^ 2 by norm_num]; exact Real.sqrt_sq (by norm_num)
  unfold cylinder cornersLt0 rootMin
  norm_num [this]

/-- **C75** A cylinder turned upside down is not covered: `1/2 - x^2` is negative at `x = 9/10`, but
the bound is one. -/
theorem C75_cylinder_concave_lost : cylinder (-1) 0 0 0 0 (1 / 2) = 1 ∧
    form (-1) 0 0 0 0 (1 / 2) (9 / 10) 0 < 0 := by
  constructor
  · norm_num [cylinder]
  · norm_num [form]

/-! ### General forms -/

/-- Along an edge with negative curvature. -/
theorem edge_neg (b L R t y : ℝ) (hb : b < 0) (hy : |y| ≤ t)
    (h1 : b * t ^ 2 + L * t + R < 0) (h2 : b * t ^ 2 - L * t + R < 0)
    (h3 : -2 * b * t < L ∨ L < 2 * b * t ∨ R - L ^ 2 / (4 * b) < 0) :
    b * y ^ 2 + L * y + R < 0 := by
  have ⟨y1, y2⟩ := abs_le.1 hy
  rcases h3 with h | h | h
  · have e0 : b * t ^ 2 + L * t + R - (b * y ^ 2 + L * y + R) = (t - y) * (b * (t + y) + L) := by
      ring
    have : 0 ≤ (t - y) * (b * (t + y) + L) := by
      refine mul_nonneg (by linarith) ?_
      nlinarith [mul_nonneg (neg_nonneg.2 hb.le) (by linarith : 0 ≤ t - y)]
    linarith
  · have e0 : b * t ^ 2 - L * t + R - (b * y ^ 2 + L * y + R) = (t + y) * (b * (t - y) - L) := by
      ring
    have : 0 ≤ (t + y) * (b * (t - y) - L) := by
      refine mul_nonneg (by linarith) ?_
      nlinarith [mul_nonneg (neg_nonneg.2 hb.le) (by linarith : 0 ≤ t + y)]
    linarith
  · have e0 : b * y ^ 2 + L * y + R = b * (y + L / (2 * b)) ^ 2 + (R - L ^ 2 / (4 * b)) := by
      have hb0 := hb.ne
      field_simp; ring
    have : b * (y + L / (2 * b)) ^ 2 ≤ 0 :=
      mul_nonpos_of_nonpos_of_nonneg hb.le (sq_nonneg _)
    linarith

/-- Below `edgeEb1` the vertex is outside the edge. -/
theorem edgeEb1_spec (e p q eb1 t : ℝ) (hp : 0 < p) (hq : 0 < q) (ht : 0 ≤ t)
    (h : t < edgeEb1 e p q q eb1) : p * t < e ∨ q * t < -e := by
  unfold edgeEb1 at h
  simp only [hp, hq, hq.ne', if_true, if_false] at h
  rcases lt_max_iff.1 h with h | h
  · rcases lt_max_iff.1 h with h | h
    · exact absurd h (not_lt.2 ht)
    · rw [lt_div_iff₀ hp] at h
      exact Or.inl (by linarith)
  · rw [lt_div_iff₀ hq] at h
    exact Or.inr (by linarith)

/-- **C75** `max_eb_to_keep_sign_2d_online_general` keeps a negative sign at a saddle that is convex
in the first variable and concave enough in the second. -/
theorem C75_general_neg_partial (a b c d e f x y : ℝ) (ha : 0 ≤ a) (hb : b < 0) (hc : |c| < -2 * b)
    (hdet : 4 * a * b - c * c < 0) (h1 : a + b + c ≠ 0) (h2 : a + b - c ≠ 0)
    (hf : f < 0) (hx : |x| < general a b c d e f) (hy : |y| < general a b c d e f) :
    form a b c d e f x y < 0 := by
  have ⟨c1, c2⟩ := abs_lt.1 hc
  set t := max |x| |y| with ht
  have ht0 : 0 ≤ t := (abs_nonneg x).trans (le_max_left _ _)
  have htlt : t < general a b c d e f := max_lt hx hy
  have hxt : |x| ≤ t := le_max_left _ _
  have hyt : |y| ≤ t := le_max_right _ _
  unfold general at htlt
  simp only [not_le.2 hdet, not_lt.2 hf.le, hb, not_lt.2 ha, if_true, if_false] at htlt
  have hA := lt_of_lt_of_le htlt ((min_le_left _ _).trans (min_le_left _ _))
  have hE1 := lt_of_lt_of_le htlt ((min_le_left _ _).trans (min_le_right _ _))
  have hE2 := lt_of_lt_of_le htlt (min_le_right _ _)
  clear htlt
  -- corners
  unfold cylinder at hA
  rw [if_neg (not_lt.2 hf.le)] at hA
  have htc := lt_of_lt_of_le hA (min_le_right _ _)
  unfold cornersLt0 at htc
  have q : ∀ A B g : ℝ, A ≠ 0 → g < 0 → t < keepQuadratic A B g → A * t ^ 2 + B * t + g < 0 := by
    intro A B g hA hg hlt
    rcases C75_quadratic_partial A B g t hA hg.ne ht0 hlt with h | h
    · exact absurd h.1 (not_lt.2 hg.le)
    · exact h.2
  have kq : ∀ A B, keepQuadratic A B f = rootMin 1 A B f 1 := by
    intro A B; unfold keepQuadratic; rw [if_neg (not_lt.2 hf.le)]
  have l1 : rootMin 1 (a + b + c) (-d - e) f 1 ≤ 1 := rootMin_le _ _ _ _ _
  have l2 := rootMin_le 1 (a + b - c) (-d + e) f (rootMin 1 (a + b + c) (-d - e) f 1)
  have l3 := rootMin_le 1 (a + b - c) (d - e) f
    (rootMin 1 (a + b - c) (-d + e) f (rootMin 1 (a + b + c) (-d - e) f 1))
  have l4 := rootMin_le 1 (a + b + c) (d + e) f (rootMin 1 (a + b - c) (d - e) f
    (rootMin 1 (a + b - c) (-d + e) f (rootMin 1 (a + b + c) (-d - e) f 1)))
  have m2 := rootMin_le_one 1 (a + b - c) (-d + e) f _ l1
  have m3 := rootMin_le_one 1 (a + b - c) (d - e) f _ (l2.trans l1)
  have m4 := rootMin_le_one 1 (a + b + c) (d + e) f _ (l3.trans (l2.trans l1))
  have k1 := q (a + b + c) (d + e) f h1 hf (by rw [kq]; linarith)
  have k2 := q (a + b - c) (d - e) f h2 hf (by rw [kq]; linarith)
  have k3 := q (a + b - c) (-d + e) f h2 hf (by rw [kq]; linarith)
  have k4 := q (a + b + c) (-d - e) f h1 hf (by rw [kq]; linarith)
  have hlead : a + c * c / (-4 * b) ≠ 0 := by
    have h4 : 0 < -4 * b := by linarith
    have : 0 < a * (-4 * b) + c * c := by linarith
    have e0 : a + c * c / (-4 * b) = (a * (-4 * b) + c * c) / (-4 * b) := by
      rw [add_div, mul_div_cancel_right₀ _ h4.ne']
    rw [e0]
    exact (div_pos this h4).ne'
  -- the two edges
  have edge1 : ∀ z, |z| ≤ t → form a b c d e f t z < 0 := by
    intro z hz
    have := edge_neg b (e + c * t) (a * t ^ 2 + d * t + f) t z hb hz (by linarith) (by linarith) ?_
    · unfold form; linarith
    rcases lt_max_iff.1 hE1 with h | h
    · rcases edgeEb1_spec _ _ _ _ _ (by linarith) (by linarith) ht0 h with h | h
      · exact Or.inl (by linarith)
      · exact Or.inr (Or.inl (by linarith))
    · split at h
      · rename_i hg
        have := q _ _ _ hlead hg h
        refine Or.inr (Or.inr ?_)
        refine lt_of_eq_of_lt ?_ this
        field_simp
        ring
      · exact absurd h (not_lt.2 ht0)
  have edge2 : ∀ z, |z| ≤ t → form a b c d e f (-t) z < 0 := by
    intro z hz
    have := edge_neg b (e - c * t) (a * t ^ 2 - d * t + f) t z hb hz (by linarith) (by linarith) ?_
    · unfold form; linarith
    rcases lt_max_iff.1 hE2 with h | h
    · rcases edgeEb1_spec _ _ _ _ _ (by linarith) (by linarith) ht0 h with h | h
      · exact Or.inl (by linarith)
      · exact Or.inr (Or.inl (by linarith))
    · split at h
      · rename_i hg
        have := q _ _ _ hlead hg h
        refine Or.inr (Or.inr ?_)
        refine lt_of_eq_of_lt ?_ this
        field_simp
        ring
      · exact absurd h (not_lt.2 ht0)
  -- convexity in the first variable
  have g1 := edge1 y hyt
  have g2 := edge2 y hyt
  have ⟨x1, x2⟩ := abs_le.1 hxt
  have e0 : (x + t) * form a b c d e f t y + (t - x) * form a b c d e f (-t) y -
      2 * t * form a b c d e f x y = 2 * t * a * ((x + t) * (t - x)) := by
    unfold form; ring
  have e1 : 0 ≤ 2 * t * a * ((x + t) * (t - x)) := by
    have := mul_nonneg (by linarith : 0 ≤ x + t) (by linarith : 0 ≤ t - x)
    positivity
  by_contra hcon
  have e2 : 0 ≤ 2 * t * form a b c d e f x y := by
    have := not_lt.1 hcon
    positivity
  rcases eq_or_lt_of_le x2 with hxe | hxe
  · rw [hxe] at hcon; exact hcon g1
  · have : (t - x) * form a b c d e f (-t) y < 0 := mul_neg_of_pos_of_neg (by linarith) g2
    have : (x + t) * form a b c d e f t y ≤ 0 :=
      mul_nonpos_of_nonneg_of_nonpos (by linarith) g1.le
    linarith

/-- **C75** `max_eb_to_keep_sign_2d_online_general` does not keep a positive sign at saddles: the
form `3xy - x^2 - y^2 + 1` is positive at the origin and negative at `(1/2, -1/2)`, but the bound is
one.  (The function that was to treat the corners of the square for `f > 0` is never called.) -/
theorem C75_general_pos_lost : general (-1) (-1) 3 0 0 1 = 1 ∧
    form (-1) (-1) 3 0 0 1 (1 / 2) (-1 / 2) < 0 := by
  constructor
  · norm_num [general, cylinder]
  · norm_num [form]

/-- **C75** Nor a negative one: at the edge `y = -t` the code divides by another expression than it
tested. -/
theorem C75_general_divisor_lost : general (-1) 0 (-1) (-1) (-1) (-11 / 20) = 1 ∧
    0 < form (-1) 0 (-1) (-1) (-1) (-11 / 20) (-1 / 4) (-1 / 2) := by
  constructor
  · norm_num [general, cylinder, cornersLt0, rootMin, edgeEb1]
  · norm_num [form]

/-- **C75** And `eb1` of one edge is still there at the next one: the bound is 3/8, and the form
changes sign at `(-7/20, 1/40)`. -/
theorem C75_general_stale_lost : general 0 (-1) (-3) (-1) (-1) (-9 / 32) = 3 / 8 ∧
    0 < form 0 (-1) (-3) (-1) (-1) (-9 / 32) (-7 / 20) (1 / 40) := by
  refine ⟨?_, by norm_num [form]⟩
  have h : √(9 / 4) = (3 / 2 : ℝ) := by
    rw [show (9 / 4 : ℝ) = (3 / 2) ^ 2 by norm_num]; exact Real.sqrt_sq (by norm_num)
  have h' : √9 = (3 : ℝ) := by
    rw [show (9 : ℝ) = 3 ^ 2 by norm_num]; exact Real.sqrt_sq (by norm_num)
  have h'' : √4 = (2 : ℝ) := by
    rw [show (4 : ℝ) = 2 ^ 2 by norm_num]; exact Real.sqrt_sq (by norm_num)
  norm_num [general, cylinder, cornersLt0, rootMin, edgeEb1, h', h'']

/-! ### Cells without zeros -/

/-- Discriminant of the quadratic equation for the second coordinate of a zero of the cell. -/
def disc (u0 u1 u2 u3 v0 v1 v2 v3 : ℝ) : ℝ :=
  ((u3 - u0 - u2 + u1) * v1 + (u0 - u1) * (v2 - v1) - (v3 - v0 - v2 + v1) * u1
    - (v0 - v1) * (u2 - u1)) ^ 2
  - 4 * ((u3 - u0 - u2 + u1) * (v2 - v1) - (v3 - v0 - v2 + v1) * (u2 - u1)) *
    ((u0 - u1) * v1 - (v0 - v1) * u1)

/-- A cell with negative discriminant has no zero, in the cell or outside. -/
theorem no_zero_of_disc {u0 u1 u2 u3 v0 v1 v2 v3 : ℝ} (h : disc u0 u1 u2 u3 v0 v1 v2 v3 < 0)
    (x y : ℝ) : ¬ (bil u0 u1 u2 u3 x y = 0 ∧ bil v0 v1 v2 v3 x y = 0) := by
  rintro ⟨hu, hv⟩
  unfold bil at hu hv
  unfold disc at h
  set w := (u3 - u0 - u2 + u1) * (v2 - v1) - (v3 - v0 - v2 + v1) * (u2 - u1) with hw
  set T := (u3 - u0 - u2 + u1) * v1 + (u0 - u1) * (v2 - v1) - (v3 - v0 - v2 + v1) * u1
    - (v0 - v1) * (u2 - u1) with hT
  set K := (u0 - u1) * v1 - (v0 - v1) * u1 with hK
  have e : w * y ^ 2 + T * y + K = 0 := by
    rw [hw, hT, hK]
    linear_combination ((u3 - u0 - u2 + u1) * y + (u0 - u1)) * hv -
      ((v3 - v0 - v2 + v1) * y + (v0 - v1)) * hu
  have : T ^ 2 - 4 * w * K = (2 * w * y + T) ^ 2 := by
    have hk : K = -(w * y ^ 2 + T * y) := by linarith
    rw [hk]; ring
  rw [this] at h
  exact absurd h (not_lt.2 (sq_nonneg _))

/-- `deriveB` for a cell with negative discriminant. -/
theorem deriveB_disc {u0 u1 u2 u3 v0 v1 v2 v3 : ℝ} (h : disc u0 u1 u2 u3 v0 v1 v2 v3 < 0) :
    deriveB u0 u1 u2 u3 v0 v1 v2 v3 = 0 ∨ deriveB u0 u1 u2 u3 v0 v1 v2 v3 =
      min (min 1 (keepDen u0 u1 u2 u3 v0 v1 v2 v3)) (keepDelta u0 u1 u2 u3 v0 v1 v2 v3) := by
  unfold deriveB
  simp only
  split
  · exact Or.inl rfl
  rename_i hw
  split
  · exact Or.inl rfl
  split
  · exact Or.inl rfl
  right
  rw [if_pos]
  set w := (u3 - u0 - u2 + u1) * (v2 - v1) - (v3 - v0 - v2 + v1) * (u2 - u1) with hwd
  have hd : disc u0 u1 u2 u3 v0 v1 v2 v3 = w ^ 2 *
      (((-(u0 - u1) * (v2 - v1) + (v0 - v1) * (u2 - u1)) / w +
          ((v3 - v0 - v2 + v1) * u1 - (u3 - u0 - u2 + u1) * v1) / w) *
        ((-(u0 - u1) * (v2 - v1) + (v0 - v1) * (u2 - u1)) / w +
          ((v3 - v0 - v2 + v1) * u1 - (u3 - u0 - u2 + u1) * v1) / w) -
        4 * ((-(u0 - u1) * (v2 - v1) + (v0 - v1) * (u2 - u1)) / w *
            (((v3 - v0 - v2 + v1) * u1 - (u3 - u0 - u2 + u1) * v1) / w) -
          (-(v2 - v1) * u1 + (u2 - u1) * v1) / w *
            (((v3 - v0 - v2 + v1) * (u0 - u1) - (u3 - u0 - u2 + u1) * (v0 - v1)) / w))) := by
    have hw2 : w ^ 2 ≠ 0 := pow_ne_zero _ hw
    field_simp
    unfold disc
    ring
  rw [hd] at h
  by_contra hcon
  exact absurd h (not_lt.2 (mul_nonneg (sq_nonneg _) (not_lt.1 hcon)))

/-- **C75** A cell whose bilinear interpolation has no zero in the plane because the discriminant is
negative has none after any change of the fourth corner within the bound of
`derive_cp_eb_bilinear_online`, unless the vectors at opposite corners are parallel up to the sign
of one component. -/
theorem C75_no_zero_kept_partial (u0 u1 u2 u3 v0 v1 v2 v3 e1 e2 : ℝ)
    (h : disc u0 u1 u2 u3 v0 v1 v2 v3 < 0) (hd : u3 * v1 ≠ u1 * v3) (hs : u3 * v1 ≠ -(u1 * v3))
    (h1 : |e1| < deriveB u0 u1 u2 u3 v0 v1 v2 v3) (h2 : |e2| < deriveB u0 u1 u2 u3 v0 v1 v2 v3)
    (x y : ℝ) : ¬ (bil u0 u1 u2 (u3 * (1 + e1)) x y = 0 ∧ bil v0 v1 v2 (v3 * (1 + e2)) x y = 0) := by
  refine no_zero_of_disc ?_ x y
  rcases deriveB_disc h with h0 | h0
  · rw [h0] at h1
    exact absurd h1 (not_lt.2 (abs_nonneg _))
  rw [h0] at h1 h2
  have k1 := lt_of_lt_of_le h1 (min_le_right _ _)
  have k2 := lt_of_lt_of_le h2 (min_le_right _ _)
  unfold keepDelta at k1 k2
  have key := C75_cylinder_neg_partial _ _ _ _ _ _ e1 e2
    (by nlinarith [sq_nonneg (u3 * v1)]) (by nlinarith [sq_nonneg (u1 * v3)])
    (by
      intro hc
      have : (u3 * v1 - u1 * v3) ^ 2 = 0 := by linarith
      exact hd (sub_eq_zero.1 (pow_eq_zero_iff (two_ne_zero) |>.1 this)))
    (by
      intro hc
      have : (u3 * v1 + u1 * v3) ^ 2 = 0 := by linarith
      exact hs (eq_neg_of_add_eq_zero_left (pow_eq_zero_iff (two_ne_zero) |>.1 this)))
    (by
      have : disc u0 u1 u2 u3 v0 v1 v2 v3 = _ := rfl
      unfold disc at h
      linarith) k1 k2
  unfold form at key
  unfold disc
  linarith

/-- **C75** The signs of `w` ... -/
theorem C75_den_kept (u0 u1 u2 u3 v0 v1 v2 v3 e1 e2 : ℝ)
    (h1 : |e1| < keepDen u0 u1 u2 u3 v0 v1 v2 v3) (h2 : |e2| < keepDen u0 u1 u2 u3 v0 v1 v2 v3) :
    SameSign ((u3 - u0 - u2 + u1) * (v2 - v1) - (v3 - v0 - v2 + v1) * (u2 - u1))
      ((u3 * (1 + e1) - u0 - u2 + u1) * (v2 - v1) - (v3 * (1 + e2) - v0 - v2 + v1) * (u2 - u1)) := by
  have := C75_linear _ _ _ e1 e2 h1 h2
  convert this using 1 <;> ring

/-- **C75** ... and of the product of the two roots are kept by their bounds. -/
theorem C75_det_kept (u0 u1 u2 u3 v0 v1 v2 v3 e1 e2 : ℝ)
    (h1 : |e1| < keepF0 u0 u1 u2 u3 v0 v1 v2 v3) (h2 : |e2| < keepF0 u0 u1 u2 u3 v0 v1 v2 v3) :
    SameSign (((u3 - u0 - u2 + u1) * (v2 - v1) - (v3 - v0 - v2 + v1) * (u2 - u1)) *
        ((u0 - u1) * v1 - (v0 - v1) * u1))
      (((u3 * (1 + e1) - u0 - u2 + u1) * (v2 - v1) - (v3 * (1 + e2) - v0 - v2 + v1) * (u2 - u1)) *
        ((u0 - u1) * v1 - (v0 - v1) * u1)) := by
  have := C75_linear _ _ _ e1 e2 h1 h2
  convert this using 1 <;> ring

/-- **C75** The sign of the characteristic polynomial at one, `w * (w + T + K) = w^2 * f(1)`, is kept
by its bound where it is negative and the form is a saddle of the kind covered above. -/
theorem C75_f1_kept_partial (u0 u1 u2 u3 v0 v1 v2 v3 e1 e2 : ℝ) (F : ℝ → ℝ → ℝ)
    (hF : ∀ p q, F p q = ((p - u0 - u2 + u1) * (v2 - v1) - (q - v0 - v2 + v1) * (u2 - u1)) *
      (((p - u0 - u2 + u1) * (v2 - v1) - (q - v0 - v2 + v1) * (u2 - u1)) +
        ((p - u0 - u2 + u1) * v1 + (u0 - u1) * (v2 - v1) - (q - v0 - v2 + v1) * u1
          - (v0 - v1) * (u2 - u1)) + ((u0 - u1) * v1 - (v0 - v1) * u1)))
    (hneg : F u3 v3 < 0)
    (ha : 0 ≤ u3 ^ 2 * (v2 * (v2 - v1))) (hb : v3 ^ 2 * (u2 * (u2 - u1)) < 0)
    (hc : |u3 * v3 * (u2 * v1 + u1 * v2 - 2 * u2 * v2)| < -2 * (v3 ^ 2 * (u2 * (u2 - u1))))
    (hdet : u3 * v3 * (v2 * u1 - u2 * v1) ≠ 0)
    (hp : u3 ^ 2 * (v2 * (v2 - v1)) + v3 ^ 2 * (u2 * (u2 - u1)) +
      u3 * v3 * (u2 * v1 + u1 * v2 - 2 * u2 * v2) ≠ 0)
    (hm : u3 ^ 2 * (v2 * (v2 - v1)) + v3 ^ 2 * (u2 * (u2 - u1)) -
      u3 * v3 * (u2 * v1 + u1 * v2 - 2 * u2 * v2) ≠ 0)
    (h1 : |e1| < keepF1 u0 u1 u2 u3 v0 v1 v2 v3) (h2 : |e2| < keepF1 u0 u1 u2 u3 v0 v1 v2 v3) :
    F (u3 * (1 + e1)) (v3 * (1 + e2)) < 0 := by
  unfold keepF1 at h1 h2
  have ea : u3 * u3 * v2 * v2 - u3 * u3 * v1 * v2 = u3 ^ 2 * (v2 * (v2 - v1)) := by ring
  have eb : -u1 * u2 * v3 * v3 + u2 * u2 * v3 * v3 = v3 ^ 2 * (u2 * (u2 - u1)) := by ring
  have ec : u2 * u3 * v1 * v3 + u1 * u3 * v2 * v3 - 2 * u2 * u3 * v2 * v3 =
      u3 * v3 * (u2 * v1 + u1 * v2 - 2 * u2 * v2) := by ring
  rw [ea, eb, ec] at h1 h2
  have hsq : 0 < (u3 * v3 * (v2 * u1 - u2 * v1)) ^ 2 := by positivity
  have key := C75_general_neg_partial _ _ _ _ _ _ e1 e2 ha hb hc (by nlinarith) hp hm
    (by rw [hF] at hneg; linarith) h1 h2
  unfold form at key
  rw [hF]
  linarith

/-- **C75** With parallel vectors at opposite corners a zero can appear: the cell below has none,
its bound is 3/8, and a change by 11/32 produces a zero. -/
theorem C75_no_zero_lost : disc 1 1 0 1 (1 / 4) 1 2 1 < 0 ∧
    deriveB 1 1 0 1 (1 / 4) 1 2 1 = 3 / 8 ∧
    bil 1 1 0 (1 * (1 + -11 / 32)) (16 / 7) (-2) = 0 ∧
    bil (1 / 4) 1 2 (1 * (1 + -11 / 32)) (16 / 7) (-2) = 0 := by
  refine ⟨by norm_num [disc], ?_, by norm_num [bil], by norm_num [bil]⟩
  have : (√(36 : ℝ)) = 6 := by
    rw [show (36 : ℝ) = 6 ^ 2 by norm_num]; exact Real.sqrt_sq (by norm_num)
  norm_num [deriveB, keepDen, keepDelta, keepSign, cylinder, cornersLt0, rootMin, this]

/-! ### Examples -/

theorem sqrt_of {n m : ℝ} (hm : 0 ≤ m) (h : m ^ 2 = n) : √n = m := by
  rw [← h]; exact Real.sqrt_sq hm

example : 0 < form 1 1 2 1 0 (1 / 2) (-1 / 4) (1 / 4) :=
  C75_cylinder_pos 1 1 2 1 0 (1 / 2) _ _ (by norm_num) (by norm_num) (by norm_num) (by norm_num)
    (by norm_num [cylinder, abs_of_neg, abs_of_pos]) (by norm_num [cylinder, abs_of_pos])

example : form 1 4 4 0 0 (-1) (1 / 4) (1 / 4) < 0 := by
  have h1 : √36 = (6 : ℝ) := sqrt_of (by norm_num) (by norm_num)
  have h2 : √4 = (2 : ℝ) := sqrt_of (by norm_num) (by norm_num)
  have h : cylinder 1 4 4 0 0 (-1) = 1 / 3 := by
    norm_num [cylinder, cornersLt0, rootMin, h1, h2]
  exact C75_cylinder_neg_partial 1 4 4 0 0 (-1) _ _ (by norm_num) (by norm_num) (by norm_num)
    (by norm_num) (by norm_num) (by rw [h]; norm_num [abs_of_pos])
    (by rw [h]; norm_num [abs_of_pos])

example (x y : ℝ) : ¬ (bil 0 (-1) 1 (3 * (1 + 1 / 4)) x y = 0 ∧
    bil 2 2 1 (-1 * (1 + -1 / 4)) x y = 0) := by
  have h1 : √2304 = (48 : ℝ) := sqrt_of (by norm_num) (by norm_num)
  have h2 : √5184 = (72 : ℝ) := sqrt_of (by norm_num) (by norm_num)
  have h : deriveB 0 (-1) 1 3 2 2 1 (-1) = 23 / 49 := by
    norm_num [deriveB, keepDen, keepDelta, keepSign, cylinder, cornersLt0, rootMin, h1, h2]
  exact C75_no_zero_kept_partial 0 (-1) 1 3 2 2 1 (-1) _ _ (by norm_num [disc]) (by norm_num)
    (by norm_num) (by rw [h]; norm_num [abs_of_pos]) (by rw [h]; norm_num [abs_of_neg]) x y

example : form (25 / 16) (-9 / 16) 0 0 0 (-1) (1 / 2) (1 / 4) < 0 := by
  have h1 : √25 = (5 : ℝ) := sqrt_of (by norm_num) (by norm_num)
  have h2 : √4 = (2 : ℝ) := sqrt_of (by norm_num) (by norm_num)
  have h : general (25 / 16) (-9 / 16) 0 0 0 (-1) = 4 / 5 := by
    norm_num [general, cylinder, cornersLt0, rootMin, edgeEb1, keepQuadratic, h1, h2]
  exact C75_general_neg_partial _ _ _ _ _ _ _ _ (by norm_num) (by norm_num) (by norm_num)
    (by norm_num) (by norm_num) (by norm_num) (by norm_num) (by rw [h]; norm_num [abs_of_pos])
    (by rw [h]; norm_num [abs_of_pos])

example : (((1 * (1 + 1 / 4) : ℝ) - -3 - -1 + -2) * (-2 - -1) -
      ((-4) * (1 + 1 / 4) - 2 - -2 + -1) * (-1 - -2)) *
    ((((1 * (1 + 1 / 4) : ℝ) - -3 - -1 + -2) * (-2 - -1) -
      ((-4) * (1 + 1 / 4) - 2 - -2 + -1) * (-1 - -2)) +
      (((1 * (1 + 1 / 4) : ℝ) - -3 - -1 + -2) * -1 + (-3 - -2) * (-2 - -1) -
        ((-4) * (1 + 1 / 4) - 2 - -2 + -1) * -2 - (2 - -1) * (-1 - -2)) +
      ((-3 - -2) * -1 - (2 - -1) * -2)) < 0 := by
  have h1 : √36 = (6 : ℝ) := sqrt_of (by norm_num) (by norm_num)
  have h2 : √676 = (26 : ℝ) := sqrt_of (by norm_num) (by norm_num)
  have h : keepF1 (-3) (-2) (-1) 1 2 (-1) (-2) (-4) = 2 / 5 := by
    norm_num [keepF1, general, cylinder, cornersLt0, rootMin, edgeEb1, keepQuadratic, h1, h2]
  exact C75_f1_kept_partial (-3) (-2) (-1) 1 2 (-1) (-2) (-4) (1 / 4) (1 / 4) _ (fun _ _ => rfl)
    (by norm_num) (by norm_num) (by norm_num) (by norm_num) (by norm_num) (by norm_num)
    (by norm_num) (by rw [h]; norm_num [abs_of_pos]) (by rw [h]; norm_num [abs_of_pos])

/-! ### Degenerate cells -/

/-- The second coordinates of the zeros of a cell are roots of this polynomial, whatever the first
coordinate. -/
def elim (u0 u1 u2 u3 v0 v1 v2 v3 y : ℝ) : ℝ :=
  (bil u0 u1 u2 u3 1 y - bil u0 u1 u2 u3 0 y) * bil v0 v1 v2 v3 0 y -
    (bil v0 v1 v2 v3 1 y - bil v0 v1 v2 v3 0 y) * bil u0 u1 u2 u3 0 y

theorem elim_of_zero (u0 u1 u2 u3 v0 v1 v2 v3 x y : ℝ) (hu : bil u0 u1 u2 u3 x y = 0)
    (hv : bil v0 v1 v2 v3 x y = 0) : elim u0 u1 u2 u3 v0 v1 v2 v3 y = 0 := by
  have h : ∀ p0 p1 p2 p3 : ℝ, bil p0 p1 p2 p3 x y =
      x * (bil p0 p1 p2 p3 1 y - bil p0 p1 p2 p3 0 y) + bil p0 p1 p2 p3 0 y := by
    intro p0 p1 p2 p3; unfold bil; ring
  rw [h] at hu hv
  unfold elim
  generalize bil u0 u1 u2 u3 1 y - bil u0 u1 u2 u3 0 y = a at *
  generalize bil v0 v1 v2 v3 1 y - bil v0 v1 v2 v3 0 y = b at *
  linear_combination a * hv - b * hu

/-- **C75** A cell gets the bound zero, so that its last corner is stored without loss, when the
polynomial of the second coordinates of its zeros is degenerate: of degree below two, zero at the lower
edge of the cell, with a double root, or with opposite roots. -/
theorem C75_degenerate (u0 u1 u2 u3 v0 v1 v2 v3 a b c : ℝ)
    (h : ∀ y, elim u0 u1 u2 u3 v0 v1 v2 v3 y = a * y ^ 2 + b * y + c)
    (hd : a = 0 ∨ c = 0 ∨ b * b = 4 * a * c ∨ b = 0) : deriveB u0 u1 u2 u3 v0 v1 v2 v3 = 0 := by
  have e0 := h 0
  have e1 := h 1
  have e2 := h (-1)
  unfold elim bil at e0 e1 e2
  have hc : c = (u0 - u1) * v1 - (v0 - v1) * u1 := by linarith
  have ha : a = (u3 - u0 - u2 + u1) * (v2 - v1) - (v3 - v0 - v2 + v1) * (u2 - u1) := by linarith
  have hb : b = (u3 - u0 - u2 + u1) * v1 + (u0 - u1) * (v2 - v1) - (v3 - v0 - v2 + v1) * u1 -
      (v0 - v1) * (u2 - u1) := by linarith
  unfold deriveB
  simp only
  rw [← ha]
  by_cases h0 : a = 0
  · rw [if_pos h0]
  rw [if_neg h0]
  have ht : (-(u0 - u1) * (v2 - v1) + (v0 - v1) * (u2 - u1)) / a +
      ((v3 - v0 - v2 + v1) * u1 - (u3 - u0 - u2 + u1) * v1) / a = -b / a := by
    rw [hb]; field_simp; ring
  have hm : (-(u0 - u1) * (v2 - v1) + (v0 - v1) * (u2 - u1)) / a *
      (((v3 - v0 - v2 + v1) * u1 - (u3 - u0 - u2 + u1) * v1) / a) -
      (-(v2 - v1) * u1 + (u2 - u1) * v1) / a *
      (((v3 - v0 - v2 + v1) * (u0 - u1) - (u3 - u0 - u2 + u1) * (v0 - v1)) / a) = c / a := by
    rw [hc]
    field_simp
    rw [ha]
    ring
  rw [ht, hm]
  rcases hd with h1 | h1 | h1 | h1
  · exact absurd h1 h0
  · rw [if_pos (Or.inl (by rw [h1, zero_div]))]
  · have : -b / a * (-b / a) - 4 * (c / a) = 0 := by
      field_simp
      linarith
    rw [if_pos this, ite_self]
  · rw [if_pos (Or.inr (by rw [h1, neg_zero, zero_div]))]

-- The polynomial is `-2*y^2 - 1`.
example : deriveB 1 1 1 2 2 1 (-1) 1 = 0 :=
  C75_degenerate 1 1 1 2 2 1 (-1) 1 (-2) 0 (-1) (fun y => by unfold elim bil; ring)
    (Or.inr (Or.inr (Or.inr rfl)))

end CpSZ.VMode.Bilinear
