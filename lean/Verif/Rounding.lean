import Verif.Arith
import Mathlib.Data.Int.Log
/-
Floating point formats with `p` significant bits and unbounded exponents, as instances of
`IsRounding`: the hypotheses of the theorems about rounded arithmetic are met by binary32
(`p = 24`) and binary64 (`p = 53`) away from overflow and subnormal numbers, with rounding to
nearest or towards zero.
-/

namespace CpSZ

/-- Rounding of a significand to an integer. -/
structure IsIntRounding (rnd : ℝ → ℤ) : Prop where
  mono : Monotone rnd
  int : ∀ n : ℤ, rnd n = n

/-- Exponent of the last significant bit of `y`. -/
noncomputable def ulpExp (p : ℕ) (y : ℝ) : ℤ := Int.log 2 y - ((p : ℤ) - 1)

/-- Rounding of a nonnegative number to `p` significant bits. -/
noncomputable def flPos (rnd : ℝ → ℤ) (p : ℕ) (y : ℝ) : ℝ :=
  rnd (y / (2 : ℝ) ^ ulpExp p y) * (2 : ℝ) ^ ulpExp p y

/-- Rounding to `p` significant bits, symmetric about zero. -/
noncomputable def fl (rnd : ℝ → ℤ) (p : ℕ) (x : ℝ) : ℝ :=
  if 0 ≤ x then flPos rnd p x else - flPos rnd p (-x)

/-- Rounding to nearest (ties away from zero). -/
noncomputable def nearest (x : ℝ) : ℤ := ⌊x + 1 / 2⌋

theorem floor_rounding : IsIntRounding (fun x : ℝ => ⌊x⌋) :=
  ⟨fun _ _ h => Int.floor_le_floor h, fun n => Int.floor_intCast n⟩

theorem nearest_rounding : IsIntRounding nearest := by
  refine ⟨fun a b h => Int.floor_le_floor (by linarith), fun n => ?_⟩
  unfold nearest
  rw [Int.floor_eq_iff]
  constructor <;> linarith

section
variable {rnd : ℝ → ℤ} (hr : IsIntRounding rnd) {p : ℕ} (hp : 1 ≤ p)
include hr

theorem flPos_zero : flPos rnd p 0 = 0 := by
  have : rnd 0 = 0 := by simpa using hr.int 0
  simp [flPos, this]

theorem flPos_of_int {y : ℝ} {n : ℤ} (h : y = n * (2 : ℝ) ^ ulpExp p y) : flPos rnd p y = y := by
  have h2 : (2 : ℝ) ^ ulpExp p y ≠ 0 := zpow_ne_zero _ (by norm_num)
  have : y / (2 : ℝ) ^ ulpExp p y = n := by rw [div_eq_iff h2]; exact h
  rw [flPos, this, hr.int]
  exact h.symm

theorem flPos_nonneg {y : ℝ} (hy : 0 ≤ y) : 0 ≤ flPos rnd p y := by
  have h2 : (0 : ℝ) < (2 : ℝ) ^ ulpExp p y := zpow_pos (by norm_num) _
  have : (0 : ℤ) ≤ rnd (y / (2 : ℝ) ^ ulpExp p y) := by
    have := hr.mono (show ((0 : ℤ) : ℝ) ≤ y / (2 : ℝ) ^ ulpExp p y by
      push_cast; exact div_nonneg hy h2.le)
    rwa [hr.int] at this
  exact mul_nonneg (by exact_mod_cast this) h2.le

omit hr in
include hp in
theorem sig_range {y : ℝ} (hy : 0 < y) :
    (((2 ^ (p - 1) : ℤ) : ℤ) : ℝ) ≤ y / (2 : ℝ) ^ ulpExp p y ∧
      y / (2 : ℝ) ^ ulpExp p y < ((2 ^ p : ℤ) : ℝ) := by
  have h2 : (0 : ℝ) < (2 : ℝ) ^ ulpExp p y := zpow_pos (by norm_num) _
  have l1 : (2 : ℝ) ^ Int.log 2 y ≤ y := by
    exact_mod_cast Int.zpow_log_le_self (b := 2) (by norm_num) hy
  have l2 : y < (2 : ℝ) ^ (Int.log 2 y + 1) := by
    exact_mod_cast Int.lt_zpow_succ_log_self (b := 2) (by norm_num) y
  constructor
  · rw [le_div_iff₀ h2]
    refine le_trans (le_of_eq ?_) l1
    push_cast
    rw [← zpow_natCast, ← zpow_add₀ (by norm_num : (2 : ℝ) ≠ 0), ulpExp]
    congr 1
    omega
  · rw [div_lt_iff₀ h2]
    refine lt_of_lt_of_le l2 (le_of_eq ?_)
    push_cast
    rw [← zpow_natCast, ← zpow_add₀ (by norm_num : (2 : ℝ) ≠ 0), ulpExp]
    congr 1
    omega

include hp in
theorem flPos_range {y : ℝ} (hy : 0 < y) :
    (2 : ℝ) ^ Int.log 2 y ≤ flPos rnd p y ∧ flPos rnd p y ≤ (2 : ℝ) ^ (Int.log 2 y + 1) := by
  have h2 : (0 : ℝ) < (2 : ℝ) ^ ulpExp p y := zpow_pos (by norm_num) _
  obtain ⟨s1, s2⟩ := sig_range hp hy
  have t1 := hr.mono s1
  have t2 := hr.mono s2.le
  rw [hr.int] at t1 t2
  have t1' : ((2 ^ (p - 1) : ℤ) : ℝ) ≤ (rnd (y / (2 : ℝ) ^ ulpExp p y) : ℝ) := by exact_mod_cast t1
  have t2' : (rnd (y / (2 : ℝ) ^ ulpExp p y) : ℝ) ≤ ((2 ^ p : ℤ) : ℝ) := by exact_mod_cast t2
  constructor
  · refine le_trans (le_of_eq ?_) (mul_le_mul_of_nonneg_right t1' h2.le)
    push_cast
    rw [← zpow_natCast, ← zpow_add₀ (by norm_num : (2 : ℝ) ≠ 0), ulpExp]
    congr 1
    omega
  · refine le_trans (mul_le_mul_of_nonneg_right t2' h2.le) (le_of_eq ?_)
    push_cast
    rw [← zpow_natCast, ← zpow_add₀ (by norm_num : (2 : ℝ) ≠ 0), ulpExp]
    congr 1
    omega

include hp in
theorem flPos_mono {y z : ℝ} (hy : 0 ≤ y) (h : y ≤ z) : flPos rnd p y ≤ flPos rnd p z := by
  rcases eq_or_lt_of_le hy with h0 | hy
  · rw [← h0, flPos_zero hr]
    exact flPos_nonneg hr (hy.trans h)
  · rcases lt_or_eq_of_le (Int.log_mono_right (b := 2) hy h) with hl | hl
    · have h1 := (flPos_range hr hp hy).2
      have h2 := (flPos_range hr hp (hy.trans_le h)).1
      refine h1.trans (le_trans ?_ h2)
      exact zpow_le_zpow_right₀ (by norm_num) (by omega)
    · have he : ulpExp p y = ulpExp p z := by unfold ulpExp; rw [hl]
      have h2 : (0 : ℝ) < (2 : ℝ) ^ ulpExp p z := zpow_pos (by norm_num) _
      unfold flPos
      rw [he]
      refine mul_le_mul_of_nonneg_right ?_ h2.le
      exact_mod_cast hr.mono (div_le_div_of_nonneg_right h h2.le)

/-- A rounded number is an integer multiple of its own last bit. -/
theorem flPos_grid (hp : 1 ≤ p) {y : ℝ} (hy : 0 < y) :
    ∃ n : ℤ, flPos rnd p y = n * (2 : ℝ) ^ ulpExp p (flPos rnd p y) := by
  obtain ⟨r1, r2⟩ := flPos_range hr hp hy
  rcases eq_or_lt_of_le r2 with h | h
  · have hl : Int.log 2 ((2 : ℝ) ^ (Int.log 2 y + 1)) = Int.log 2 y + 1 := by
      have := Int.log_zpow (R := ℝ) (b := 2) (by norm_num) (Int.log 2 y + 1)
      exact_mod_cast this
    refine ⟨2 ^ (p - 1), ?_⟩
    rw [h, ulpExp, hl]
    push_cast
    rw [← zpow_natCast, ← zpow_add₀ (by norm_num : (2 : ℝ) ≠ 0)]
    congr 1
    omega
  · have hpos : 0 < flPos rnd p y := lt_of_lt_of_le (zpow_pos (by norm_num) _) r1
    have hl : Int.log 2 (flPos rnd p y) = Int.log 2 y := by
      apply le_antisymm
      · have := (Int.lt_zpow_iff_log_lt (b := 2) (by norm_num) hpos).1
          (show flPos rnd p y < ((2 : ℕ) : ℝ) ^ (Int.log 2 y + 1) by exact_mod_cast h)
        omega
      · exact (Int.zpow_le_iff_le_log (b := 2) (by norm_num) hpos).1 (by exact_mod_cast r1)
    have he : ulpExp p (flPos rnd p y) = ulpExp p y := by unfold ulpExp; rw [hl]
    exact ⟨rnd (y / (2 : ℝ) ^ ulpExp p y), by rw [he]; rfl⟩

end

theorem fl_neg {rnd : ℝ → ℤ} (hr : IsIntRounding rnd) (p : ℕ) (x : ℝ) :
    fl rnd p (-x) = - fl rnd p x := by
  unfold fl
  rcases lt_trichotomy x 0 with h | rfl | h
  · rw [if_pos (by linarith), if_neg (by linarith), neg_neg]
  · simp [flPos_zero hr]
  · rw [if_neg (by linarith), if_pos h.le, neg_neg]

/-- Rounding to at least 24 significant bits satisfies the assumptions. -/
theorem fl_isRounding {rnd : ℝ → ℤ} (hr : IsIntRounding rnd) {p : ℕ} (hp : 24 ≤ p) :
    IsRounding (fl rnd p) := by
  have hp1 : 1 ≤ p := by omega
  refine ⟨?_, fl_neg hr p, ?_, ?_, ?_⟩
  · intro x y h
    unfold fl
    split
    · rename_i hx
      rw [if_pos (hx.trans h)]
      exact flPos_mono hr hp1 hx h
    · rename_i hx
      split
      · rename_i hy
        have h1 := flPos_nonneg hr (p := p) hy
        have h2 := flPos_nonneg hr (p := p) (show 0 ≤ -x by linarith)
        linarith
      · rename_i hy
        have := flPos_mono hr hp1 (show 0 ≤ -y by linarith) (show -y ≤ -x by linarith)
        linarith
  · have key : ∀ n : ℤ, 0 < n → n ≤ 2 ^ 24 → flPos rnd p n = n := by
      intro n h0 h1
      have hpos : (0 : ℝ) < n := by exact_mod_cast h0
      rcases eq_or_lt_of_le h1 with rfl | h1
      · have hl : Int.log 2 (((2 ^ 24 : ℤ)) : ℝ) = 24 := by
          have := Int.log_zpow (R := ℝ) (b := 2) (by norm_num) 24
          push_cast
          exact_mod_cast this
        apply flPos_of_int hr (n := 2 ^ (p - 1))
        rw [ulpExp, hl]
        push_cast
        rw [← zpow_natCast, ← zpow_add₀ (by norm_num : (2 : ℝ) ≠ 0),
          show ((p - 1 : ℕ) : ℤ) + (24 - ((p : ℤ) - 1)) = 24 by omega]
        norm_num
      · have hl : Int.log 2 (n : ℝ) < 24 := by
          apply (Int.lt_zpow_iff_log_lt (b := 2) (by norm_num) hpos).1
          have : (n : ℝ) < ((2 ^ 24 : ℤ) : ℝ) := by exact_mod_cast h1
          push_cast at this
          refine this.trans_le (le_of_eq ?_)
          norm_num
        obtain ⟨k, hk⟩ : ∃ k : ℕ, ulpExp p (n : ℝ) = -(k : ℤ) :=
          ⟨(-ulpExp p (n : ℝ)).toNat, by unfold ulpExp; omega⟩
        apply flPos_of_int hr (n := n * 2 ^ k)
        rw [hk, zpow_neg, zpow_natCast]
        push_cast
        field_simp
    intro n hn
    rw [abs_le] at hn
    unfold fl
    rcases lt_trichotomy n 0 with h | rfl | h
    · have hneg : ¬ (0 : ℝ) ≤ n := by push Not; exact_mod_cast h
      rw [if_neg hneg]
      have := key (-n) (by omega) (by omega)
      push_cast at this
      rw [this, neg_neg]
    · simp [flPos_zero hr]
    · have hpos : (0 : ℝ) ≤ n := by exact_mod_cast h.le
      rw [if_pos hpos]
      exact key n h hn.2
  · intro k _ _
    have hpos : (0 : ℝ) < (2 : ℝ) ^ k := zpow_pos (by norm_num) _
    have hl : Int.log 2 ((2 : ℝ) ^ k) = k := by
      have := Int.log_zpow (R := ℝ) (b := 2) (by norm_num) k
      exact_mod_cast this
    unfold fl
    rw [if_pos hpos.le]
    apply flPos_of_int hr (n := 2 ^ (p - 1))
    rw [ulpExp, hl]
    push_cast
    rw [← zpow_natCast, ← zpow_add₀ (by norm_num : (2 : ℝ) ≠ 0)]
    congr 1
    omega
  · have key : ∀ y : ℝ, 0 < y → flPos rnd p (flPos rnd p y / 2) = flPos rnd p y / 2 := by
      intro y hy
      have hpos : 0 < flPos rnd p y :=
        lt_of_lt_of_le (zpow_pos (by norm_num) _) (flPos_range hr hp1 hy).1
      obtain ⟨n, hn⟩ := flPos_grid hr hp1 hy
      have hl : Int.log 2 (flPos rnd p y / 2) = Int.log 2 (flPos rnd p y) - 1 := by
        have h2 : (0 : ℝ) < flPos rnd p y / 2 := by linarith
        have l1 : (2 : ℝ) ^ Int.log 2 (flPos rnd p y) ≤ flPos rnd p y := by
          exact_mod_cast Int.zpow_log_le_self (b := 2) (by norm_num) hpos
        have l2 : flPos rnd p y < (2 : ℝ) ^ (Int.log 2 (flPos rnd p y) + 1) := by
          exact_mod_cast Int.lt_zpow_succ_log_self (b := 2) (by norm_num) (flPos rnd p y)
        apply le_antisymm
        · have := (Int.lt_zpow_iff_log_lt (b := 2) (by norm_num) h2).1
            (show flPos rnd p y / 2 < ((2 : ℕ) : ℝ) ^ (Int.log 2 (flPos rnd p y)) by
              rw [zpow_add_one₀ (by norm_num)] at l2
              push_cast
              linarith)
          omega
        · apply (Int.zpow_le_iff_le_log (b := 2) (by norm_num) h2).1
          rw [zpow_sub_one₀ (by norm_num)]
          push_cast
          linarith
      apply flPos_of_int hr (n := n)
      have he : ulpExp p (flPos rnd p y / 2) = ulpExp p (flPos rnd p y) - 1 := by
        unfold ulpExp; rw [hl]; ring
      rw [he, zpow_sub_one₀ (by norm_num), ← mul_assoc, ← hn]
      ring
    intro x _
    unfold fl
    rcases lt_trichotomy x 0 with h | rfl | h
    · have hpos : 0 < flPos rnd p (-x) :=
        lt_of_lt_of_le (zpow_pos (by norm_num) _) (flPos_range hr hp1 (by linarith)).1
      simp only [if_neg (not_le.2 h)]
      rw [if_neg (by linarith), show -(-flPos rnd p (-x) / 2) = flPos rnd p (-x) / 2 by ring,
        key (-x) (by linarith)]
      ring
    · simp [flPos_zero hr]
    · have hpos : 0 < flPos rnd p x :=
        lt_of_lt_of_le (zpow_pos (by norm_num) _) (flPos_range hr hp1 h).1
      simp only [if_pos h.le]
      rw [if_pos (by linarith), key x h]

/-- A number with an exponent at most that of `|x|` and few enough bits is exact. -/
theorem fl_exact {rnd : ℝ → ℤ} (hr : IsIntRounding rnd) {p : ℕ} {x : ℝ} {n : ℤ} {e : ℤ}
    (h : x = n * (2 : ℝ) ^ e) (hn : |n| < 2 ^ p) : fl rnd p x = x := by
  have key : ∀ (n : ℤ) (x : ℝ), x = n * (2 : ℝ) ^ e → 0 < n → n < 2 ^ p → flPos rnd p x = x := by
    intro n x h h0 h1
    have hx : 0 < x := by
      rw [h]; exact mul_pos (by exact_mod_cast h0) (zpow_pos (by norm_num) _)
    have hl : Int.log 2 x < p + e := by
      apply (Int.lt_zpow_iff_log_lt (b := 2) (by norm_num) hx).1
      rw [h, zpow_add₀ (by norm_num), zpow_natCast]
      refine mul_lt_mul_of_pos_right ?_ (zpow_pos (by norm_num) _)
      push_cast
      exact_mod_cast h1
    obtain ⟨k, hk⟩ : ∃ k : ℕ, e = ulpExp p x + (k : ℤ) :=
      ⟨(e - ulpExp p x).toNat, by unfold ulpExp; omega⟩
    apply flPos_of_int hr (n := n * 2 ^ k)
    conv_lhs => rw [h, hk, zpow_add₀ (by norm_num), zpow_natCast]
    push_cast
    ring
  rw [abs_lt] at hn
  unfold fl
  rcases lt_trichotomy n 0 with hn0 | rfl | hn0
  · have hneg : x < 0 := by
      rw [h]; exact mul_neg_of_neg_of_pos (by exact_mod_cast hn0) (zpow_pos (by norm_num) _)
    rw [if_neg (by linarith), key (-n) (-x) (by rw [h]; push_cast; ring) (by omega) (by omega),
      neg_neg]
  · have : x = 0 := by rw [h]; simp
    subst this
    simp [flPos_zero hr]
  · have hpos : 0 < x := by
      rw [h]; exact mul_pos (by exact_mod_cast hn0) (zpow_pos (by norm_num) _)
    rw [if_pos hpos.le, key n x h hn0 hn.2]

/-- The significand of a rounded number. -/
theorem flPos_eq {rnd : ℝ → ℤ} {p : ℕ} (hp : 1 ≤ p) {x : ℝ} {e : ℤ}
    (h1 : (2 : ℝ) ^ (p - 1) ≤ x) (h2 : x < (2 : ℝ) ^ p) :
    flPos rnd p (x * (2 : ℝ) ^ e) = rnd x * (2 : ℝ) ^ e := by
  have he : (0 : ℝ) < (2 : ℝ) ^ e := zpow_pos (by norm_num) _
  have hx : 0 < x * (2 : ℝ) ^ e := mul_pos (lt_of_lt_of_le (by positivity) h1) he
  have hl : Int.log 2 (x * (2 : ℝ) ^ e) = (p : ℤ) - 1 + e := by
    apply le_antisymm
    · have := (Int.lt_zpow_iff_log_lt (b := 2) (by norm_num) hx).1
        (show x * (2 : ℝ) ^ e < ((2 : ℕ) : ℝ) ^ ((p : ℤ) + e) by
          rw [zpow_add₀ (by norm_num), zpow_natCast]
          push_cast
          exact mul_lt_mul_of_pos_right h2 he)
      omega
    · apply (Int.zpow_le_iff_le_log (b := 2) (by norm_num) hx).1
      rw [zpow_add₀ (by norm_num), show (p : ℤ) - 1 = ((p - 1 : ℕ) : ℤ) by omega, zpow_natCast]
      push_cast
      exact mul_le_mul_of_nonneg_right h1 he.le
  have hu : ulpExp p (x * (2 : ℝ) ^ e) = e := by unfold ulpExp; rw [hl]; ring
  unfold flPos
  rw [hu, mul_div_assoc, div_self he.ne', mul_one]

-- binary32 and binary64, to nearest and towards zero.
example : IsRounding (fl nearest 24) ∧ IsRounding (fl nearest 53) ∧
    IsRounding (fl (fun x => ⌊x⌋) 24) ∧ IsRounding (fl (fun x => ⌊x⌋) 53) :=
  ⟨fl_isRounding nearest_rounding (by norm_num), fl_isRounding nearest_rounding (by norm_num),
    fl_isRounding floor_rounding (by norm_num), fl_isRounding floor_rounding (by norm_num)⟩

end CpSZ
