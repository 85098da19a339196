import Verif.Ieee.LogRun
/-
Functions that meet the assumptions on `log2`, `log2f` and `exp2`; used in examples.
-/

namespace CpSZ.Ieee

/-- Largest exponent from `r` to `r + 2^k` whose power of two is at most `n`, by bisection. -/
def logBits (n : Nat) : Nat → Nat → Nat
  | 0, r => r
  | k + 1, r => logBits n k (if 2 ^ (r + 2 ^ k) ≤ n then r + 2 ^ k else r)

/-- The binary logarithm of a natural number, by bisection if it is between `r` and `r + 2^k`. -/
def natLog (k r n : Nat) : Nat :=
  let l := logBits n k r
  if 2 ^ l ≤ n ∧ n < 2 ^ (l + 1) then l else Nat.log2 n

theorem natLog_eq {k r n : Nat} (h : n ≠ 0) : natLog k r n = Nat.log2 n := by
  unfold natLog
  simp only
  split
  · rename_i h1
    exact ((Nat.log2_eq_iff h).2 h1).symm
  · rfl

/-- The exponent used by `fineLog2`. -/
def fineN : Nat := 32

/-- The logarithm, rounded down to a multiple of 1/32. -/
def fineLog2 (a : Pat binary64) : Pat binary64 :=
  match dec binary64 a with
  | .fin x => enc binary64 false (round binary64
      ((natLog 6 0 (x.num.natAbs ^ fineN / x.den ^ fineN) : ℚ) / 32))
  | v => enc binary64 false v

theorem pow_log2_le {n : Nat} (h : n ≠ 0) : 2 ^ Nat.log2 n ≤ n := Nat.log2_self_le h

theorem lt_pow_log2 (n : Nat) : n < 2 ^ (Nat.log2 n + 1) := Nat.lt_log2_self

theorem rat_parts {x : ℚ} (h : 0 < x) : x = (x.num.natAbs : ℚ) / x.den := by
  have h1 : 0 < x.num := Rat.num_pos.2 h
  have h2 : (x.num.natAbs : ℚ) = x.num := by
    have : ((x.num.natAbs : Int) : ℚ) = x.num := by rw [Int.natAbs_of_nonneg h1.le]
    rwa [Int.cast_natCast] at this
  rw [h2, Rat.num_div_den]

/-- `fineLog2` of a number that is at least 1. -/
theorem fineLog2_spec {a : Pat binary64} {x : ℚ} (hx : dec binary64 a = .fin x) (h1 : 1 ≤ x) :
    ∃ k : Nat, dec binary64 (fineLog2 a) = .fin ((k : ℚ) / 32) ∧ (2 : ℚ) ^ k ≤ x ^ fineN := by
  have hx0 : 0 < x := by linarith
  have hxe := rat_parts hx0
  have hd : (0 : ℚ) < x.den := by exact_mod_cast x.pos
  have hle : x.den ≤ x.num.natAbs := by
    have : (x.den : ℚ) ≤ x.num.natAbs := by
      have h2 := h1
      rw [hxe, le_div_iff₀ hd] at h2
      linarith
    exact_mod_cast this
  set n := x.num.natAbs ^ fineN / x.den ^ fineN with hn
  have hn0 : n ≠ 0 := by
    rw [hn]
    exact (Nat.div_pos (Nat.pow_le_pow_left hle _) (Nat.pow_pos x.pos)).ne'
  have hnx : (n : ℚ) ≤ x ^ fineN := by
    have h2 : (n : ℚ) ≤ ((x.num.natAbs ^ fineN : Nat) : ℚ) / ((x.den ^ fineN : Nat) : ℚ) :=
      Nat.cast_div_le
    refine h2.trans (le_of_eq ?_)
    push_cast
    rw [← div_pow]
    conv_rhs => rw [hxe]
  have hk : (2 : ℚ) ^ Nat.log2 n ≤ x ^ fineN := le_trans (by exact_mod_cast pow_log2_le hn0) hnx
  refine ⟨Nat.log2 n, ?_, hk⟩
  have hb : Nat.log2 n < 2 ^ 21 := by
    obtain ⟨-, -, -, -, -, h4⟩ := rep_of_val (val_dec ok64 a) hx
    rw [abs_of_pos hx0] at h4
    have e : binary64.emax + 1 = ((1024 : Nat) : Int) := by decide
    rw [e, p2_nat] at h4
    have h5 : (2 : ℚ) ^ Nat.log2 n < (2 ^ 1024) ^ fineN :=
      lt_of_le_of_lt hk (pow_lt_pow_left₀ h4 hx0.le (by decide))
    rw [← pow_mul] at h5
    have h6 : Nat.log2 n < 1024 * fineN := (pow_lt_pow_iff_right₀ (by norm_num : (1 : ℚ) < 2)).1 h5
    have h7 : fineN = 32 := rfl
    omega
  have hr : Rep binary64 ((Nat.log2 n : ℚ) / 32) := by
    refine ⟨Nat.log2 n, -5, ?_, ?_, by decide, ?_⟩
    · rw [p2_eq]; norm_num; ring
    · rw [abs_of_nonneg (by positivity)]
      have : (2 : Int) ^ 21 ≤ 2 ^ binary64.p := by norm_num [binary64]
      have h7 : ((Nat.log2 n : Nat) : Int) < 2 ^ 21 := by exact_mod_cast hb
      omega
    · rw [abs_of_nonneg (by positivity)]
      have h7 : ((Nat.log2 n : Nat) : ℚ) < 2 ^ 21 := by exact_mod_cast hb
      have e0 : binary64.emax = 1023 := by decide
      have h8 : p2 21 ≤ p2 (binary64.emax + 1) := p2_le (by omega)
      have e2 : p2 21 = 2 ^ 21 := by rw [p2_eq]; norm_num
      rw [e2] at h8
      have : (Nat.log2 n : ℚ) / 32 ≤ Nat.log2 n := by
        have : (0 : ℚ) ≤ Nat.log2 n := Nat.cast_nonneg _
        linarith
      linarith
  unfold fineLog2
  rw [hx]
  simp only
  rw [← hn, natLog_eq hn0, round_rep ok64 hr]
  exact dec_enc ok64 _ hr

theorem fineLog2_ok : LogOk fineLog2 0 := by
  intro a x hx h1
  obtain ⟨k, k1, k2⟩ := fineLog2_spec hx h1
  refine ⟨_, k1, ?_, fun n hn => ?_⟩
  · have : (0 : ℚ) ≤ (k : ℚ) / 32 := by positivity
    linarith
  · rw [le_div_iff₀ (by norm_num)] at hn
    have hn' : n * fineN ≤ k := by exact_mod_cast hn
    have h2 : ((2 : ℚ) ^ n) ^ fineN ≤ x ^ fineN := by
      rw [← pow_mul]
      exact (pow_le_pow_right₀ (by norm_num) hn').trans k2
    rw [add_zero, one_mul]
    exact le_of_pow_le_pow_left₀ (by decide) (by linarith) h2

theorem fineLog2_up : LogUp fineLog2 := by
  intro a x hx h1 _
  obtain ⟨k, k1, k2⟩ := fineLog2_spec hx h1
  refine ⟨_, k1, ?_⟩
  have hx0 : (0 : ℝ) < x := by
    have : (0 : ℚ) < x := by linarith
    exact_mod_cast this
  have h2 : (2 : ℝ) ^ k ≤ (x : ℝ) ^ fineN := by exact_mod_cast k2
  have h3 := Real.logb_le_logb_of_le (b := 2) (by norm_num) (by positivity) h2
  rw [Real.logb_pow, Real.logb_pow, Real.logb_self_eq_one (by norm_num)] at h3
  have h4 : ((k : ℝ)) / 32 ≤ Real.logb 2 x := by
    rw [div_le_iff₀ (by norm_num)]
    have e : (fineN : ℝ) = 32 := by unfold fineN; norm_num
    rw [e] at h3
    linarith
  have h5 : (0 : ℝ) ≤ 1 / 2 ^ 30 := by norm_num
  push_cast
  linarith

/-- A logarithm with an error of less than `2^-16`. -/
def libLog (F : Fmt) (a : Pat F) : Pat F :=
  match dec F a with
  | .fin x => enc F false (round F (((natLog 17 (2 ^ 17 * Nat.log2 x.num.natAbs) (x.num.natAbs ^ 2 ^ 17) : ℚ) -
      natLog 17 (2 ^ 17 * Nat.log2 x.den) (x.den ^ 2 ^ 17)) / 2 ^ 17))
  | v => enc F false v

theorem logb_bounds {n : Nat} (h : 0 < n) :
    (Nat.log2 n : ℝ) ≤ Real.logb 2 n ∧ Real.logb 2 n < Nat.log2 n + 1 := by
  have hn : (0 : ℝ) < n := by exact_mod_cast h
  constructor
  · rw [Real.le_logb_iff_rpow_le (by norm_num) hn, Real.rpow_natCast]
    exact_mod_cast pow_log2_le h.ne'
  · rw [Real.logb_lt_iff_lt_rpow (by norm_num) hn]
    have e : ((Nat.log2 n : ℝ) + 1) = ((Nat.log2 n + 1 : Nat) : ℝ) := by push_cast; rfl
    rw [e, Real.rpow_natCast]
    exact_mod_cast lt_pow_log2 n

theorem libLog_ok {F : Fmt} (hF : F.Ok) (hp : 24 ≤ F.p) (hemin : F.emin ≤ -17) (hemax : 8 ≤ F.emax)
    {a : Pat F} {x : ℚ} (hx : dec F a = .fin x) (h1 : p2 (-97) ≤ x) (h2 : x ≤ p2 124) :
    ∃ l, dec F (libLog F a) = .fin l ∧ |(l : ℝ) - Real.logb 2 x| ≤ 1 / 2 ^ 16 := by
  have hx0 : 0 < x := (p2_pos _).trans_le h1
  have hxR : (0 : ℝ) < x := by exact_mod_cast hx0
  have hN : 0 < x.num.natAbs := Int.natAbs_pos.2 (Rat.num_pos.2 hx0).ne'
  obtain ⟨N, hNN⟩ : ∃ N : Nat, N = 2 ^ 17 := ⟨_, rfl⟩
  have hNR : (N : ℝ) = 2 ^ 17 := by rw [hNN]; norm_num
  obtain ⟨n1, n2⟩ := logb_bounds (Nat.pow_pos (n := N) hN)
  obtain ⟨d1, d2⟩ := logb_bounds (Nat.pow_pos (n := N) x.pos)
  obtain ⟨A, hA⟩ : ∃ A, A = Nat.log2 (x.num.natAbs ^ N) := ⟨_, rfl⟩
  obtain ⟨B, hB⟩ : ∃ B, B = Nat.log2 (x.den ^ N) := ⟨_, rfl⟩
  rw [← hA] at n1 n2
  rw [← hB] at d1 d2
  push_cast at n1 n2 d1 d2
  rw [Real.logb_pow] at n1 n2 d1 d2
  have hlog : Real.logb 2 x = Real.logb 2 x.num.natAbs - Real.logb 2 x.den := by
    rw [← Real.logb_div (by exact_mod_cast hN.ne') (by exact_mod_cast x.pos.ne')]
    congr 1
    have := congrArg (fun q : ℚ => (q : ℝ)) (rat_parts hx0)
    push_cast at this
    exact this
  have u1 : -97 ≤ Real.logb 2 x := by
    rw [Real.le_logb_iff_rpow_le (by norm_num) hxR]
    have e : (2 : ℝ) ^ (-97 : ℝ) = (2 : ℝ) ^ (-97 : ℤ) := by rw [← Real.rpow_intCast]; norm_num
    rw [e, ← p2_real]; exact_mod_cast h1
  have u2 : Real.logb 2 x ≤ 124 := by
    rw [Real.logb_le_iff_le_rpow (by norm_num) hxR]
    have e : (2 : ℝ) ^ (124 : ℝ) = (2 : ℝ) ^ (124 : ℤ) := by rw [← Real.rpow_intCast]; norm_num
    rw [e, ← p2_real]; exact_mod_cast h2
  obtain ⟨q, hq⟩ : ∃ q : ℚ, q = ((A : ℚ) - B) / 2 ^ 17 := ⟨_, rfl⟩
  have hqR : (q : ℝ) = ((A : ℝ) - B) / 2 ^ 17 := by rw [hq]; push_cast; rfl
  have hql : |(q : ℝ) - Real.logb 2 x| ≤ 1 / 2 ^ 17 := by
    have e : (q : ℝ) - Real.logb 2 x = (((A : ℝ) - B) - 2 ^ 17 * Real.logb 2 x) / 2 ^ 17 := by
      rw [hqR]; field_simp
    rw [e, abs_div, abs_of_pos (show (0 : ℝ) < 2 ^ 17 by norm_num)]
    refine div_le_div_of_nonneg_right ?_ (by norm_num)
    rw [hlog]
    rw [hNR] at n1 n2 d1 d2
    rw [abs_le]
    constructor <;> linarith
  have hqb : |q| ≤ 128 := by
    have h3 := (abs_le.1 hql).1
    have h4 := (abs_le.1 hql).2
    have h5 : (1 / 2 ^ 17 : ℝ) ≤ 1 := by norm_num
    have : |(q : ℝ)| ≤ 128 := by rw [abs_le]; constructor <;> linarith
    exact_mod_cast this
  have e7 : p2 7 = 128 := by rw [p2_eq]; norm_num
  have hup : F.umin ≤ 7 := by unfold Fmt.umin; omega
  obtain ⟨l, l1, l2⟩ := round_bounded hF (b := p2 7) (rep_p2 hup (by omega)) (x := q)
    (by rw [e7]; exact hqb)
  have hlq : |l - q| ≤ 1 / 2 ^ 17 := by
    by_cases hz : A = B
    · have : q = 0 := by rw [hq, hz]; simp
      rw [this] at l1
      have h0 := round_rep hF (rep_zero (F := F))
      rw [h0] at l1
      cases l1
      rw [this]; norm_num
    · have hqs : p2 F.emin ≤ |q| := by
        refine (p2_le hemin).trans ?_
        have : (1 : ℚ) ≤ |(A : ℚ) - B| := by
          have : (1 : Int) ≤ |(A : Int) - B| := Int.one_le_abs (by omega)
          exact_mod_cast this
        have e17 : p2 (-17) = 1 / 2 ^ 17 := by rw [p2_eq]; norm_num
        rw [hq, abs_div, abs_of_pos (show (0 : ℚ) < 2 ^ 17 by norm_num), e17]
        exact div_le_div_of_nonneg_right this (by norm_num)
      have h3 := rmag_rel (F := F) hqs
      obtain ⟨h4, -, h5, h6⟩ := round_fin l1
      rw [← h4] at h3
      have h7 : |l - q| = |(|l| - |q|)| := by
        rcases le_total 0 q with h | h
        · rw [abs_of_nonneg (h5 h), abs_of_nonneg h]
        · rw [abs_of_nonpos (h6 h), abs_of_nonpos h, ← abs_neg]
          congr 1; ring
      rw [h7]
      refine h3.trans ?_
      have h8 : p2 (-(F.p : Int)) ≤ p2 (-24) := p2_le (by omega)
      have e24 : p2 (-24) = 1 / 2 ^ 24 := by rw [p2_eq]; norm_num
      rw [e24] at h8
      calc _ ≤ (1 / 2 ^ 24 : ℚ) * 128 :=
            mul_le_mul h8 hqb (abs_nonneg _) (by norm_num)
        _ = 1 / 2 ^ 17 := by norm_num
  refine ⟨l, ?_, ?_⟩
  · unfold libLog
    rw [hx]
    simp only
    rw [← hNN, natLog_eq (Nat.pow_pos hN).ne', natLog_eq (Nat.pow_pos x.pos).ne', ← hA, ← hB, ← hq,
      l1]
    exact dec_enc hF _ (by rw [← l1]; exact val_round _)
  · have h3 : |(l : ℝ) - q| ≤ 1 / 2 ^ 17 := by
      have : ((|l - q| : ℚ) : ℝ) ≤ ((1 / 2 ^ 17 : ℚ) : ℝ) := Rat.cast_le.2 hlq
      push_cast at this
      exact this
    have h4 := abs_sub_le (l : ℝ) q (Real.logb 2 x)
    have h5 : (1 / 2 ^ 17 : ℝ) + 1 / 2 ^ 17 = 1 / 2 ^ 16 := by norm_num
    linarith

/-- Whether `z` is close to `2^y`. -/
def expNear (z y : ℚ) : Bool :=
  decide (0 < z) && decide (((1 - 1 / 2 ^ 23) * z) ^ y.den ≤ p2 y.num) &&
    decide (p2 y.num ≤ ((1 + 1 / 2 ^ 23) * z) ^ y.den)

/-- Root of `m` by bisection: adds the bits that fit. -/
def rootBits (d m : Nat) : Nat → Nat → Nat
  | 0, r => r
  | k + 1, r => rootBits d m k (if (r + 2 ^ k) ^ d ≤ m then r + 2 ^ k else r)

open Classical in
/-- A power of two: computed for exponents that are multiples of 1/1024, infinite for exponents of
at least 128, and otherwise any accurate value. -/
noncomputable def libExp (F : Fmt) (a : Pat F) : Pat F :=
  match dec F a with
  | .fin y =>
    if 128 ≤ y then enc F false (.inf false)
    else
      let g := if y.den = 1 then enc F false (round F (p2 y.num))
        else if y.den ≤ 1024 then enc F false (round F
        ((rootBits y.den (2 ^ (y.num + 130 * y.den).toNat) 260 0 : ℚ) / 2 ^ 130)) else a
      match dec F g with
      | .fin z =>
        if expNear z y then g
        else if h : ∃ b z, dec F b = .fin z ∧
            |(z : ℝ) - (2 : ℝ) ^ (y : ℝ)| ≤ 1 / 2 ^ 22 * (2 : ℝ) ^ (y : ℝ) then h.choose else a
      | _ => if h : ∃ b z, dec F b = .fin z ∧
            |(z : ℝ) - (2 : ℝ) ^ (y : ℝ)| ≤ 1 / 2 ^ 22 * (2 : ℝ) ^ (y : ℝ) then h.choose else a
  | v => enc F false v

theorem exists_exp {F : Fmt} (hF : F.Ok) (hp : 24 ≤ F.p) (hemin : F.emin ≤ -101)
    (hemax : 127 ≤ F.emax) {y : ℚ} (h1 : -101 ≤ y) (h2 : y ≤ 126) :
    ∃ b z, dec F b = .fin z ∧
      |(z : ℝ) - (2 : ℝ) ^ (y : ℝ)| ≤ 1 / 2 ^ 22 * (2 : ℝ) ^ (y : ℝ) := by
  obtain ⟨Q, hQ⟩ : ∃ Q : ℝ, Q = (2 : ℝ) ^ (y : ℝ) := ⟨_, rfl⟩
  have hQ0 : 0 < Q := by rw [hQ]; exact Real.rpow_pos_of_pos (by norm_num) _
  have b1 : (2 : ℝ) ^ (-101 : ℤ) ≤ Q := by
    rw [hQ, ← Real.rpow_intCast]
    apply Real.rpow_le_rpow_of_exponent_le (by norm_num)
    push_cast; exact_mod_cast h1
  have b2 : Q ≤ (2 : ℝ) ^ (126 : ℤ) := by
    rw [hQ, ← Real.rpow_intCast]
    apply Real.rpow_le_rpow_of_exponent_le (by norm_num)
    push_cast; exact_mod_cast h2
  obtain ⟨q, q1, q2⟩ := exists_rat_btwn (show Q < (1 + 1 / 2 ^ 24) * Q by nlinarith)
  have q3 : p2 F.emin ≤ q := by
    have : ((p2 F.emin : ℚ) : ℝ) ≤ q := by
      have h3 : ((p2 F.emin : ℚ) : ℝ) ≤ ((p2 (-101) : ℚ) : ℝ) := by exact_mod_cast p2_le hemin
      rw [p2_real (-101)] at h3
      linarith
    exact_mod_cast this
  have q0 := (p2_pos _).trans_le q3
  have q4 : |q| ≤ p2 127 := by
    rw [abs_of_pos q0]
    have : (q : ℝ) ≤ ((p2 127 : ℚ) : ℝ) := by
      rw [p2_real]
      have e : (2 : ℝ) ^ (127 : ℤ) = 2 * (2 : ℝ) ^ (126 : ℤ) := by norm_num
      rw [e]
      nlinarith
    exact_mod_cast this
  obtain ⟨z, z1, -⟩ := round_bounded hF (rep_p2 (by unfold Fmt.umin; omega) hemax) q4
  refine ⟨enc F false (.fin z), z, dec_enc hF _ (by rw [← z1]; exact val_round _), ?_⟩
  have h3 := rmag_rel (F := F) q3
  obtain ⟨h4, -, h5, -⟩ := round_fin z1
  rw [abs_of_nonneg (h5 q0.le), abs_of_pos q0] at h4
  rw [← h4] at h3
  have h8 : p2 (-(F.p : Int)) ≤ p2 (-24) := p2_le (by omega)
  have e24 : p2 (-24) = 1 / 2 ^ 24 := by rw [p2_eq]; norm_num
  rw [e24] at h8
  have h9 : |z - q| ≤ 1 / 2 ^ 24 * q := h3.trans (mul_le_mul_of_nonneg_right h8 q0.le)
  have h10 : |(z : ℝ) - q| ≤ 1 / 2 ^ 24 * q := by
    rw [← Rat.cast_sub, ← Rat.cast_abs]
    have : ((|z - q| : ℚ) : ℝ) ≤ ((1 / 2 ^ 24 * q : ℚ) : ℝ) := by exact_mod_cast h9
    push_cast at this ⊢
    exact this
  rw [← hQ]
  rw [abs_le] at h10 ⊢
  obtain ⟨i1, i2⟩ := h10
  constructor <;> norm_num at i1 i2 q2 ⊢ <;> linarith

theorem expNear_ok {z y : ℚ} (h : expNear z y = true) :
    |(z : ℝ) - (2 : ℝ) ^ (y : ℝ)| ≤ 1 / 2 ^ 22 * (2 : ℝ) ^ (y : ℝ) := by
  unfold expNear at h
  simp only [Bool.and_eq_true, decide_eq_true_eq] at h
  obtain ⟨⟨h0, h1⟩, h2⟩ := h
  obtain ⟨Q, hQ⟩ : ∃ Q : ℝ, Q = (2 : ℝ) ^ (y : ℝ) := ⟨_, rfl⟩
  have hQ0 : 0 < Q := by rw [hQ]; exact Real.rpow_pos_of_pos (by norm_num) _
  have hz : (0 : ℝ) < z := by exact_mod_cast h0
  have hpow : Q ^ y.den = ((p2 y.num : ℚ) : ℝ) := by
    rw [hQ, p2_real, ← Real.rpow_natCast, ← Real.rpow_mul (by norm_num), ← Real.rpow_intCast]
    congr 1
    have hd : (y.den : ℚ) ≠ 0 := by exact_mod_cast y.pos.ne'
    have : y * y.den = y.num := Rat.mul_den_eq_num y
    exact_mod_cast this
  have g1 : (1 - 1 / 2 ^ 23) * (z : ℝ) ≤ Q := by
    refine le_of_pow_le_pow_left₀ y.pos.ne' hQ0.le ?_
    rw [hpow]
    have : ((((1 - 1 / 2 ^ 23) * z) ^ y.den : ℚ) : ℝ) ≤ ((p2 y.num : ℚ) : ℝ) := by exact_mod_cast h1
    push_cast at this
    exact this
  have g2 : Q ≤ (1 + 1 / 2 ^ 23) * (z : ℝ) := by
    refine le_of_pow_le_pow_left₀ y.pos.ne' (by positivity) ?_
    rw [hpow]
    have : ((p2 y.num : ℚ) : ℝ) ≤ ((((1 + 1 / 2 ^ 23) * z) ^ y.den : ℚ) : ℝ) := by exact_mod_cast h2
    push_cast at this
    exact this
  rw [← hQ, abs_le]
  constructor <;> norm_num at g1 g2 ⊢ <;> linarith

theorem libExp_ok {F : Fmt} (hF : F.Ok) (hp : 24 ≤ F.p) (hemin : F.emin ≤ -101)
    (hemax : 127 ≤ F.emax) {a : Pat F} {y : ℚ} (hy : dec F a = .fin y) (h1 : -101 ≤ y)
    (h2 : y ≤ 126) : ∃ z, dec F (libExp F a) = .fin z ∧
      |(z : ℝ) - (2 : ℝ) ^ (y : ℝ)| ≤ 1 / 2 ^ 22 * (2 : ℝ) ^ (y : ℝ) := by
  have hex := exists_exp hF hp hemin hemax h1 h2
  unfold libExp
  rw [hy]
  simp only
  rw [if_neg (by linarith)]
  split
  · rename_i z hz
    by_cases hn : expNear z y = true
    · rw [if_pos hn]
      exact ⟨z, hz, expNear_ok hn⟩
    · rw [if_neg hn, dif_pos hex]
      exact hex.choose_spec
  · simp only [dif_pos hex]
    exact hex.choose_spec

/-- There are functions of the assumed accuracy. -/
theorem lib_ok {F : Fmt} (hF : F.Ok) (hp : 24 ≤ F.p) (hemin : F.emin ≤ -101)
    (hemax : 127 ≤ F.emax) : ExpLogOk F (libLog F) (libExp F) where
  log _ _ hx h1 h2 := libLog_ok hF hp (by omega) (by omega) hx h1 h2
  exp _ _ hy h1 h2 := libExp_ok hF hp hemin hemax hy h1 h2

end CpSZ.Ieee
