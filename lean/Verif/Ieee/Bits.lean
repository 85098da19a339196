import Verif.Ieee.Run
/-
IEEE-754 arithmetic on bit patterns: the operations on `float` and `double` as the code finds
them in memory.  They meet what `IsIeee` asks for, and they can be computed.
Nothing of /repo is modelled here.
-/

namespace CpSZ.Ieee

/-- A bit pattern of the format: sign, exponent, fraction. -/
abbrev Pat (F : Fmt) := BitVec (F.ew + F.p)

section
variable (F : Fmt)

/-- The sign bit. -/
def sgn (a : Pat F) : Bool := decide (2 ^ (F.ew + F.p - 1) ≤ a.toNat)

/-- The bits without the sign. -/
def mag (a : Pat F) : Nat := a.toNat % 2 ^ (F.ew + F.p - 1)

def pack (s : Bool) (n : Nat) : Pat F :=
  BitVec.ofNat _ (n + if s then 2 ^ (F.ew + F.p - 1) else 0)

/-- Exponent all ones, fraction zero. -/
def infM : Nat := (2 ^ F.ew - 1) * 2 ^ (F.p - 1)

/-- The number with the bits `n`. -/
def magVal (n : Nat) : ℚ :=
  if n / 2 ^ (F.p - 1) = 0 then (n % 2 ^ (F.p - 1) : Nat) * p2 F.umin
  else (2 ^ (F.p - 1) + n % 2 ^ (F.p - 1) : Nat) * p2 (F.umin + (n / 2 ^ (F.p - 1) : Nat) - 1)

def decMag (n : Nat) : Fp ℚ :=
  if n < infM F then .fin (magVal F n) else if n = infM F then .inf false else .nan

/-- The value of a bit pattern. -/
def dec (a : Pat F) : Fp ℚ := if sgn F a then Fp.neg (decMag F (mag F a)) else decMag F (mag F a)

/-- The bits of a number of the format that is not negative. -/
def encMag (y : ℚ) : Nat :=
  if y = 0 then 0
  else (y / p2 (F.ulp y)).num.toNat + (F.ulp y - F.umin).toNat * 2 ^ (F.p - 1)

/-- A bit pattern with a given value; `s` is the sign of a zero.  NaN is the pattern that x86
processors produce. -/
def enc (s : Bool) : Fp ℚ → Pat F
  | .nan => pack F true (infM F + 2 ^ (F.p - 2))
  | .inf t => pack F t (infM F)
  | .fin x => pack F (if x = 0 then s else decide (x < 0)) (encMag F |x|)

/-- A value of the format. -/
def Val : Fp ℚ → Prop
  | .fin x => Rep F x
  | _ => True

end

section
variable {F : Fmt}

theorem ew_pos (hF : F.Ok) : 1 ≤ F.ew := by
  rcases Nat.eq_zero_or_pos F.ew with h | h
  · have h1 := hF.wide
    have h2 := hF.p2
    unfold Fmt.emax at h1
    rw [h] at h1
    simp at h1
    omega
  · exact h

theorem half_eq (hF : F.Ok) : 2 ^ (F.ew + F.p - 1) = 2 ^ F.ew * 2 ^ (F.p - 1) := by
  rw [← Nat.pow_add]; congr 1; have := hF.p2; omega

theorem infM_lt (hF : F.Ok) : infM F + 2 ^ (F.p - 1) = 2 ^ (F.ew + F.p - 1) := by
  rw [half_eq hF]
  unfold infM
  have h1 : 1 ≤ 2 ^ F.ew := Nat.one_le_two_pow
  rw [Nat.sub_mul, one_mul]
  have : 2 ^ (F.p - 1) ≤ 2 ^ F.ew * 2 ^ (F.p - 1) := Nat.le_mul_of_pos_left _ h1
  omega

theorem sgn_pack (hF : F.Ok) {n : Nat} (h : n < 2 ^ (F.ew + F.p - 1)) (s : Bool) :
    sgn F (pack F s n) = s := by
  have hp := hF.p2
  have h2 : 2 ^ (F.ew + F.p) = 2 * 2 ^ (F.ew + F.p - 1) := by
    rw [← pow_succ']; congr 1; omega
  unfold sgn pack
  rw [BitVec.toNat_ofNat, h2]
  generalize 2 ^ (F.ew + F.p - 1) = W at *
  cases s
  · simp only [Bool.false_eq_true, if_false, Nat.add_zero]
    rw [Nat.mod_eq_of_lt (by omega)]
    simp; omega
  · simp only [if_true]
    rw [Nat.mod_eq_of_lt (by omega)]
    simp

theorem mag_pack (hF : F.Ok) {n : Nat} (h : n < 2 ^ (F.ew + F.p - 1)) (s : Bool) :
    mag F (pack F s n) = n := by
  have hp := hF.p2
  have h2 : 2 ^ (F.ew + F.p) = 2 * 2 ^ (F.ew + F.p - 1) := by
    rw [← pow_succ']; congr 1; omega
  unfold mag pack
  rw [BitVec.toNat_ofNat, h2]
  generalize 2 ^ (F.ew + F.p - 1) = W at *
  cases s
  · simp only [Bool.false_eq_true, if_false, Nat.add_zero]
    rw [Nat.mod_eq_of_lt (show n < 2 * W by omega), Nat.mod_eq_of_lt h]
  · simp only [if_true]
    rw [Nat.mod_eq_of_lt (show n + W < 2 * W by omega), Nat.add_mod_right, Nat.mod_eq_of_lt h]

theorem mag_lt (a : Pat F) : mag F a < 2 ^ (F.ew + F.p - 1) :=
  Nat.mod_lt _ (Nat.two_pow_pos _)

theorem dec_pack (hF : F.Ok) {n : Nat} (h : n < 2 ^ (F.ew + F.p - 1)) (s : Bool) :
    dec F (pack F s n) = if s then Fp.neg (decMag F n) else decMag F n := by
  unfold dec
  rw [sgn_pack hF h, mag_pack hF h]

/-- The bits of a number stand for it. -/
theorem encMag_spec (hF : F.Ok) {y : ℚ} (h0 : 0 ≤ y) (hy : Rep F y) :
    encMag F y < infM F ∧ magVal F (encMag F y) = y := by
  have hp := hF.p2
  have hew := ew_pos hF
  have hh : 0 < 2 ^ (F.p - 1) := Nat.two_pow_pos _
  have hemax : F.emax - F.umin - (F.p - 1) + 2 = ((2 ^ F.ew - 1 : Nat) : Int) := by
    have h2 : (2 : Int) ^ F.ew = 2 * 2 ^ (F.ew - 1) := by rw [← pow_succ']; congr 1; omega
    have h3 : 1 ≤ 2 ^ F.ew := Nat.one_le_two_pow
    unfold Fmt.umin Fmt.emin Fmt.emax
    push_cast [h3]
    rw [h2]
    ring
  have hinf : 2 ≤ 2 ^ F.ew - 1 := by
    have := (emin_le hF)
    unfold Fmt.umin Fmt.emin at *
    omega
  rcases eq_or_lt_of_le h0 with rfl | h0
  · have e : encMag F 0 = 0 := if_pos rfl
    rw [e]
    refine ⟨?_, by simp [magVal]⟩
    unfold infM
    exact Nat.mul_pos (by omega) hh
  have e : encMag F y =
      (y / p2 (F.ulp y)).num.toNat + (F.ulp y - F.umin).toNat * 2 ^ (F.p - 1) := if_neg h0.ne'
  have hr := rmag_rep hF hy h0.le
  rw [rmag_pos_eq h0] at hr
  obtain ⟨k, hk⟩ : ∃ k : Int, y / p2 (F.ulp y) = k :=
    ⟨rne (y / p2 (F.ulp y)), by rw [div_eq_iff (p2_pos _).ne']; exact hr.symm⟩
  have hyk : y = k * p2 (F.ulp y) := by rw [← hk, div_mul_cancel₀ _ (p2_pos _).ne']
  have hkn : (y / p2 (F.ulp y)).num = k := by rw [hk]; rfl
  have hk0 : 0 < k := by
    have : (0 : ℚ) < k := by rw [← hk]; exact div_pos h0 (p2_pos _)
    exact_mod_cast this
  obtain ⟨l1, l2⟩ := ilog_spec h0
  have hk2 : k < 2 ^ F.p := by
    have : (k : ℚ) < 2 ^ F.p := by
      rw [← hk, div_lt_iff₀ (p2_pos _), ← p2_nat, ← p2_add]
      refine lt_of_lt_of_le l2 (p2_le ?_)
      have : ilog y - (F.p - 1) ≤ F.ulp y := le_max_left _ _
      omega
    exact_mod_cast this
  have hpp : (2 : Int) ^ F.p = 2 * 2 ^ (F.p - 1) := by rw [← pow_succ']; congr 1; omega
  have hk1 : F.umin < F.ulp y → 2 ^ (F.p - 1) ≤ k := by
    intro hu
    have hl : F.ulp y = ilog y - (F.p - 1) := by unfold Fmt.ulp at hu ⊢; omega
    have : (2 : ℚ) ^ (F.p - 1) ≤ k := by
      rw [← hk, le_div_iff₀ (p2_pos _), ← p2_nat, ← p2_add]
      refine (p2_le ?_).trans l1
      omega
    exact_mod_cast this
  have htop : F.ulp y ≤ F.emax - (F.p - 1) := by
    have : ilog y ≤ F.emax := by
      obtain ⟨-, -, -, -, -, h4⟩ := hy
      rw [abs_of_pos h0] at h4
      have := lt_of_p2_lt (lt_of_le_of_lt l1 h4)
      omega
    have h5 := emin_le hF
    unfold Fmt.ulp Fmt.umin Fmt.emin at *
    omega
  obtain ⟨j, hj⟩ := Int.eq_ofNat_of_zero_le (show 0 ≤ F.ulp y - F.umin by
    have := umin_le_ulp (F := F) y; omega)
  obtain ⟨K, rfl⟩ := Int.eq_ofNat_of_zero_le hk0.le
  rw [hkn, hj] at e
  simp only [Int.toNat_natCast] at e
  have hK2 : K < 2 * 2 ^ (F.p - 1) := by
    rw [hpp] at hk2
    exact_mod_cast hk2
  have hK1 : 0 < j → 2 ^ (F.p - 1) ≤ K := by
    intro h
    have := hk1 (by omega)
    exact_mod_cast this
  rw [e]
  have hj1 : j + 2 ≤ 2 ^ F.ew - 1 := by omega
  rw [hyk, show F.ulp y = F.umin + j by omega]
  unfold infM magVal
  generalize 2 ^ (F.p - 1) = h at *
  generalize 2 ^ F.ew - 1 = M at *
  constructor
  · have := Nat.mul_le_mul_right h hj1
    rw [Nat.add_mul] at this
    omega
  · by_cases hjK : K < h
    · have hj0 : j = 0 := by
        by_contra hc
        have := hK1 (by omega)
        omega
      subst hj0
      rw [Nat.zero_mul, Nat.add_zero, Nat.div_eq_of_lt hjK, Nat.mod_eq_of_lt hjK, if_pos rfl]
      simp
    · obtain ⟨R, rfl⟩ : ∃ R, K = h + R := ⟨K - h, by omega⟩
      have e1 : h + R + j * h = R + h * (j + 1) := by ring
      have hR : R < h := by omega
      rw [e1, Nat.add_mul_div_left _ _ hh, Nat.add_mul_mod_self_left, Nat.div_eq_of_lt hR,
        Nat.mod_eq_of_lt hR, if_neg (by omega)]
      push_cast
      congr 2
      ring

/-- Every value of the format has the bit pattern `enc` gives. -/
theorem dec_enc (hF : F.Ok) (s : Bool) {v : Fp ℚ} (h : Val F v) : dec F (enc F s v) = v := by
  have hi := infM_lt hF
  have h1 : 2 ^ (F.p - 2) < 2 ^ (F.p - 1) := Nat.pow_lt_pow_right (by norm_num) (by
    have := hF.p2; omega)
  have h0 : 0 < 2 ^ (F.p - 2) := Nat.two_pow_pos _
  cases v with
  | nan =>
    unfold enc
    rw [dec_pack hF (by omega)]
    simp only [decMag]
    rw [if_neg (show ¬ infM F + 2 ^ (F.p - 2) < infM F by omega),
      if_neg (show ¬ infM F + 2 ^ (F.p - 2) = infM F by omega)]
    rfl
  | inf t =>
    unfold enc
    rw [dec_pack hF (by omega)]
    simp only [decMag]
    rw [if_neg (show ¬ infM F < infM F by omega), if_pos trivial]
    cases t <;> rfl
  | fin x =>
    unfold enc
    obtain ⟨k1, k2⟩ := encMag_spec hF (abs_nonneg x) (Rep.abs h)
    rw [dec_pack hF (by omega)]
    simp only [decMag]
    rw [if_pos k1, k2]
    by_cases hx : x = 0
    · subst hx
      cases s <;> simp [Fp.neg]
    · rw [if_neg hx]
      by_cases hn : x < 0
      · simp only [hn, decide_true, if_true, Fp.neg]
        rw [abs_of_neg hn, neg_neg]
      · simp only [hn, decide_false, Bool.false_eq_true, if_false]
        rw [abs_of_nonneg (not_lt.1 hn)]

theorem magVal_nonneg (n : Nat) : 0 ≤ magVal F n := by
  unfold magVal
  split
  · exact mul_nonneg (by exact_mod_cast Nat.zero_le _) (p2_pos _).le
  · exact mul_nonneg (by exact_mod_cast Nat.zero_le _) (p2_pos _).le

theorem magVal_rep (hF : F.Ok) {n : Nat} (h : n < infM F) : Rep F (magVal F n) := by
  have hp := hF.p2
  have hew := ew_pos hF
  have hh : 0 < 2 ^ (F.p - 1) := Nat.two_pow_pos _
  have hpp : (2 : Int) ^ F.p = 2 * 2 ^ (F.p - 1) := by rw [← pow_succ']; congr 1; omega
  have hmod := Nat.mod_lt n hh
  have hmod' : ((n % 2 ^ (F.p - 1) : Nat) : Int) < 2 ^ (F.p - 1) := by exact_mod_cast hmod
  have hum := emin_le hF
  unfold magVal
  split
  · refine ⟨(n % 2 ^ (F.p - 1) : Nat), F.umin, by push_cast; rfl, ?_, le_refl _, ?_⟩
    · rw [abs_of_nonneg (by omega)]
      omega
    · rw [abs_of_nonneg (mul_nonneg (by exact_mod_cast Nat.zero_le _) (p2_pos _).le)]
      have h1 : ((n % 2 ^ (F.p - 1) : Nat) : ℚ) ≤ 2 ^ (F.p - 1) := by exact_mod_cast hmod.le
      refine lt_of_le_of_lt (mul_le_mul_of_nonneg_right h1 (p2_pos _).le) ?_
      rw [← p2_nat, ← p2_add]
      exact p2_lt (by omega)
  · rename_i hq
    have h3 : (n / 2 ^ (F.p - 1) : Nat) + 1 ≤ 2 ^ F.ew - 1 := by
      have : n / 2 ^ (F.p - 1) < 2 ^ F.ew - 1 := by
        rw [Nat.div_lt_iff_lt_mul hh]; exact h
      omega
    have hemax : F.emax - F.umin - (F.p - 1) + 2 = ((2 ^ F.ew - 1 : Nat) : Int) := by
      have h2 : (2 : Int) ^ F.ew = 2 * 2 ^ (F.ew - 1) := by rw [← pow_succ']; congr 1; omega
      have h3 : 1 ≤ 2 ^ F.ew := Nat.one_le_two_pow
      unfold Fmt.umin Fmt.emin Fmt.emax
      push_cast [h3]
      rw [h2]
      ring
    generalize n / 2 ^ (F.p - 1) = e at *
    refine ⟨(2 ^ (F.p - 1) + n % 2 ^ (F.p - 1) : Nat), F.umin + e - 1, by push_cast; rfl, ?_,
      by omega, ?_⟩
    · rw [abs_of_nonneg (by omega)]
      push_cast at hmod' ⊢
      omega
    · rw [abs_of_nonneg (mul_nonneg (by exact_mod_cast Nat.zero_le _) (p2_pos _).le)]
      have h1 : ((2 ^ (F.p - 1) + n % 2 ^ (F.p - 1) : Nat) : ℚ) < 2 ^ F.p := by
        have : 2 ^ (F.p - 1) + n % 2 ^ (F.p - 1) < 2 ^ F.p := by
          have : (2 : Nat) ^ F.p = 2 * 2 ^ (F.p - 1) := by rw [← pow_succ']; congr 1; omega
          omega
        exact_mod_cast this
      refine lt_of_lt_of_le (mul_lt_mul_of_pos_right h1 (p2_pos _)) ?_
      rw [← p2_nat, ← p2_add]
      exact p2_le (by omega)

theorem val_neg {v : Fp ℚ} (h : Val F v) : Val F (Fp.neg v) := by
  cases v with
  | nan => trivial
  | inf s => trivial
  | fin x => exact Rep.neg h

theorem val_dec (hF : F.Ok) (a : Pat F) : Val F (dec F a) := by
  have : Val F (decMag F (mag F a)) := by
    unfold decMag
    split
    · rename_i h; exact magVal_rep hF h
    · split <;> trivial
  unfold dec
  split
  · exact val_neg this
  · exact this

theorem val_round (x : ℚ) : Val F (round F x) := by
  cases h : round F x with
  | nan => trivial
  | inf s => trivial
  | fin y => exact round_is_rep h

theorem val_add (a b : Fp ℚ) : Val F (Fp.add (round F) a b) := by
  cases a <;> cases b <;> simp only [Fp.add] <;> first | exact val_round _ | trivial | skip
  split <;> trivial

theorem val_mul (a b : Fp ℚ) : Val F (Fp.mul (round F) a b) := by
  cases a <;> cases b <;> simp only [Fp.mul] <;>
    first | exact val_round _ | trivial | (split <;> trivial)

theorem val_div (a b : Fp ℚ) : Val F (Fp.div (round F) a b) := by
  cases a <;> cases b <;> simp only [Fp.div] <;>
    first | exact rep_zero | trivial | skip
  split
  · split <;> trivial
  · exact val_round _

theorem val_narrow (a : Fp ℚ) : Val F (narrow F a) := by
  cases a <;> simp only [narrow] <;> first | exact val_round _ | trivial

end

/-! ### The operations -/

section
variable (F : Fmt)

def badd (a b : Pat F) : Pat F :=
  enc F (sgn F a && sgn F b) (Fp.add (round F) (dec F a) (dec F b))

def bneg (a : Pat F) : Pat F := pack F (!sgn F a) (mag F a)

def babs (a : Pat F) : Pat F := pack F false (mag F a)

def bsub (a b : Pat F) : Pat F :=
  enc F (sgn F a && !sgn F b) (Fp.sub (round F) (dec F a) (dec F b))

def bmul (a b : Pat F) : Pat F :=
  enc F (sgn F a != sgn F b) (Fp.mul (round F) (dec F a) (dec F b))

/-- A number divided by zero is infinite, with the sign of the quotient of the signs. -/
def bdiv (a b : Pat F) : Pat F :=
  enc F (sgn F a != sgn F b)
    (match dec F a, dec F b with
     | .fin x, .fin y =>
       if y = 0 then (if x = 0 then .nan else .inf (sgn F a != sgn F b)) else round F (x / y)
     | .inf s, .fin _ => .inf (s != sgn F b)
     | v, w => Fp.div (round F) v w)

end

/-- `(int)x`; out of range `tr` is arbitrary. -/
def btrunc (tr : Pat binary64 → Int) (a : Pat binary64) : Int :=
  match dec binary64 a with
  | .fin x => if |x| < 2 ^ 31 then truncQ x else tr a
  | _ => tr a

/-- `double`. -/
def bitsD (tr : Pat binary64 → Int) (lg : Pat binary64 → Pat binary64) : DOps (Pat binary64) where
  ofInt n := enc binary64 false (round binary64 n)
  add := badd binary64
  sub := bsub binary64
  mul := bmul binary64
  div := bdiv binary64
  neg := bneg binary64
  abs := babs binary64
  lt a b := Fp.lt (dec binary64 a) (dec binary64 b)
  le a b := Fp.le (dec binary64 a) (dec binary64 b)
  trunc := btrunc tr
  log2 := lg
  pow b e := enc binary64 false (round binary64 (Fp.ipow b e))

/-- Elements of the format `F` (`float`, `double`) and `double`. -/
def bitsOps (F : Fmt) (tr : Pat binary64 → Int) (lg : Pat binary64 → Pat binary64) :
    Ops (Pat F) (Pat binary64) where
  toDOps := bitsD tr lg
  zeroT := enc F false (.fin 0)
  addT := badd F
  subT := bsub F
  toD a := enc binary64 (sgn F a) (dec F a)
  ofD d := enc F (sgn binary64 d) (narrow F (dec binary64 d))

/-- Operations of the bound formula, with `double fabs(double)` or with the overload of `fabs`
for the element type.  (src/sz_compress_cp_preserve_2d.cpp L725-771.) -/
def bitsE (F : Fmt) (tr : Pat binary64 → Int) (lg : Pat binary64 → Pat binary64) (ov : Bool) :
    EOps (Pat F) (Pat binary64) where
  mulT := bmul F
  negT := bneg F
  keep A B C :=
    if ov then (bitsOps F tr lg).toD (bdiv F (babs F C) (badd F (babs F A) (babs F B)))
    else keepD (bitsOps F tr lg) A B C

/-- The integer part of the logarithm. -/
def floorLog2 (a : Pat binary64) : Pat binary64 :=
  match dec binary64 a with
  | .fin x => enc binary64 false (round binary64 (ilog x))
  | v => enc binary64 false v

/-- What is assumed of the library's `log2`. -/
def LogOk (lg : Pat binary64 → Pat binary64) (eps : ℚ) : Prop :=
  ∀ a x, dec binary64 a = .fin x → 1 ≤ x → ∃ l, dec binary64 (lg a) = .fin l ∧ -1 ≤ l ∧
    ∀ n : Nat, (n : ℚ) ≤ l → 2 ^ n ≤ (1 + eps) * x

section
variable {F : Fmt}

theorem dec_neg (hF : F.Ok) (a : Pat F) : dec F (bneg F a) = Fp.neg (dec F a) := by
  unfold bneg
  rw [dec_pack hF (mag_lt a)]
  unfold dec
  cases sgn F a
  · simp
  · simp only [Bool.not_true, Bool.false_eq_true, if_false, if_true]
    cases decMag F (mag F a) <;> simp [Fp.neg]

theorem dec_abs (hF : F.Ok) (a : Pat F) : dec F (babs F a) = Fp.abs (dec F a) := by
  unfold babs
  rw [dec_pack hF (mag_lt a)]
  unfold dec decMag
  have h0 := magVal_nonneg (F := F) (mag F a)
  simp only [Bool.false_eq_true, if_false]
  cases sgn F a <;> simp only [if_true, Bool.false_eq_true, if_false] <;> split
  · rw [abs_fin, abs_of_nonneg h0]
  · split <;> rfl
  · simp only [Fp.neg]
    rw [abs_fin, abs_neg, abs_of_nonneg h0]
  · split <;> rfl

theorem dec_sub (hF : F.Ok) (a b : Pat F) :
    dec F (bsub F a b) = Fp.sub (round F) (dec F a) (dec F b) := dec_enc hF _ (val_add _ _)

/-- The sign of a number that is not zero. -/
theorem sgn_of_ne {b : Pat F} {y : ℚ} (hy : dec F b = .fin y) (h0 : y ≠ 0) :
    sgn F b = decide (y < 0) := by
  unfold dec decMag at hy
  have hm := magVal_nonneg (F := F) (mag F b)
  cases hs : sgn F b <;> rw [hs] at hy <;>
    simp only [if_true, Bool.false_eq_true, if_false] at hy <;> split at hy
  · simp only [Fp.fin.injEq] at hy
    symm
    rw [decide_eq_false_iff_not, ← hy, not_lt]
    exact hm
  · split at hy <;> cases hy
  · simp only [Fp.neg, Fp.fin.injEq] at hy
    symm
    rw [decide_eq_true_iff]
    rcases eq_or_lt_of_le hm with h | h
    · rw [← h] at hy; exact absurd hy.symm (by simpa using h0)
    · linarith
  · split at hy <;> cases hy

theorem dec_div (hF : F.Ok) (a b : Pat F) (hb : dec F b ≠ .fin 0) :
    dec F (bdiv F a b) = Fp.div (round F) (dec F a) (dec F b) := by
  have key : ∀ {v : Fp ℚ}, v = Fp.div (round F) (dec F a) (dec F b) →
      dec F (enc F (sgn F a != sgn F b) v) = Fp.div (round F) (dec F a) (dec F b) := by
    rintro v rfl
    exact dec_enc hF _ (val_div _ _)
  apply key
  split
  · rename_i x y hx hy
    have : y ≠ 0 := by rintro rfl; exact hb hy
    rw [hx, hy]
    simp only [Fp.div, this, if_false]
  · rename_i s y hx hy
    rw [sgn_of_ne hy (by rintro rfl; exact hb hy), hx, hy]
    rfl
  · rfl

theorem rep_of_val {v : Fp ℚ} {x : ℚ} (h : Val F v) (hv : v = .fin x) : Rep F x := by
  subst hv; exact h

/-- Arithmetic on bit patterns follows IEEE-754. -/
theorem bits_ieee (hF : F.Ok) (hp : F.p ≤ binary64.p) (hu : binary64.umin ≤ F.umin)
    (he : F.emax ≤ binary64.emax) (tr : Pat binary64 → Int) {lg : Pat binary64 → Pat binary64}
    {eps : ℚ} (hlg : LogOk lg eps) :
    IsIeee (bitsOps F tr lg) F (dec F) (dec binary64) eps where
  ofInt n := dec_enc ok64 _ (val_round _)
  add a b := dec_enc ok64 _ (val_add _ _)
  sub a b := dec_sub ok64 a b
  mul a b := dec_enc ok64 _ (val_mul _ _)
  div a b h := dec_div ok64 a b h
  neg a := dec_neg ok64 a
  abs a := dec_abs ok64 a
  lt a b := rfl
  le a b := rfl
  trunc a x h hx := by
    change btrunc tr a = _
    unfold btrunc
    rw [h]
    exact if_pos hx
  log2 := hlg
  pow b e := dec_enc ok64 _ (val_round _)
  zeroT := dec_enc hF _ rep_zero
  addT a b := dec_enc hF _ (val_add _ _)
  subT a b := dec_sub hF a b
  toD a := by
    refine dec_enc ok64 _ ?_
    have := val_dec hF a
    cases hv : dec F a with
    | nan => trivial
    | inf s => trivial
    | fin x => exact (rep_of_val this hv).widen hp hu he
  ofD d := dec_enc hF _ (val_narrow _)
  repT a x h := rep_of_val (val_dec hF a) h
  repD d x h := rep_of_val (val_dec ok64 d) h

theorem bits_ieeeE (hF : F.Ok) (hp : F.p ≤ binary64.p) (hu : binary64.umin ≤ F.umin)
    (he : F.emax ≤ binary64.emax) (tr : Pat binary64 → Int) {lg : Pat binary64 → Pat binary64}
    {eps : ℚ} (hlg : LogOk lg eps) (ov : Bool) :
    IsIeeeE (bitsE F tr lg ov) F (dec F) (dec binary64) where
  mulT a b := dec_enc hF _ (val_mul _ _)
  negT a := dec_neg hF a
  keep A B C a b c ha hb hc h := by
    have hO := bits_ieee hF hp hu he tr hlg
    simp only [bitsE]
    cases ov
    · exact keepD_ieee hO hp hu he A B C a b c ha hb hc h
    · simp only [if_true]
      rw [hO.toD]
      have hs : dec F (badd F (babs F A) (babs F B)) = round F (|a| + |b|) := by
        refine (dec_enc hF _ (val_add _ _)).trans ?_
        rw [dec_abs hF, dec_abs hF, ha, hb, abs_fin, abs_fin]; rfl
      have hs0 : round F (|a| + |b|) ≠ .fin 0 := by
        have := round_sub_ne hF (x := |a|) (y := -|b|) (hO.repT _ _ ha).abs
          (hO.repT _ _ hb).abs.neg (by
            intro e
            have h1 := abs_nonneg a
            have h2 := abs_nonneg b
            exact h ⟨abs_eq_zero.1 (by linarith), abs_eq_zero.1 (by linarith)⟩)
        rwa [sub_neg_eq_add] at this
      rw [dec_div hF _ _ (by rw [hs]; exact hs0), hs, dec_abs hF, hc, abs_fin]
      cases hr : round F (|a| + |b|) with
      | nan => exact absurd hr (round_not_nan _)
      | inf s => simp [Fp.div]
      | fin y =>
        rw [hr] at hs0
        have : y ≠ 0 := fun e => hs0 (by rw [e])
        simp only [Fp.div, this, if_false]
        exact round_not_nan _

/-- The integer part of the logarithm meets the assumption, so there is such a function. -/
theorem floorLog2_ok {eps : ℚ} (he : 0 ≤ eps) : LogOk floorLog2 eps := by
  intro a x hx h1
  have hx0 : 0 < x := by linarith
  obtain ⟨l1, l2⟩ := ilog_spec hx0
  have hl0 : 0 ≤ ilog x := by
    have := lt_of_p2_lt (lt_of_le_of_lt (by rw [p2_zero]; exact h1) l2)
    omega
  have hl1 : ilog x ≤ 1023 := by
    obtain ⟨-, -, -, -, -, h4⟩ := rep_of_val (val_dec ok64 a) hx
    rw [abs_of_pos hx0] at h4
    have := lt_of_p2_lt (lt_of_le_of_lt l1 h4)
    have e : binary64.emax = 1023 := by decide
    omega
  have hr : round binary64 (ilog x) = .fin (ilog x) := round_rep ok64 (rep_int ok64 (by
    rw [abs_of_nonneg hl0]
    exact hl1.trans (by norm_num [binary64])))
  refine ⟨ilog x, ?_, ?_, ?_⟩
  · unfold floorLog2
    rw [hx]
    simp only
    rw [hr]
    exact dec_enc ok64 _ (by rw [← hr]; exact val_round _)
  · have : (-1 : Int) ≤ ilog x := by omega
    exact_mod_cast this
  · intro n hn
    have hn' : (n : Int) ≤ ilog x := by exact_mod_cast hn
    calc (2 : ℚ) ^ n = p2 n := (p2_nat n).symm
      _ ≤ p2 (ilog x) := p2_le hn'
      _ ≤ x := l1
      _ ≤ (1 + eps) * x := by nlinarith

end

end CpSZ.Ieee
