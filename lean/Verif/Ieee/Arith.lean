import Verif.Ieee.Round
/-
What is assumed of the arithmetic of a C++ implementation that follows IEEE-754, and what the
quantisers of the critical-point modes do in it (include/sz_cp_preserve_utils.hpp L14-22,
src/sz_compress_cp_preserve_2d.cpp L629-664).
-/

namespace CpSZ.Ieee

/-- `(int)x` for a rational number: truncation towards zero. -/
def truncQ (x : ℚ) : Int := if 0 ≤ x then ⌊x⌋ else ⌈x⌉

/-- Conversion of a `double` to a narrower format. -/
def narrow (F : Fmt) : Fp ℚ → Fp ℚ
  | .fin x => round F x
  | a => a

/-- The operations `O` on elements (format `F`) and `double`s follow IEEE-754 with rounding to
nearest: `vT` and `vD` give the values of elements and `double`s.  Not specified: signs of zeros
and what depends on them (a division by zero), NaN payloads, conversions to `int` that are
undefined in C++.  Of the library, `pow` of integers is correctly rounded (used for powers of
two only); of `log2` it is assumed that `n ≤ log2(x)` for an integer `n` implies
`2^n ≤ (1 + eps)·x`, and that it is not below -1 for `x ≥ 1`. -/
structure IsIeee {T D : Type} (O : Ops T D) (F : Fmt) (vT : T → Fp ℚ) (vD : D → Fp ℚ) (eps : ℚ) :
    Prop where
  ofInt : ∀ n : Int, vD (O.ofInt n) = round binary64 n
  add : ∀ a b, vD (O.add a b) = Fp.add (round binary64) (vD a) (vD b)
  sub : ∀ a b, vD (O.sub a b) = Fp.sub (round binary64) (vD a) (vD b)
  mul : ∀ a b, vD (O.mul a b) = Fp.mul (round binary64) (vD a) (vD b)
  div : ∀ a b, vD b ≠ .fin 0 → vD (O.div a b) = Fp.div (round binary64) (vD a) (vD b)
  neg : ∀ a, vD (O.neg a) = Fp.neg (vD a)
  abs : ∀ a, vD (O.abs a) = Fp.abs (vD a)
  lt : ∀ a b, O.lt a b = Fp.lt (vD a) (vD b)
  le : ∀ a b, O.le a b = Fp.le (vD a) (vD b)
  trunc : ∀ a x, vD a = .fin x → |x| < 2 ^ 31 → O.trunc a = truncQ x
  log2 : ∀ a x, vD a = .fin x → 1 ≤ x → ∃ l, vD (O.log2 a) = .fin l ∧ -1 ≤ l ∧
    ∀ n : Nat, (n : ℚ) ≤ l → 2 ^ n ≤ (1 + eps) * x
  pow : ∀ b e : Int, vD (O.pow b e) = round binary64 (Fp.ipow b e)
  zeroT : vT O.zeroT = .fin 0
  addT : ∀ a b, vT (O.addT a b) = Fp.add (round F) (vT a) (vT b)
  subT : ∀ a b, vT (O.subT a b) = Fp.sub (round F) (vT a) (vT b)
  toD : ∀ a, vD (O.toD a) = vT a
  ofD : ∀ d, vT (O.ofD d) = narrow F (vD d)
  repT : ∀ a x, vT a = .fin x → Rep F x
  repD : ∀ d x, vD d = .fin x → Rep binary64 x

theorem abs_fin (x : ℚ) : Fp.abs (.fin x) = .fin |x| := by
  change Fp.fin (if x < 0 then -x else x) = _
  split
  · rename_i h; rw [abs_of_neg h]
  · rename_i h; rw [abs_of_nonneg (not_lt.1 h)]

theorem sub_fin (F : Fmt) (x y : ℚ) : Fp.sub (round F) (.fin x) (.fin y) = round F (x - y) := by
  simp only [Fp.sub, Fp.neg, Fp.add, sub_eq_add_neg]

/-- A difference that is not NaN with a finite number. -/
theorem sub_fin_right {F : Fmt} {a : Fp ℚ} (ha : a ≠ .nan) (y : ℚ) :
    Fp.sub (round F) a (.fin y) ≠ .nan := by
  cases a with
  | nan => exact absurd rfl ha
  | inf s => simp [Fp.sub, Fp.neg, Fp.add]
  | fin x => rw [sub_fin]; exact round_not_nan _

theorem narrow_not_nan {F : Fmt} {a : Fp ℚ} (ha : a ≠ .nan) : narrow F a ≠ .nan := by
  cases a with
  | nan => exact absurd rfl ha
  | inf s => simp [narrow]
  | fin x => exact round_not_nan _

section
variable {T D : Type} {O : Ops T D} {F : Fmt} {vT : T → Fp ℚ} {vD : D → Fp ℚ} {eps : ℚ}
variable (hO : IsIeee O F vT vD eps)
include hO

theorem IsIeee.ofInt_small {n : Int} (h : |n| ≤ 2 ^ 53) : vD (O.ofInt n) = .fin n := by
  rw [hO.ofInt]; exact round_rep ok64 (rep_int ok64 h)

/-- The bound quantiser (include/sz_cp_preserve_utils.hpp L14-22) with base 4 and a threshold
that is a power of two: a positive code stands for a power of two that exceeds the requested
bound at most by the errors of the division and of the logarithm. -/
theorem IsIeee.ebQuant_code {lb thr a : D} (hlb : vD lb = .fin 2) {t : Int} (ht : vD thr = .fin (p2 t))
    (ht0 : -100 ≤ t) (ht1 : t ≤ 0) (he0 : 0 ≤ eps) (he1 : eps ≤ 1) {A : ℚ} (ha : vD a = .fin A)
    (hA : A ≤ p2 400)
    (h : 0 < (CpSZ.ebQuant O.toDOps 4 lb thr a).2) :
    ∃ k : Int, k = 2 * (CpSZ.ebQuant O.toDOps 4 lb thr a).2 + t ∧ t < k ∧
      vD (CpSZ.ebQuant O.toDOps 4 lb thr a).1 = .fin (p2 k) ∧
      p2 k ≤ (1 + eps) * (1 + p2 (-53)) * A := by
  have hthr := p2_pos t
  unfold CpSZ.ebQuant at h ⊢
  by_cases hle : O.le a thr = true
  · simp [hle] at h
  rw [if_neg hle] at h ⊢
  simp only at h ⊢
  have hlt : p2 t < A := by
    rw [hO.le, ha, ht] at hle
    simpa [Fp.le] using hle
  -- the quotient
  have hq : vD (O.div a thr) = round binary64 (A / p2 t) := by
    rw [hO.div _ _ (by rw [ht]; simp [hthr.ne']), ha, ht]
    simp [Fp.div, hthr.ne']
  have h1 : 1 < A / p2 t := by rw [lt_div_iff₀ hthr]; linarith
  have hAt : A / p2 t ≤ p2 500 := by
    rw [div_le_iff₀ hthr, ← p2_add]
    exact hA.trans (p2_le (by omega))
  obtain ⟨y, hy, hyb⟩ := round_bounded ok64 (b := p2 500)
    (rep_p2 (by decide) (by decide)) (x := A / p2 t) (by rw [abs_of_pos (by linarith)]; exact hAt)
  rw [hy] at hq
  have hy1 : 1 ≤ y := round_ge ok64 (b := 1)
    (by simpa [p2_zero] using rep_p2 (F := binary64) (k := 0) (by decide) (by decide))
    zero_le_one h1.le hy
  have hyrel : y ≤ (1 + p2 (-53)) * (A / p2 t) := by
    have h2 := rmag_rel (F := binary64) (x := A / p2 t)
      ((p2_le (show binary64.emin ≤ 0 by decide)).trans (by rw [p2_zero]; exact h1.le))
    have h3 := (round_fin hy).1
    rw [abs_of_nonneg (by linarith), abs_of_pos (by linarith)] at h3
    rw [← h3] at h2
    have h4 := (abs_le.1 h2).2
    have e : p2 (-(binary64.p : Int)) = p2 (-53) := rfl
    rw [e] at h4
    linarith
  -- the logarithm
  obtain ⟨l, hl, hl1, hl2⟩ := hO.log2 _ _ hq hy1
  have hlrep := hO.repD _ _ hl
  have hlup : l < 600 := by
    by_contra hc
    have h2 := hl2 600 (by push_cast; exact not_lt.1 hc)
    have h3 : (1 + eps) * y ≤ 2 * p2 500 :=
      mul_le_mul (by linarith) ((le_abs_self y).trans hyb) (by linarith) (by norm_num)
    have h4 : (2 : ℚ) ^ 600 = p2 600 := by rw [show (600 : Int) = ((600 : Nat) : Int) from rfl, p2_nat]
    have h5 := p2_succ 500
    have h6 : p2 (500 + 1) < p2 600 := p2_lt (by norm_num)
    rw [h4] at h2
    linarith
  have hz : vD (O.div (O.log2 (O.div a thr)) lb) = round binary64 (l / 2) := by
    rw [hO.div _ _ (by rw [hlb]; simp), hl, hlb]
    simp [Fp.div]
  obtain ⟨z, hz', hzb⟩ := round_bounded ok64 (b := ((600 : Int) : ℚ)) (rep_int ok64 (by decide))
    (x := l / 2) (by push_cast; rw [abs_le]; constructor <;> linarith)
  rw [hz'] at hz
  have htr := hO.trunc _ _ hz (lt_of_le_of_lt hzb (by norm_num))
  rw [htr] at h ⊢
  -- the code is positive
  have hz1 : 1 ≤ z := by
    by_contra hc
    push Not at hc
    have : truncQ z ≤ 0 := by
      unfold truncQ
      split
      · have : ⌊z⌋ < 1 := Int.floor_lt.2 (by exact_mod_cast hc)
        omega
      · rename_i hneg
        exact Int.ceil_le.2 (by push_cast; push Not at hneg; exact hneg.le)
    omega
  have hlhalf : (1 : ℚ) / 2 < l / 2 := by
    by_contra hc
    have e : p2 (-1) = 1 / 2 := by rw [p2_eq]; norm_num
    have := round_le ok64 (b := p2 (-1)) (rep_p2 (by decide) (by decide)) (p2_pos _).le
      (by rw [e]; exact not_lt.1 hc) hz'
    rw [e] at this
    linarith
  have hzl : z = l / 2 := by
    have := round_rep ok64 (hlrep.half ok64 ((p2_le (show binary64.emin + 1 ≤ 0 by decide)).trans
      (by rw [p2_zero]; linarith)))
    rw [this] at hz'
    simpa using hz'.symm
  have htq : truncQ z = ⌊z⌋ := by unfold truncQ; rw [if_pos (by linarith)]
  rw [htq] at h ⊢
  obtain ⟨n, hn⟩ := Int.eq_ofNat_of_zero_le h.le
  rw [hn] at h ⊢
  have hnz : (n : ℚ) ≤ z := by
    have := Int.floor_le z
    rw [hn] at this
    exact_mod_cast this
  have h2n := hl2 (2 * n) (by push_cast; linarith)
  have hn300 : n < 300 := by
    have : (n : ℚ) < 300 := by linarith
    exact_mod_cast this
  refine ⟨2 * n + t, rfl, by omega, ?_, ?_⟩
  · have e4 : Fp.ipow (K := ℚ) 4 (n : Int) = p2 (2 * n) := by
      rw [p2_eq, zpow_mul]
      simp [Fp.ipow]
      norm_num
    rw [hO.mul, hO.pow, e4, round_rep ok64 (rep_p2 (F := binary64) (k := 2 * n)
      (by have : binary64.umin = -1074 := by decide
          omega) (by have : binary64.emax = 1023 := by decide
                     omega)), ht]
    simp only [Fp.mul]
    rw [← p2_add]
    exact round_rep ok64 (rep_p2 (by have : binary64.umin = -1074 := by decide
                                     omega) (by have : binary64.emax = 1023 := by decide
                                                omega))
  · have e5 : p2 (2 * n + t) = 2 ^ (2 * n) * p2 t := by
      rw [p2_add, ← p2_nat]; push_cast; rfl
    rw [e5]
    have h3 : 2 ^ (2 * n) ≤ (1 + eps) * ((1 + p2 (-53)) * (A / p2 t)) :=
      h2n.trans (mul_le_mul_of_nonneg_left hyrel (by linarith))
    calc _ ≤ (1 + eps) * ((1 + p2 (-53)) * (A / p2 t)) * p2 t :=
        mul_le_mul_of_nonneg_right h3 hthr.le
      _ = _ := by
        rw [mul_assoc, mul_assoc, div_mul_cancel₀ _ hthr.ne', ← mul_assoc]

theorem IsIeee.ebQuant {lb thr a : D} (hlb : vD lb = .fin 2) {t : Int} (ht : vD thr = .fin (p2 t))
    (ht0 : -100 ≤ t) (ht1 : t ≤ 0) (he0 : 0 ≤ eps) (he1 : eps ≤ 1) {A : ℚ} (ha : vD a = .fin A)
    (hA : A ≤ p2 400)
    (h : 0 < (CpSZ.ebQuant O.toDOps 4 lb thr a).2) :
    ∃ k : Int, t < k ∧ vD (CpSZ.ebQuant O.toDOps 4 lb thr a).1 = .fin (p2 k) ∧
      p2 k ≤ (1 + eps) * (1 + p2 (-53)) * A := by
  obtain ⟨k, -, k1⟩ := hO.ebQuant_code hlb ht ht0 ht1 he0 he1 ha hA h
  exact ⟨k, k1⟩

/-- The code of a bound of at most `2^R`. -/
theorem IsIeee.ebQuant_range {lb thr a : D} (hlb : vD lb = .fin 2)
    (ht : vD thr = .fin (p2 (-52))) (he0 : 0 ≤ eps) (he1 : eps ≤ 1) {A : ℚ} (ha : vD a = .fin A)
    {R : Int} (hR : R ≤ 400) (hA : A ≤ p2 R)
    (h : 0 < (CpSZ.ebQuant O.toDOps 4 lb thr a).2) :
    2 * (CpSZ.ebQuant O.toDOps 4 lb thr a).2 ≤ R + 54 := by
  obtain ⟨k, k0, -, -, k3⟩ := hO.ebQuant_code hlb ht (by norm_num) (by norm_num) he0 he1 ha
    (hA.trans (p2_le hR)) h
  have h5 := p2_pos (-53)
  have h6 : p2 (-53) ≤ 1 := by rw [← p2_zero]; exact p2_le (by norm_num)
  have hR0 := p2_pos R
  have h7 : (1 + eps) * (1 + p2 (-53)) ≤ 4 := by
    have := mul_le_mul (show 1 + eps ≤ 2 by linarith) (show 1 + p2 (-53) ≤ 2 by linarith)
      (by linarith) (by norm_num)
    linarith
  have h8 : p2 k ≤ p2 (R + 1 + 1) := by
    have h9 := mul_le_mul_of_nonneg_left hA (show 0 ≤ (1 + eps) * (1 + p2 (-53)) from
      mul_nonneg (by linarith) (by linarith))
    have h10 := mul_le_mul_of_nonneg_right h7 hR0.le
    rw [p2_succ, p2_succ]
    linarith
  have h9 : k ≤ R + 1 + 1 := by
    by_contra hc
    have := p2_lt (show R + 1 + 1 < k by omega)
    linarith
  omega

/-- The quantiser rejects a prediction error that is not finite. -/
theorem IsIeee.linQuant_fin {diff prec : D} {k : Int} (hp : vD prec = .fin (p2 k)) {cap rad q : Int}
    (h : linQuant O.toDOps diff prec cap rad = some q) : ∃ x, vD diff = .fin x := by
  unfold linQuant at h
  simp only at h
  split at h
  · rename_i hlt
    have hpos := (p2_pos k).ne'
    rw [hO.lt, hO.add, hO.div _ _ (by rw [hp]; simp [hpos]), hO.abs, hp, hO.ofInt, hO.ofInt,
      show ((1 : Int) : ℚ) = 1 by norm_num] at hlt
    have h1 : round binary64 1 = .fin 1 := by
      simpa [p2_zero] using round_rep ok64 (rep_p2 (F := binary64) (k := 0) (by decide) (by decide))
    have hk : ¬ p2 k < 0 := not_lt.2 (p2_pos k).le
    rw [h1] at hlt
    cases hd : vD diff with
    | fin x => exact ⟨x, rfl⟩
    | nan =>
      rw [hd] at hlt
      simp [Fp.abs, Fp.div, Fp.add, Fp.lt] at hlt
    | inf s =>
      rw [hd] at hlt
      simp only [Fp.abs, Fp.div, Fp.add, hk, decide_false] at hlt
      generalize round binary64 (cap : ℚ) = c at hlt
      cases c <;> simp [Fp.lt] at hlt
  · cases h

omit hO in
theorem round_ne_neg_inf {x : ℚ} (hx : 0 ≤ x) : round F x ≠ .inf true := by
  unfold round
  split
  · simp
  · simpa using hx

/-- The code of a prediction error is one of the table of the entropy coder. -/
theorem IsIeee.linQuant_range {diff prec : D} {k : Int} (hp : vD prec = .fin (p2 k)) {q : Int}
    (h : linQuant O.toDOps diff prec 65536 32768 = some q) : 0 ≤ q ∧ q ≤ 65536 := by
  obtain ⟨x, hx⟩ := hO.linQuant_fin hp h
  have hpos := (p2_pos k).ne'
  have h1 : vD (O.ofInt 1) = .fin 1 := by simpa using hO.ofInt_small (n := 1) (by norm_num)
  have h2 : vD (O.ofInt 2) = .fin 2 := by simpa using hO.ofInt_small (n := 2) (by norm_num)
  have hc : vD (O.ofInt 65536) = .fin 65536 := by
    simpa using hO.ofInt_small (n := 65536) (by norm_num)
  have e15 : p2 15 = 32768 := by rw [p2_eq]; norm_num
  unfold linQuant at h
  simp only at h
  have hd : vD (O.div (O.abs diff) prec) = round binary64 (|x| / p2 k) := by
    rw [hO.div _ _ (by rw [hp]; simp [hpos]), hO.abs, hx, hp, abs_fin]
    simp only [Fp.div, hpos, if_false]
  split at h
  · rename_i hlt
    simp only [Option.some.injEq] at h
    have hq0 : 0 ≤ |x| / p2 k := div_nonneg (abs_nonneg x) (p2_pos k).le
    obtain ⟨z, hz, hz0, hz1⟩ : ∃ z, vD (O.add (O.div (O.abs diff) prec) (O.ofInt 1)) = .fin z ∧
        0 ≤ z ∧ z < 65536 := by
      rw [hO.lt, hO.add, hd, h1, hc] at hlt
      rw [hO.add, hd, h1]
      cases hr : round binary64 (|x| / p2 k) with
      | nan => exact absurd hr (round_not_nan _)
      | inf s =>
        cases s with
        | false => rw [hr] at hlt; simp [Fp.add, Fp.lt] at hlt
        | true => exact absurd hr (round_ne_neg_inf hq0)
      | fin y =>
        have hy := (round_fin hr).2.2.1 hq0
        rw [hr] at hlt
        simp only [Fp.add] at hlt ⊢
        cases hr2 : round binary64 (y + 1) with
        | nan => exact absurd hr2 (round_not_nan _)
        | inf s =>
          cases s with
          | false => rw [hr2] at hlt; simp [Fp.lt] at hlt
          | true => exact absurd hr2 (round_ne_neg_inf (by linarith))
        | fin z =>
          rw [hr2] at hlt
          exact ⟨z, rfl, (round_fin hr2).2.2.1 (by linarith), by simpa [Fp.lt] using hlt⟩
    obtain ⟨y, hy, hyz⟩ : ∃ y, vD (if O.lt (O.ofInt 0) diff = true
        then O.add (O.div (O.abs diff) prec) (O.ofInt 1)
        else O.neg (O.add (O.div (O.abs diff) prec) (O.ofInt 1))) = .fin y ∧ |y| < 65536 := by
      split
      · exact ⟨z, hz, by rwa [abs_of_nonneg hz0]⟩
      · exact ⟨-z, by rw [hO.neg, hz]; rfl, by rwa [abs_neg, abs_of_nonneg hz0]⟩
    obtain ⟨w, hw, hwb⟩ := round_bounded ok64 (b := p2 15) (rep_p2 (by decide) (by decide))
      (x := y / 2) (by rw [abs_div, abs_of_pos (by norm_num : (0 : ℚ) < 2), e15]; linarith)
    have htr := hO.trunc _ w (by
      rw [hO.div _ _ (by rw [h2]; simp), hy, h2]
      simpa [Fp.div] using hw) (lt_of_le_of_lt hwb (by rw [e15]; norm_num))
    rw [htr] at h
    rw [e15] at hwb
    have hb := abs_le.1 hwb
    have : -32768 ≤ truncQ w ∧ truncQ w ≤ 32768 := by
      unfold truncQ
      split
      · constructor
        · exact Int.le_floor.2 (by push_cast; exact hb.1)
        · have : ((⌊w⌋ : Int) : ℚ) ≤ ((32768 : Int) : ℚ) := by
            push_cast; exact (Int.floor_le w).trans hb.2
          exact_mod_cast this
      · constructor
        · have : ((-32768 : Int) : ℚ) ≤ ((⌈w⌉ : Int) : ℚ) := by
            push_cast; exact hb.1.trans (Int.le_ceil w)
          exact_mod_cast this
        · exact Int.ceil_le.2 (by push_cast; exact hb.2)
    omega
  · cases h

/-- What the quantiser accepts (src/sz_compress_cp_preserve_2d.cpp L645-663 and its copies) is
finite and closer to the data than the bound, by half a unit in the last place. -/
theorem IsIeee.accept (hF : F.Ok) {cur pred x : T} {prec : D} {k : Int}
    (hp : vD prec = .fin (p2 k)) (hk : F.emin < k) {cap rad q : Int}
    (h : linQuant O.toDOps (O.toD (O.subT cur pred)) prec cap rad = some q)
    (hx : x = O.ofD (O.add (O.toD pred) (linOffset O.toDOps prec rad q)))
    (hacc : O.le prec (O.abs (O.toD (O.subT x cur))) = false) {c : ℚ} (hc : vT cur = .fin c) :
    ∃ X, vT x = .fin X ∧ |X - c| ≤ (1 - p2 (-(F.p + 1))) * p2 k := by
  obtain ⟨df, hdf⟩ := hO.linQuant_fin hp h
  rw [hO.toD, hO.subT, hc] at hdf
  -- the prediction is finite
  obtain ⟨pr, hpr⟩ : ∃ pr, vT pred = .fin pr := by
    cases hv : vT pred with
    | fin y => exact ⟨y, rfl⟩
    | nan => rw [hv] at hdf; simp [Fp.sub, Fp.neg, Fp.add] at hdf
    | inf s => rw [hv] at hdf; simp [Fp.sub, Fp.neg, Fp.add] at hdf
  -- the reconstruction is not NaN
  have hoff : vD (linOffset O.toDOps prec rad q) ≠ .nan := by
    unfold linOffset
    rw [hO.mul, hO.ofInt, hp]
    unfold round
    split
    · simp only [Fp.mul]; exact round_not_nan _
    · simp [Fp.mul, (p2_pos k).ne']
  have hxn : vT x ≠ .nan := by
    rw [hx, hO.ofD, hO.add, hO.toD, hpr]
    apply narrow_not_nan
    cases ho : vD (linOffset O.toDOps prec rad q) with
    | nan => exact absurd ho hoff
    | inf s => simp [Fp.add]
    | fin y => simp only [Fp.add]; exact round_not_nan _
  rw [hO.le, hO.abs, hO.toD, hO.subT, hc, hp] at hacc
  cases hv : vT x with
  | nan => exact absurd hv hxn
  | inf s =>
    rw [hv] at hacc
    simp [Fp.sub, Fp.neg, Fp.add, Fp.abs, Fp.le] at hacc
  | fin X =>
    refine ⟨X, rfl, ?_⟩
    rw [hv, sub_fin] at hacc
    cases hr : round F (X - c) with
    | nan => exact absurd hr (round_not_nan _)
    | inf s => rw [hr] at hacc; simp [Fp.abs, Fp.le] at hacc
    | fin z =>
      rw [hr, abs_fin] at hacc
      have hz : |z| < p2 k := by simpa [Fp.le] using hacc
      rw [(round_fin hr).1] at hz
      rw [mul_comm]
      exact rmag_guard hF hk (abs_nonneg _) hz
end

end CpSZ.Ieee
