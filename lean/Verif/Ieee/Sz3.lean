import Verif.Ieee.Keep
import Verif.Ieee.Block
import Verif.Props.Sz3
/-
The interpolation based mode (src/sz_compress_cp_preserve_2d.cpp L1540-1811,
src/sz_decompress_cp_preserve_2d.cpp L262-369, include/sz3_utils.hpp) on bit patterns with
IEEE-754 arithmetic.

Differences to the other modes: the quantiser computes in the element type, converts the quotient
to `int` before it compares it with the capacity, and accepts a value at a distance equal to the
bound.
-/

namespace CpSZ.Ieee
open CpSZ.Sz3

/-- `(int)x` of an element; out of range `tr` is arbitrary.  (include/sz3_utils.hpp L47.) -/
def btruncT (F : Fmt) (tr : Pat F → Int) (a : Pat F) : Int :=
  match dec F a with
  | .fin x => if |x| < 2 ^ 31 then truncQ x else tr a
  | _ => tr a

/-- Operations on elements: `VariableEBLinearQuantizer<T, T>` and the interpolation formulas compute
in the element type (include/sz3_utils.hpp L39-75, L196-214); `fabs` is the overload for the element
type.  `log2` is not used. -/
def bitsN (F : Fmt) (tr : Pat F → Int) : DOps (Pat F) where
  ofInt n := enc F false (round F n)
  add := badd F
  sub := bsub F
  mul := bmul F
  div := bdiv F
  neg := bneg F
  abs := babs F
  lt a b := Fp.lt (dec F a) (dec F b)
  le a b := Fp.le (dec F a) (dec F b)
  trunc := btruncT F tr
  log2 a := a
  pow b e := enc F false (round F (Fp.ipow b e))

/-- The arithmetic of the mode (include/sz3_utils.hpp L20-127, L196-215): `abs_eb` is passed to a
parameter of the element type. -/
def sz3Bits (F : Fmt) (trT : Pat F → Int) (tr : Pat binary64 → Int)
    (lg : Pat binary64 → Pat binary64) : SOps (Pat F) (Pat binary64) :=
  ⟨bitsD tr lg, bitsN F trT, conv binary64 F⟩

/-- The constants (src/sz_compress_cp_preserve_2d.cpp L1719-1722, L1759, L1766, L1770-1774). -/
def sz3Par (lg : Pat binary64 → Pat binary64) (maxEb : Pat binary64) : Sz3.Par (Pat binary64) where
  base := 4
  logBase := lg (enc binary64 false (.fin 4))
  thr := enc binary64 false (.fin (p2 (-52)))
  capacity := 65536
  ebFull := maxEb
  ebHalf := bmul binary64 maxEb (enc binary64 false (.fin (p2 (-1))))

/-- `derive_eb_abs_online_2d` (src/sz_compress_cp_preserve_2d.cpp L1540-1561). -/
def sz3Bound (F : Fmt) (tr : Pat binary64 → Int) (lg : Pat binary64 → Pat binary64) (ov : Bool)
    (r1 r2 : Nat) : Fld (Pat F) → Ev → Pat binary64 → Option (Pat binary64) :=
  deriveEb r1 r2 (minfG (bitsOps F tr lg).toDOps)
    (deriveAbsT (bitsOps F tr lg) (bitsE F tr lg ov))

/-- The compressor up to serialisation (src/sz_compress_cp_preserve_2d.cpp L1711-1793). -/
def runSz3 (F : Fmt) (trT : Pat F → Int) (tr : Pat binary64 → Int)
    (lg : Pat binary64 → Pat binary64) (ov : Bool) (r1 r2 : Nat) (maxEb : Pat binary64)
    (m : Fld (Pat F)) : Option (Fld (Pat F) × Sz3.Streams (Pat F)) :=
  Sz3.compress (sz3Bits F trT tr lg) (sz3Par lg maxEb) r1 r2 (sz3Bound F tr lg ov r1 r2) m

/-! ### The quantiser -/

/-- Not positive, and not NaN. -/
def Low (v : Fp ℚ) : Prop := v = .inf true ∨ ∃ x, v = .fin x ∧ x ≤ 0

/-- Not negative, and not NaN. -/
def High (v : Fp ℚ) : Prop := v = .inf false ∨ ∃ x, v = .fin x ∧ 0 ≤ x

section
variable {F : Fmt}

theorem low_round {x : ℚ} (h : x ≤ 0) : Low (round F x) := by
  cases hr : round F x with
  | nan => exact absurd hr (round_not_nan _)
  | fin y => exact Or.inr ⟨y, rfl, (round_fin hr).2.2.2 h⟩
  | inf s =>
    cases s with
    | true => exact Or.inl rfl
    | false =>
      exfalso
      unfold round at hr
      split at hr
      · cases hr
      · rename_i hn
        simp only [Fp.inf.injEq, decide_eq_false_iff_not, not_lt] at hr
        have : x = 0 := le_antisymm h hr
        rw [this, abs_zero, rmag_zero] at hn
        exact hn (p2_pos _)

theorem high_round {x : ℚ} (h : 0 ≤ x) : High (round F x) := by
  cases hr : round F x with
  | nan => exact absurd hr (round_not_nan _)
  | fin y => exact Or.inr ⟨y, rfl, (round_fin hr).2.2.1 h⟩
  | inf s =>
    cases s with
    | false => exact Or.inl rfl
    | true => exact absurd hr (round_ne_neg_inf h)

theorem Low.mul {v : Fp ℚ} (h : Low v) {b : ℚ} (hb : 0 < b) :
    Low (Fp.mul (round F) v (.fin b)) := by
  rcases h with rfl | ⟨x, rfl, hx⟩
  · left; simp [Fp.mul, hb.ne', hb.le]
  · exact low_round (mul_nonpos_of_nonpos_of_nonneg hx hb.le)

theorem High.mul {v : Fp ℚ} (h : High v) {b : ℚ} (hb : 0 < b) :
    High (Fp.mul (round F) v (.fin b)) := by
  rcases h with rfl | ⟨x, rfl, hx⟩
  · left; simp [Fp.mul, hb.ne', hb.le]
  · exact high_round (mul_nonneg hx hb.le)

/-- The check rejects a step away from the data. -/
theorem reject_low (hF : F.Ok) {pr c d b : ℚ} (hpr : Rep F pr) (hd : round F (c - pr) = .fin d)
    (hb : b < d) {off : Fp ℚ} (ho : Low off) :
    Fp.lt (.fin b) (Fp.abs (Fp.sub (round F) (Fp.add (round F) (.fin pr) off) (.fin c))) = true := by
  rcases ho with rfl | ⟨o, rfl, ho⟩
  · simp [Fp.add, Fp.sub, Fp.neg, Fp.abs, Fp.lt]
  · change Fp.lt _ (Fp.abs (Fp.sub (round F) (round F (pr + o)) _)) = true
    cases hr : round F (pr + o) with
    | nan => exact absurd hr (round_not_nan _)
    | inf s => simp [Fp.add, Fp.sub, Fp.neg, Fp.abs, Fp.lt]
    | fin X =>
      have h1 := round_mono hF (show pr + o ≤ pr by linarith) hr (round_rep hF hpr)
      rw [sub_fin]
      cases hz : round F (X - c) with
      | nan => exact absurd hz (round_not_nan _)
      | inf s => simp [Fp.abs, Fp.lt]
      | fin z =>
        have hd' : round F (pr - c) = .fin (-d) := by
          rw [← neg_sub, round_neg hF, hd]; rfl
        have h2 := round_mono hF (show X - c ≤ pr - c by linarith) hz hd'
        rw [abs_fin]
        simp only [Fp.lt, decide_eq_true_eq]
        have := neg_le_abs z
        linarith

theorem reject_high (hF : F.Ok) {pr c d b : ℚ} (hpr : Rep F pr) (hd : round F (c - pr) = .fin d)
    (hb : b < -d) {off : Fp ℚ} (ho : High off) :
    Fp.lt (.fin b) (Fp.abs (Fp.sub (round F) (Fp.add (round F) (.fin pr) off) (.fin c))) = true := by
  rcases ho with rfl | ⟨o, rfl, ho⟩
  · simp [Fp.add, Fp.sub, Fp.neg, Fp.abs, Fp.lt]
  · change Fp.lt _ (Fp.abs (Fp.sub (round F) (round F (pr + o)) _)) = true
    cases hr : round F (pr + o) with
    | nan => exact absurd hr (round_not_nan _)
    | inf s => simp [Fp.add, Fp.sub, Fp.neg, Fp.abs, Fp.lt]
    | fin X =>
      have h1 := round_mono hF (show pr ≤ pr + o by linarith) (round_rep hF hpr) hr
      rw [sub_fin]
      cases hz : round F (X - c) with
      | nan => exact absurd hz (round_not_nan _)
      | inf s => simp [Fp.abs, Fp.lt]
      | fin z =>
        have hd' : round F (pr - c) = .fin (-d) := by
          rw [← neg_sub, round_neg hF, hd]; rfl
        have h2 := round_mono hF (show pr - c ≤ X - c by linarith) hd' hz
        rw [abs_fin]
        simp only [Fp.lt, decide_eq_true_eq]
        have := le_abs_self z
        linarith

theorem isZero_bits (hF : F.Ok) {trT : Pat F → Int} {a : Pat F} {x : ℚ} (h : dec F a = .fin x) :
    isZero (bitsN F trT) a = decide (x = 0) := by
  have h0 : dec F ((bitsN F trT).ofInt 0) = .fin 0 := by
    refine (dec_enc hF _ (val_round _)).trans ?_
    simpa using round_zero hF
  unfold isZero
  change (Fp.le (dec F a) (dec F ((bitsN F trT).ofInt 0)) &&
    Fp.le (dec F ((bitsN F trT).ofInt 0)) (dec F a)) = _
  rw [h, h0]
  simp only [Fp.le]
  by_cases hx : x = 0
  · simp [hx]
  · simp only [hx, decide_false, Bool.and_eq_false_iff, decide_eq_false_iff_not, not_le]
    exact (lt_or_gt_of_ne hx).symm

/-- What `quantize_and_overwrite` does with finite numbers and a bound that is a power of two: the
datum is stored, or there is a code of the table other than 0 and the computed distance is at most
the bound; whatever the undefined conversions to `int` give. -/
theorem quantT_bits (hF : F.Ok) {trT : Pat F → Int} {cur pred eb : Pat F} {c pr d : ℚ} {k : Int}
    (hc : dec F cur = .fin c) (hpr : dec F pred = .fin pr) (hd : round F (c - pr) = .fin d)
    (he : dec F eb = .fin (p2 k)) :
    quantT (bitsN F trT) 32768 cur pred eb = (0, cur, [cur]) ∨
      (0 < (quantT (bitsN F trT) 32768 cur pred eb).1 ∧
        (quantT (bitsN F trT) 32768 cur pred eb).1 < 65536 ∧
        (quantT (bitsN F trT) 32768 cur pred eb).2.2 = [] ∧
        ∃ X, dec F (quantT (bitsN F trT) 32768 cur pred eb).2.1 = .fin X ∧
          rmag F |X - c| ≤ p2 k) := by
  have hk := p2_pos k
  have h0 : dec F ((bitsN F trT).ofInt 0) = .fin 0 := by
    refine (dec_enc hF _ (val_round _)).trans ?_
    simpa using round_zero hF
  have hz : isZero (bitsN F trT) eb = false := by
    rw [isZero_bits hF he]; simp [hk.ne']
  have hdiff : dec F ((bitsN F trT).sub cur pred) = .fin d := by
    refine (dec_sub hF cur pred).trans ?_
    rw [hc, hpr, sub_fin, hd]
  have hlt : (bitsN F trT).lt ((bitsN F trT).sub cur pred) ((bitsN F trT).ofInt 0) =
      decide (d < 0) := by
    change Fp.lt (dec F ((bitsN F trT).sub cur pred)) (dec F ((bitsN F trT).ofInt 0)) = _
    rw [hdiff, h0]; rfl
  have hquo : dec F ((bitsN F trT).div ((bitsN F trT).abs ((bitsN F trT).sub cur pred)) eb) =
      round F (|d| / p2 k) := by
    refine (dec_div hF _ _ (by rw [he]; simp [hk.ne'])).trans ?_
    rw [he, show dec F ((bitsN F trT).abs ((bitsN F trT).sub cur pred)) = .fin |d| from
      (dec_abs hF _).trans (by rw [hdiff, abs_fin])]
    simp [Fp.div, hk.ne']
  -- a negative quotient comes from a conversion that is out of range
  have hneg : (bitsN F trT).trunc
      ((bitsN F trT).div ((bitsN F trT).abs ((bitsN F trT).sub cur pred)) eb) < 0 →
      p2 k < |d| := by
    intro ht
    by_contra hle
    have hq1 : |d| / p2 k ≤ 1 := by rw [div_le_one hk]; exact not_lt.1 hle
    have hq0 : 0 ≤ |d| / p2 k := div_nonneg (abs_nonneg _) hk.le
    have one : Rep F 1 := by
      have hu := (emin_le hF).2.1
      have := (emin_le hF).2.2.1
      simpa [p2_zero] using rep_p2 (F := F) (k := 0) (by omega) (by omega)
    obtain ⟨y, hy, hyb⟩ := round_bounded hF one (x := |d| / p2 k) (by rwa [abs_of_nonneg hq0])
    change btruncT F trT _ < 0 at ht
    unfold btruncT at ht
    rw [hquo, hy] at ht
    simp only at ht
    rw [if_pos (lt_of_le_of_lt hyb (by norm_num))] at ht
    have hy0 := (round_fin hy).2.2.1 hq0
    unfold truncQ at ht
    rw [if_pos hy0] at ht
    have := Int.floor_nonneg.2 hy0
    omega
  -- the value of the offset
  have hoff : ∀ n : Int, dec F ((bitsN F trT).mul ((bitsN F trT).ofInt n) eb) =
      Fp.mul (round F) (round F n) (.fin (p2 k)) := by
    intro n
    refine (dec_enc hF _ (val_mul _ _)).trans ?_
    rw [he, show dec F ((bitsN F trT).ofInt n) = round F n from dec_enc hF _ (val_round _)]
  have hdec : ∀ n : Int, dec F ((bitsN F trT).add pred ((bitsN F trT).mul ((bitsN F trT).ofInt n)
      eb)) = Fp.add (round F) (.fin pr) (Fp.mul (round F) (round F n) (.fin (p2 k))) := by
    intro n
    refine (dec_enc hF _ (val_add _ _)).trans ?_
    rw [hpr, hoff]
  have hchk : ∀ x : Pat F, (bitsN F trT).lt eb ((bitsN F trT).abs ((bitsN F trT).sub x cur)) =
      Fp.lt (.fin (p2 k)) (Fp.abs (Fp.sub (round F) (dec F x) (.fin c))) := by
    intro x
    change Fp.lt (dec F eb) (dec F (babs F (bsub F x cur))) = _
    rw [he, dec_abs hF, dec_sub hF, hc]
  -- what an accepted value is
  have hacc : ∀ n : Int, (bitsN F trT).lt eb ((bitsN F trT).abs ((bitsN F trT).sub
      ((bitsN F trT).add pred ((bitsN F trT).mul ((bitsN F trT).ofInt n) eb)) cur)) = false →
      ∃ X, dec F ((bitsN F trT).add pred ((bitsN F trT).mul ((bitsN F trT).ofInt n) eb)) = .fin X ∧
        rmag F |X - c| ≤ p2 k := by
    intro n hn
    rw [hchk] at hn
    have hnn : dec F ((bitsN F trT).add pred ((bitsN F trT).mul ((bitsN F trT).ofInt n) eb)) ≠
        .nan := by
      have : Fp.mul (round F) (round F n) (.fin (p2 k)) ≠ .nan := by
        rcases le_total (n : ℚ) 0 with h | h
        · rcases (low_round (F := F) h).mul (F := F) hk with e | ⟨x, e, -⟩ <;> rw [e] <;> simp
        · rcases (high_round (F := F) h).mul (F := F) hk with e | ⟨x, e, -⟩ <;> rw [e] <;> simp
      rw [hdec]
      revert this
      generalize Fp.mul (round F) (round F (n : ℚ)) (.fin (p2 k)) = o
      intro ho
      cases o with
      | nan => exact absurd rfl ho
      | inf s => simp [Fp.add]
      | fin y => exact round_not_nan _
    cases hv : dec F ((bitsN F trT).add pred ((bitsN F trT).mul ((bitsN F trT).ofInt n) eb)) with
    | nan => exact absurd hv hnn
    | inf s =>
      rw [hv] at hn
      simp [Fp.sub, Fp.neg, Fp.add, Fp.abs, Fp.lt] at hn
    | fin X =>
      refine ⟨X, rfl, ?_⟩
      rw [hv, sub_fin] at hn
      cases hr : round F (X - c) with
      | nan => exact absurd hr (round_not_nan _)
      | inf s => rw [hr] at hn; simp [Fp.abs, Fp.lt] at hn
      | fin z =>
        rw [hr, abs_fin] at hn
        simp only [Fp.lt, decide_eq_false_iff_not, not_lt] at hn
        rw [← (round_fin hr).1]
        exact hn
  have hrp : Rep F pr := rep_of_val (val_dec hF pred) hpr
  have hfar : ∀ n : Int, p2 k < |d| → (if d < 0 then 0 ≤ n else n ≤ 0) →
      (bitsN F trT).lt eb ((bitsN F trT).abs ((bitsN F trT).sub
        ((bitsN F trT).add pred ((bitsN F trT).mul ((bitsN F trT).ofInt n) eb)) cur)) = true := by
    intro n hkd hn
    rw [hchk, hdec]
    split at hn
    · rename_i h
      rw [abs_of_neg h] at hkd
      exact reject_high hF hrp hd hkd ((high_round (by exact_mod_cast hn)).mul hk)
    · rename_i h
      rw [abs_of_nonneg (not_lt.1 h)] at hkd
      exact reject_low hF hrp hd hkd ((low_round (by exact_mod_cast hn)).mul hk)
  unfold quantT
  simp only [hz, Bool.false_eq_true, if_false, hlt]
  generalize (bitsN F trT).trunc
    ((bitsN F trT).div ((bitsN F trT).abs ((bitsN F trT).sub cur pred)) eb) = t at hneg ⊢
  split
  · rename_i ht
    by_cases h : d < 0
    · simp only [h, decide_true, if_true] at hfar ⊢
      split
      · exact Or.inl rfl
      · rename_i ha
        rw [Bool.not_eq_true] at ha
        have ht0 : 0 ≤ t := by
          by_contra hc
          have := hfar (-(2 * ((t + 1) / 2))) (hneg (by omega)) (by omega)
          rw [ha] at this
          cases this
        exact Or.inr ⟨by simp only; omega, by simp only; omega, rfl, hacc _ ha⟩
    · simp only [h, decide_false, Bool.false_eq_true, if_false] at hfar ⊢
      split
      · exact Or.inl rfl
      · rename_i ha
        rw [Bool.not_eq_true] at ha
        have ht0 : 0 ≤ t := by
          by_contra hc
          have := hfar (2 * ((t + 1) / 2)) (hneg (by omega)) (by omega)
          rw [ha] at this
          cases this
        exact Or.inr ⟨by simp only; omega, by simp only; omega, rfl, hacc _ ha⟩
  · exact Or.inl rfl

/-- A computed distance of at most the bound. -/
theorem near_of_rmag {y : ℚ} {k : Int} (hk : F.emin ≤ k) (h0 : 0 ≤ y)
    (h : rmag F y ≤ p2 k) : (1 - p2 (-F.p)) * y ≤ p2 k := by
  have hp := p2_pos (-(F.p : Int))
  rcases lt_or_ge y (p2 F.emin) with hy | hy
  · have h1 := p2_le hk
    have : 0 ≤ p2 (-(F.p : Int)) * y := mul_nonneg hp.le h0
    linarith
  · have := (abs_le.1 (rmag_rel (F := F) hy)).1
    linarith

end

/-! ### The bound -/

section bound
variable {T D : Type} {O : Ops T D} {F : Fmt} {vT : T → Fp ℚ} {vD : D → Fp ℚ} {eps : ℚ}

/-- The bound quantiser: a bound of at most the threshold becomes zero; otherwise the code is not
negative and stands for a power of two that exceeds the bound at most by the errors of the division
and of the logarithm.  The code 0 is possible then, unlike in the other modes. -/
theorem ebQuant_any (hO : IsIeee O F vT vD eps) {lb thr a : D} (hlb : vD lb = .fin 2)
    (ht : vD thr = .fin (p2 (-52))) (he0 : 0 ≤ eps) (he1 : eps ≤ 1) {R : Int} (hR0 : -54 ≤ R)
    (hR : R ≤ 400) (ha : LeV (p2 R) (vD a)) :
    (O.le a thr = true ∧ CpSZ.ebQuant O.toDOps 4 lb thr a = (O.ofInt 0, 0)) ∨
    ∃ (A : ℚ) (k : Int), vD a = .fin A ∧ O.le a thr = false ∧
      0 ≤ (CpSZ.ebQuant O.toDOps 4 lb thr a).2 ∧
      2 * (CpSZ.ebQuant O.toDOps 4 lb thr a).2 ≤ R + 54 ∧
      k = 2 * (CpSZ.ebQuant O.toDOps 4 lb thr a).2 + -52 ∧
      vD (CpSZ.ebQuant O.toDOps 4 lb thr a).1 = .fin (p2 k) ∧
      p2 k ≤ (1 + eps) * (1 + p2 (-53)) * A := by
  have hthr := p2_pos (-52)
  by_cases hle : O.le a thr = true
  · exact Or.inl ⟨hle, by unfold CpSZ.ebQuant; rw [if_pos hle]⟩
  right
  obtain ⟨A, hA, hAR⟩ : ∃ A, vD a = .fin A ∧ A ≤ p2 R := by
    rcases ha with ha | ha
    · rw [hO.le, ha, ht] at hle
      simp [Fp.le] at hle
    · exact ha
  have hA4 : A ≤ p2 400 := hAR.trans (p2_le hR)
  by_cases hpos : 0 < (CpSZ.ebQuant O.toDOps 4 lb thr a).2
  · obtain ⟨k, k0, -, k2, k3⟩ := hO.ebQuant_code hlb ht (by norm_num) (by norm_num) he0 he1 hA hA4
      hpos
    exact ⟨A, k, hA, by simpa using hle, hpos.le,
      hO.ebQuant_range hlb ht he0 he1 hA hR hAR hpos, k0, k2, k3⟩
  -- the code is 0
  have hlt : p2 (-52) < A := by
    rw [hO.le, hA, ht] at hle
    simpa [Fp.le] using hle
  have hq : vD (O.div a thr) = round binary64 (A / p2 (-52)) := by
    rw [hO.div _ _ (by rw [ht]; simp [hthr.ne']), hA, ht]
    simp [Fp.div, hthr.ne']
  have h1 : 1 < A / p2 (-52) := by rw [lt_div_iff₀ hthr]; linarith
  have hAt : A / p2 (-52) ≤ p2 500 := by
    rw [div_le_iff₀ hthr, ← p2_add]
    exact hA4.trans (p2_le (by omega))
  obtain ⟨y, hy, hyb⟩ := round_bounded ok64 (b := p2 500)
    (rep_p2 (by decide) (by decide)) (x := A / p2 (-52))
    (by rw [abs_of_pos (by linarith)]; exact hAt)
  rw [hy] at hq
  have hy1 : 1 ≤ y := round_ge ok64 (b := 1)
    (by simpa [p2_zero] using rep_p2 (F := binary64) (k := 0) (by decide) (by decide))
    zero_le_one h1.le hy
  obtain ⟨l, hl, hl1, hl2⟩ := hO.log2 _ _ hq hy1
  have hlup : l < 600 := by
    by_contra hc
    have h2 := hl2 600 (by push_cast; exact not_lt.1 hc)
    have h3 : (1 + eps) * y ≤ 2 * p2 500 :=
      mul_le_mul (by linarith) ((le_abs_self y).trans hyb) (by linarith) (by norm_num)
    have h4 : (2 : ℚ) ^ 600 = p2 600 := by rw [show (600 : Int) = ((600 : Nat) : Int) from rfl, p2_nat]
    have h5 := p2_succ 500
    have h6 : p2 (500 + 1) < p2 600 := p2_lt (by norm_num)
    rw [h4] at h2
    linarith
  have hz : vD (O.div (O.log2 (O.div a thr)) lb) = round binary64 (l / 2) := by
    rw [hO.div _ _ (by rw [hlb]; simp), hl, hlb]
    simp [Fp.div]
  obtain ⟨z, hz', hzb⟩ := round_bounded ok64 (b := ((600 : Int) : ℚ)) (rep_int ok64 (by decide))
    (x := l / 2) (by push_cast; rw [abs_le]; constructor <;> linarith)
  have hzl : -(1 / 2) ≤ z := by
    have e : p2 (-1) = 1 / 2 := by rw [p2_eq]; norm_num
    have hr : round binary64 (-(1 / 2)) = .fin (-(1 / 2)) := by
      rw [← e]
      exact round_rep ok64 (rep_p2 (by decide) (by decide)).neg
    exact round_mono ok64 (show -(1 / 2) ≤ l / 2 by linarith) hr hz'
  rw [hz'] at hz
  have htr := hO.trunc _ _ hz (lt_of_le_of_lt hzb (by norm_num))
  have hid : (CpSZ.ebQuant O.toDOps 4 lb thr a).2 = 0 := by
    have h2 : 0 ≤ truncQ z := by
      unfold truncQ
      split
      · exact Int.floor_nonneg.2 ‹_›
      · have : -1 < ⌈z⌉ := Int.lt_ceil.2 (by push_cast; linarith)
        omega
    have h3 : (CpSZ.ebQuant O.toDOps 4 lb thr a).2 = truncQ z := by
      unfold CpSZ.ebQuant
      rw [if_neg hle]
      exact htr
    omega
  have hval : (CpSZ.ebQuant O.toDOps 4 lb thr a).1 =
      O.mul (O.pow 4 (CpSZ.ebQuant O.toDOps 4 lb thr a).2) thr := by
    unfold CpSZ.ebQuant
    rw [if_neg hle]
  refine ⟨A, -52, hA, by simpa using hle, by omega, by omega, by omega, ?_, ?_⟩
  · have e1 : Fp.ipow (K := ℚ) 4 0 = p2 0 := by rw [p2_zero]; simp [Fp.ipow]
    rw [hval, hid, hO.mul, hO.pow, e1, round_rep ok64 (rep_p2 (by decide) (by decide)), ht]
    simp only [Fp.mul, p2_zero, one_mul]
    exact round_rep ok64 (rep_p2 (by decide) (by decide))
  · have h5 := p2_pos (-53)
    have h6 : 1 ≤ (1 + eps) * (1 + p2 (-53)) := by nlinarith
    have h7 : (1 : ℚ) * A ≤ (1 + eps) * (1 + p2 (-53)) * A :=
      mul_le_mul_of_nonneg_right h6 (by linarith)
    linarith

end bound

/-! ### The prediction -/

section predict
variable {F : Fmt} {trT : Pat F → Int}

theorem bdN_add (hF : F.Ok) {k : Int} (h0 : 0 ≤ k) (h2 : k + 1 ≤ F.emax) {a b : Pat F}
    (ha : Bd (dec F) k a) (hb : Bd (dec F) k b) : Bd (dec F) (k + 1) (badd F a b) := by
  have hu := (emin_le hF).2.1
  obtain ⟨x, x1, x2⟩ := ha
  obtain ⟨y, y1, y2⟩ := hb
  obtain ⟨z, z1, z2⟩ := round_bounded hF (rep_p2 (k := k + 1) (by omega) h2) (x := x + y) (by
    have := abs_add_le x y
    rw [p2_succ]; linarith)
  exact ⟨z, (dec_enc hF _ (val_add _ _)).trans (by rw [x1, y1]; exact z1), z2⟩

theorem bdN_neg (hF : F.Ok) {k : Int} {a : Pat F} (ha : Bd (dec F) k a) :
    Bd (dec F) k (bneg F a) := by
  obtain ⟨x, x1, x2⟩ := ha
  exact ⟨-x, by rw [dec_neg hF, x1]; rfl, by rwa [abs_neg]⟩

theorem bdN_sub (hF : F.Ok) {k : Int} (h0 : 0 ≤ k) (h2 : k + 1 ≤ F.emax) {a b : Pat F}
    (ha : Bd (dec F) k a) (hb : Bd (dec F) k b) : Bd (dec F) (k + 1) (bsub F a b) := by
  have hu := (emin_le hF).2.1
  obtain ⟨x, x1, x2⟩ := ha
  obtain ⟨y, y1, y2⟩ := hb
  obtain ⟨z, z1, z2⟩ := round_bounded hF (rep_p2 (k := k + 1) (by omega) h2) (x := x - y) (by
    have := abs_sub x y
    rw [p2_succ]; linarith)
  exact ⟨z, by rw [dec_sub hF, x1, y1, sub_fin, z1], z2⟩

theorem ofInt_bits (hF : F.Ok) (hp : 5 ≤ F.p) {n : Int} (hn : |n| ≤ 16) :
    dec F ((bitsN F trT).ofInt n) = .fin n := by
  refine (dec_enc hF _ (val_round _)).trans (round_rep hF (rep_int hF (hn.trans ?_)))
  calc (16 : Int) ≤ 2 ^ 5 := by norm_num
    _ ≤ 2 ^ F.p := by
      have : (2 : Nat) ^ 5 ≤ 2 ^ F.p := Nat.pow_le_pow_right (by norm_num) hp
      exact_mod_cast this

theorem bdN_times (hF : F.Ok) (hp : 5 ≤ F.p) {k : Int} (h0 : 0 ≤ k) (h2 : k + 4 ≤ F.emax) {n : Int}
    (hn : |n| ≤ 16) {a : Pat F} (ha : Bd (dec F) k a) :
    Bd (dec F) (k + 4) (bmul F ((bitsN F trT).ofInt n) a) := by
  have hu := (emin_le hF).2.1
  obtain ⟨x, x1, x2⟩ := ha
  obtain ⟨z, z1, z2⟩ := round_bounded hF (rep_p2 (k := k + 4) (by omega) h2) (x := n * x) (by
    have e : p2 4 = 16 := by rw [p2_eq]; norm_num
    have hn' : |(n : ℚ)| ≤ 16 := by exact_mod_cast hn
    rw [abs_mul, p2_add, e, mul_comm (p2 k)]
    exact mul_le_mul hn' x2 (abs_nonneg _) (by norm_num))
  exact ⟨z, (dec_enc hF _ (val_mul _ _)).trans (by rw [x1, ofInt_bits hF hp hn]; exact z1), z2⟩

theorem bdN_over (hF : F.Ok) (hp : 5 ≤ F.p) {k : Int} (h0 : 0 ≤ k) (h2 : k ≤ F.emax) {n : Int}
    (hn1 : 1 ≤ n) (hn : n ≤ 16) {a : Pat F} (ha : Bd (dec F) k a) :
    Bd (dec F) k (bdiv F a ((bitsN F trT).ofInt n)) := by
  have hu := (emin_le hF).2.1
  obtain ⟨x, x1, x2⟩ := ha
  have hn' : (1 : ℚ) ≤ n := by exact_mod_cast hn1
  have hv := ofInt_bits (trT := trT) hF hp (n := n) (by rw [abs_of_nonneg (by omega)]; exact hn)
  have hn0 : (n : ℚ) ≠ 0 := by linarith
  obtain ⟨z, z1, z2⟩ := round_bounded hF (rep_p2 (k := k) (by omega) h2) (x := x / n) (by
    rw [abs_div, abs_of_pos (show (0 : ℚ) < n by linarith), div_le_iff₀ (by linarith)]
    have := mul_le_mul_of_nonneg_left hn' (p2_pos k).le
    linarith)
  refine ⟨z, (dec_div hF _ _ (by rw [hv]; simpa using hn0)).trans ?_, z2⟩
  rw [x1, hv]
  simp only [Fp.div, hn0, if_false]
  exact z1

/-- The predictions are finite and at most `2^7` times the size of the data. -/
theorem predict_bits (hF : F.Ok) (hp : 5 ≤ F.p) {k : Int} (h0 : 0 ≤ k) (h2 : k + 7 ≤ F.emax)
    {n : Nat} {f : Nat → Pat F} (hf : ∀ q, q < n → Bd (dec F) k (f q)) {e : DEv} {x : Pat F}
    (h : predict (bitsN F trT) n f e = some x) : Bd (dec F) (k + 7) x := by
  have rdB : ∀ {i : Int} {y : Pat F}, Mesh2D.rd n f i = some y → Bd (dec F) k y := by
    intro i y hy
    unfold Mesh2D.rd at hy
    split at hy
    · simp only [Option.some.injEq] at hy
      rw [← hy]
      exact hf _ (by omega)
    · cases hy
  have rdAll : ∀ {ps : List Int} {xs : List (Pat F)}, readAll n f ps = some xs →
      ∀ y ∈ xs, Bd (dec F) k y := by
    intro ps
    induction ps with
    | nil =>
      intro xs hx
      simp only [readAll, Option.some.injEq] at hx
      rw [← hx]; simp
    | cons p ps ih =>
      intro xs hx
      unfold readAll at hx
      split at hx
      · rename_i y ys h1 h2
        simp only [Option.some.injEq] at hx
        rw [← hx]
        intro z hz
        rcases List.mem_cons.1 hz with rfl | hz
        · exact rdB h1
        · exact ih h2 z hz
      · cases hx
  unfold predict at h
  split at h
  · cases h
  rename_i xs hxs
  have hb := rdAll hxs
  have tim : ∀ {j : Int} {a : Pat F}, |j| ≤ 16 → Bd (dec F) k a →
      Bd (dec F) (k + 4) (bmul F ((bitsN F trT).ofInt j) a) :=
    fun hj ha => bdN_times hF hp h0 (by omega) hj ha
  unfold interp at h
  split at h <;> simp only [Option.some.injEq, reduceCtorEq] at h <;> subst h
  · exact ⟨0, by simpa using ofInt_bits (trT := trT) hF hp (n := 0) (by norm_num), by
      rw [abs_zero]; exact (p2_pos _).le⟩
  · exact (hb _ (by simp)).mono (by omega)
  · exact (bdN_over hF hp (by omega) (by omega) (by norm_num) (by norm_num)
      (bdN_add hF h0 (by omega) (hb _ (by simp)) (hb _ (by simp)))).mono (by omega)
  · exact (bdN_over (k := k + 4 + 1 + 1) hF hp (by omega) (by omega) (by norm_num) (by norm_num)
      (bdN_sub hF (by omega) (by omega) (bdN_add hF (by omega) (by omega)
        (tim (by norm_num) (hb _ (by simp))) (tim (by norm_num) (hb _ (by simp))))
        ((hb _ (by simp)).mono (by omega)))).mono (by omega)
  · exact (bdN_over (k := k + 4 + 1 + 1) hF hp (by omega) (by omega) (by norm_num) (by norm_num)
      (bdN_add hF (by omega) (by omega) (bdN_add hF (by omega) (by omega)
        ((bdN_neg hF (hb _ (by simp))).mono (by omega)) (tim (by norm_num) (hb _ (by simp))))
        ((tim (by norm_num) (hb _ (by simp))).mono (by omega)))).mono (by omega)
  · exact (bdN_over (k := k + 4 + 1 + 1 + 1) hF hp (by omega) (by omega) (by norm_num) (by norm_num)
      (bdN_sub hF (by omega) (by omega) (bdN_add hF (by omega) (by omega)
        (bdN_add hF (by omega) (by omega) ((bdN_neg hF (hb _ (by simp))).mono (by omega))
          (tim (by norm_num) (hb _ (by simp))))
        ((tim (by norm_num) (hb _ (by simp))).mono (by omega)))
        ((hb _ (by simp)).mono (by omega)))).mono (by omega)

end predict

end CpSZ.Ieee
