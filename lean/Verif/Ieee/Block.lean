import Verif.Ieee.Bits
import Verif.Block.Full
/-
The quantiser of the block codecs (include/sz_compression_utils.hpp L49-81) in IEEE-754
arithmetic on bit patterns: codes and acceptance for all data, finite or not.
-/

namespace CpSZ.Ieee
open CpSZ.Block

/-! ### The operations -/

/-- Conversion between formats. -/
def conv (F G : Fmt) (a : Pat F) : Pat G := enc G (sgn F a) (narrow G (dec F a))

/-- Operations of `quantize` and `recover` (include/sz_compression_utils.hpp L52, L57, L59;
include/sz_decompression_utils.hpp L57): the prediction is a `float`, which is converted to the
element type for the difference and to `double` for the sum. -/
def bitsQ (F : Fmt) (tr : Pat binary64 → Int) (lg : Pat binary64 → Pat binary64) :
    QOps (Pat F) (Pat binary32) (Pat binary64) where
  toDOps := bitsD tr lg
  diff a b := conv F binary64 (bsub F a (conv binary32 F b))
  addTo a d := conv binary64 F (badd binary64 (conv binary32 binary64 a) d)
  dist a b := conv F binary64 (babs F (bsub F a b))

/-- `RegErrThreshold` (include/sz_def.hpp L156), the `double` nearest to 0.1. -/
def tenthBits : Pat binary64 := enc binary64 false (round binary64 (1 / 10))

/-- An `int` (position in a block, block size) as a `float`. -/
def intF (n : Nat) : Pat binary32 := enc binary32 false (round binary32 n)

/-- Arithmetic of the block codecs on bit patterns: the predictions of
include/sz_prediction.hpp L4-28, `rel_param_err` and `reg_precisions` of
src/sz_compress_3d.cpp L25-28, L333-336 (both `float`, the latter stored as `double`). -/
def bitsB (F : Fmt) (tr : Pat binary64 → Int) (lg : Pat binary64 → Pat binary64) :
    BOps (Pat F) (Pat binary32) (Pat binary64) where
  O := bitsQ F tr lg
  C := bitsQ binary32 tr lg
  isZero p := dec binary64 p == .fin 0
  zeroT := enc F false (.fin 0)
  zeroF := enc binary32 false (.fin 0)
  zeroD := enc binary64 false (.fin 0)
  tenth := tenthBits
  lor2 a b c := conv F binary32 (bsub F (badd F a b) c)
  lor3 a b c d e f g := conv F binary32
    (badd F (bsub F (bsub F (bsub F (badd F (badd F a b) c) d) e) f) g)
  reg2 a b c x y := badd binary32 (badd binary32 (bmul binary32 a (intF x))
    (bmul binary32 b (intF y))) c
  reg3 a b c d x y z := badd binary32 (badd binary32 (badd binary32 (bmul binary32 a (intF x))
    (bmul binary32 b (intF y))) (bmul binary32 c (intF z))) d
  regPrec n p := conv binary32 binary64 (conv binary64 binary32 (bdiv binary64
    (bmul binary64 tenthBits p) (enc binary64 false (round binary64 n))))
  divB p b := conv binary32 binary64 (bdiv binary32 (conv binary64 binary32 p) (intF b))

/-! ### Numbers that are not negative -/

/-- Not below zero. -/
def Up : Fp ℚ → Prop
  | .nan => True
  | .inf s => s = false
  | .fin x => 0 ≤ x

/-- A bit pattern without sign, or NaN. -/
def NN (F : Fmt) (a : Pat F) : Prop := sgn F a = false ∨ dec F a = .nan

section
variable {F : Fmt}

theorem up_decMag (n : Nat) : Up (decMag F n) := by
  unfold decMag
  split
  · exact magVal_nonneg _
  · split <;> trivial

theorem NN.up {a : Pat F} (h : NN F a) : Up (dec F a) := by
  rcases h with h | h
  · unfold dec
    rw [h]
    exact up_decMag _
  · rw [h]; trivial

theorem infM_lt' (hF : F.Ok) : infM F < 2 ^ (F.ew + F.p - 1) := by
  have := infM_lt hF
  have : 0 < 2 ^ (F.p - 1) := Nat.two_pow_pos _
  omega

theorem nn_enc (hF : F.Ok) {v : Fp ℚ} (hv : Val F v) (hu : Up v) : NN F (enc F false v) := by
  cases v with
  | nan => exact Or.inr (dec_enc hF _ hv)
  | inf s =>
    left
    cases hu
    exact sgn_pack hF (infM_lt' hF) _
  | fin x =>
    left
    change 0 ≤ x at hu
    unfold enc
    rw [sgn_pack hF ((encMag_spec hF (abs_nonneg x) (Rep.abs hv)).1.trans (infM_lt' hF))]
    split
    · rfl
    · simpa using hu

theorem nn_of_pos {a : Pat F} {x : ℚ} (ha : dec F a = .fin x) (hx : 0 < x) : NN F a := by
  left
  rw [sgn_of_ne ha hx.ne']
  simpa using hx.le

theorem up_round {x : ℚ} (hx : 0 ≤ x) : Up (round F x) := by
  cases h : round F x with
  | nan => trivial
  | inf s =>
    cases s with
    | false => rfl
    | true => exact absurd h (round_ne_neg_inf hx)
  | fin y => exact (round_fin h).2.2.1 hx

theorem nn_int (hF : F.Ok) (n : Nat) : NN F (enc F false (round F n)) :=
  nn_enc hF (val_round _) (up_round (by positivity))

theorem up_narrow {v : Fp ℚ} (h : Up v) : Up (narrow F v) := by
  cases v with
  | nan => trivial
  | inf s => exact h
  | fin x => exact up_round h

theorem NN.conv {G : Fmt} (hG : G.Ok) {a : Pat F} (h : NN F a) :
    NN G (conv F G a) := by
  rcases h with h | h
  · unfold Ieee.conv
    rw [h]
    exact nn_enc hG (val_narrow _) (up_narrow (NN.up (Or.inl h)))
  · right
    unfold Ieee.conv
    rw [h]
    exact dec_enc hG _ trivial

theorem NN.mul (hF : F.Ok) {a b : Pat F} (ha : NN F a) (hb : NN F b) : NN F (bmul F a b) := by
  have hd : dec F (bmul F a b) = Fp.mul (round F) (dec F a) (dec F b) :=
    dec_enc hF _ (val_mul _ _)
  rcases ha with ha | ha
  · rcases hb with hb | hb
    · have ua := NN.up (Or.inl ha)
      have ub := NN.up (Or.inl hb)
      unfold bmul
      rw [ha, hb]
      refine nn_enc hF (val_mul _ _) ?_
      cases h1 : dec F a <;> cases h2 : dec F b <;> rw [h1] at ua <;> rw [h2] at ub <;>
        simp only [Fp.mul] <;> try trivial
      · cases ua; cases ub; rfl
      · cases ua
        split
        · trivial
        · change 0 ≤ _ at ub
          simpa [Up] using ub
      · cases ub
        split
        · trivial
        · change 0 ≤ _ at ua
          simpa [Up] using ua
      · exact up_round (mul_nonneg ua ub)
    · right
      rw [hd, hb]
      cases dec F a <;> rfl
  · right
    rw [hd, ha]
    rfl

theorem bdiv_nan (hF : F.Ok) {a b : Pat F} (h : dec F a = .nan ∨ dec F b = .nan) :
    dec F (bdiv F a b) = .nan := by
  unfold bdiv
  refine (dec_enc hF _ ?_).trans ?_
  · rcases h with h | h
    · rw [h]
      cases dec F b <;> trivial
    · rw [h]
      cases dec F a <;> trivial
  · rcases h with h | h
    · rw [h]
      cases dec F b <;> rfl
    · rw [h]
      cases dec F a <;> rfl

theorem NN.div (hF : F.Ok) {a b : Pat F} (ha : NN F a) (hb : NN F b) : NN F (bdiv F a b) := by
  rcases ha with ha | ha
  · rcases hb with hb | hb
    · have ua := NN.up (Or.inl ha)
      have ub := NN.up (Or.inl hb)
      unfold bdiv
      rw [ha, hb]
      cases h1 : dec F a with
      | nan => cases dec F b <;> exact nn_enc hF trivial trivial
      | inf s =>
        rw [h1] at ua
        cases ua
        cases h2 : dec F b with
        | nan => exact nn_enc hF trivial trivial
        | inf s => exact nn_enc hF trivial trivial
        | fin y => exact nn_enc hF trivial rfl
      | fin x =>
        rw [h1] at ua
        change 0 ≤ x at ua
        cases h2 : dec F b with
        | nan => exact nn_enc hF trivial trivial
        | inf s => exact nn_enc hF (show Val F (.fin 0) from rep_zero) (show (0 : ℚ) ≤ 0 from le_refl _)
        | fin y =>
          rw [h2] at ub
          change 0 ≤ y at ub
          simp only
          split
          · split
            · exact nn_enc hF trivial trivial
            · exact nn_enc hF trivial rfl
          · exact nn_enc hF (val_round _) (up_round (div_nonneg ua ub))
    · exact Or.inr (bdiv_nan hF (Or.inr hb))
  · exact Or.inr (bdiv_nan hF (Or.inl ha))

theorem nn_abs (hF : F.Ok) (a : Pat F) : NN F (babs F a) := by
  left
  exact sgn_pack hF (mag_lt a) _

end

theorem nn_tenth : NN binary64 tenthBits :=
  nn_enc ok64 (val_round _) (up_round (by norm_num))

theorem regPrecs_nn {F : Fmt} {tr : Pat binary64 → Int} {lg : Pat binary64 → Pat binary64}
    {prec : Pat binary64} (h : NN binary64 prec) (n bs : Nat) :
    ∀ p ∈ regPrecs (bitsB F tr lg) n prec bs, NN binary64 p := by
  have h1 : NN binary64 ((bitsB F tr lg).regPrec n prec) :=
    NN.conv ok64 (NN.conv ok32 (NN.div ok64 (NN.mul ok64 nn_tenth h) (nn_int ok64 n)))
  have h2 : NN binary64 ((bitsB F tr lg).divB ((bitsB F tr lg).regPrec n prec) bs) :=
    NN.conv ok64 (NN.div ok32 (NN.conv ok32 h1) (nn_int ok32 bs))
  intro p hp
  simp only [regPrecs, List.mem_append, List.mem_replicate, List.mem_singleton] at hp
  rcases hp with ⟨-, rfl⟩ | rfl
  · exact h2
  · exact h1

/-! ### Codes -/

theorem truncQ_lt {w : ℚ} {n : Int} (h : |w| < n) : |truncQ w| < n := by
  rw [abs_lt] at h ⊢
  unfold truncQ
  split
  · rename_i h0
    have h1 : 0 ≤ ⌊w⌋ := Int.floor_nonneg.2 h0
    have h2 : ((⌊w⌋ : Int) : ℚ) < (n : ℚ) := lt_of_le_of_lt (Int.floor_le w) h.2
    have h3 : ⌊w⌋ < n := by exact_mod_cast h2
    omega
  · rename_i h0
    have h1 : ⌈w⌉ ≤ 0 := Int.ceil_le.2 (by push_cast; exact (not_le.1 h0).le)
    have h2 : ((-n : Int) : ℚ) < ((⌈w⌉ : Int) : ℚ) := by
      push_cast; exact lt_of_lt_of_le h.1 (Int.le_ceil w)
    have h3 : -n < ⌈w⌉ := by exact_mod_cast h2
    omega

/-- The codes of the quantiser, for every prediction error (NaN and infinities included) and
every precision that is not negative: strictly within half the capacity. -/
theorem quant_code {tr : Pat binary64 → Int} {lg : Pat binary64 → Pat binary64}
    {diff prec : Pat binary64} (hp : NN binary64 prec) {R rad q : Int} (hR : 0 ≤ R)
    (hR1 : R ≤ 2 ^ 30) (h : linQuant (bitsD tr lg) diff prec (2 * R) rad = some q) :
    rad - R < q ∧ q < rad + R := by
  have small : ∀ n : Int, |n| ≤ 2 ^ 53 → dec binary64 ((bitsD tr lg).ofInt n) = .fin n := by
    intro n hn
    refine (dec_enc ok64 _ (val_round _)).trans ?_
    exact round_rep ok64 (rep_int ok64 hn)
  have hc := small (2 * R) (by rw [abs_of_nonneg (by omega)]; omega)
  have h1 := small 1 (by norm_num)
  have h2 := small 2 (by norm_num)
  have hd := (NN.div ok64 (nn_abs ok64 diff) hp).up
  unfold linQuant at h
  simp only at h
  generalize hQ : (bitsD tr lg).add ((bitsD tr lg).div ((bitsD tr lg).abs diff) prec)
    ((bitsD tr lg).ofInt 1) = Q at h
  have hQd : dec binary64 Q = Fp.add (round binary64)
      (dec binary64 (bdiv binary64 (babs binary64 diff) prec)) (.fin 1) := by
    rw [← hQ]
    refine (dec_enc ok64 _ (val_add _ _)).trans ?_
    rw [h1]
    simp only [Int.cast_one]
    rfl
  split at h
  · rename_i hlt
    change Fp.lt (dec binary64 Q) (dec binary64 ((bitsD tr lg).ofInt (2 * R))) = true at hlt
    simp only [Option.some.injEq] at h
    rw [hc, hQd] at hlt
    obtain ⟨z, hz, hz0, hz1⟩ : ∃ z, dec binary64 Q = .fin z ∧ 1 ≤ z ∧ z < 2 * (R : ℚ) := by
      rw [hQd]
      cases hr : dec binary64 (bdiv binary64 (babs binary64 diff) prec) with
      | nan => rw [hr] at hlt; simp [Fp.add, Fp.lt] at hlt
      | inf s =>
        rw [hr] at hd hlt
        cases hd
        simp [Fp.add, Fp.lt] at hlt
      | fin y =>
        rw [hr] at hd hlt
        change 0 ≤ y at hd
        simp only [Fp.add] at hlt ⊢
        cases hr2 : round binary64 (y + 1) with
        | nan => exact absurd hr2 (round_not_nan _)
        | inf s =>
          cases s with
          | false => rw [hr2] at hlt; simp [Fp.lt] at hlt
          | true => exact absurd hr2 (round_ne_neg_inf (by linarith))
        | fin z =>
          rw [hr2] at hlt
          refine ⟨z, rfl, ?_, by simpa [Fp.lt] using hlt⟩
          exact round_ge ok64 (b := 1)
            (by simpa [p2_zero] using rep_p2 (F := binary64) (k := 0) (by decide) (by decide))
            zero_le_one (by linarith) hr2
    have hzr : Rep binary64 (z / 2) := by
      refine (rep_of_val (val_dec ok64 Q) hz).half ok64 ?_
      refine le_trans (p2_le (b := 0) (by decide)) ?_
      rw [p2_zero]; exact hz0
    obtain ⟨y, hy, hyr, hyz⟩ : ∃ y, dec binary64 (if (bitsD tr lg).lt ((bitsD tr lg).ofInt 0) diff
        then Q else (bitsD tr lg).neg Q) = .fin y ∧ Rep binary64 (y / 2) ∧ |y / 2| < R := by
      have : |z / 2| < (R : ℚ) := by rw [abs_of_nonneg (by linarith)]; linarith
      split
      · exact ⟨z, hz, hzr, this⟩
      · refine ⟨-z, ?_, ?_, ?_⟩
        · exact (dec_neg ok64 Q).trans (by rw [hz]; rfl)
        · rw [neg_div]; exact hzr.neg
        · rwa [neg_div, abs_neg]
    generalize (if (bitsD tr lg).lt ((bitsD tr lg).ofInt 0) diff then Q else (bitsD tr lg).neg Q) =
      Y at h hy
    have hw : dec binary64 ((bitsD tr lg).div Y ((bitsD tr lg).ofInt 2)) = .fin (y / 2) := by
      refine (dec_div ok64 _ _ (by rw [h2]; simp)).trans ?_
      rw [h2, hy]
      simp only [Fp.div]
      rw [if_neg (by norm_num)]
      simpa using round_rep ok64 hyr
    have ht : (bitsD tr lg).trunc ((bitsD tr lg).div Y ((bitsD tr lg).ofInt 2)) =
        truncQ (y / 2) := by
      change btrunc tr _ = _
      unfold btrunc
      rw [hw]
      refine if_pos (lt_trans hyz ?_)
      have : (R : ℚ) ≤ 2 ^ 30 := by exact_mod_cast hR1
      linarith [show (2 : ℚ) ^ 30 < 2 ^ 31 by norm_num]
    rw [ht] at h
    have := abs_lt.1 (truncQ_lt hyz)
    omega
  · cases h

/-! ### Acceptance -/

section
variable {F : Fmt}

/-- The exact difference of two numbers of the format exceeds the rounded one by half a unit in
the last place at most. -/
theorem round_back (hF : F.Ok) {x y w : ℚ} (hx : Rep F x) (hy : Rep F y)
    (h : round F (x - y) = .fin w) : |x - y| ≤ (1 + p2 (-F.p)) * |w| := by
  obtain ⟨hw, -, -, -⟩ := round_fin h
  rw [hw]
  have hp := p2_pos (-F.p)
  rcases eq_or_lt_of_le (abs_nonneg (x - y)) with h0 | h0
  · rw [← h0, rmag_zero]; simp
  generalize hX : |x - y| = X at *
  have hm : ∃ n : Int, X = n * p2 F.umin := by
    obtain ⟨n, hn⟩ := hx.mul_umin
    obtain ⟨k, hk⟩ := hy.mul_umin
    refine ⟨|n - k|, ?_⟩
    rw [← hX, hn, hk, ← sub_mul, abs_mul, abs_of_pos (p2_pos _)]
    push_cast
    rfl
  obtain ⟨n, hn⟩ := hm
  obtain ⟨l1, l2⟩ := ilog_spec h0
  have p2' := hF.p2
  by_cases hs : F.ulp X = F.umin
  · have : rmag F X = X := by
      rw [rmag_pos_eq h0, hs]
      have : X / p2 F.umin = n := by rw [div_eq_iff (p2_pos _).ne']; exact hn
      rw [this, rne_int]; exact hn.symm
    rw [this]
    nlinarith
  · have hu : F.ulp X = ilog X - (F.p - 1) := by unfold Fmt.ulp at hs ⊢; omega
    have hlow : p2 (ilog X) ≤ rmag F X := by
      obtain ⟨k, hk⟩ := p2_mul_of_le (show F.ulp X ≤ ilog X by omega)
      exact le_rmag_of h0 hk l1
    have hnear : X - rmag F X ≤ 1 / 2 * p2 (F.ulp X) := by
      rw [rmag_pos_eq h0]
      have h3 := (abs_le.1 (rne_near (X / p2 (F.ulp X)))).1
      have h4 : X / p2 (F.ulp X) - rne (X / p2 (F.ulp X)) ≤ 1 / 2 := by linarith
      have h5 := mul_le_mul_of_nonneg_right h4 (p2_pos (F.ulp X)).le
      rwa [sub_mul, div_mul_cancel₀ _ (p2_pos _).ne'] at h5
    have e : p2 (F.ulp X) = 2 * (p2 (-F.p) * p2 (ilog X)) := by
      rw [← p2_add, ← p2_succ, hu]; congr 1; ring
    rw [e] at hnear
    nlinarith

/-- Values of the wider format `double`. -/
theorem dec_conv_wide (hF : F.Ok) (hp : F.p ≤ binary64.p) (hu : binary64.umin ≤ F.umin)
    (he : F.emax ≤ binary64.emax) (a : Pat F) : dec binary64 (conv F binary64 a) = dec F a := by
  unfold conv
  refine (dec_enc ok64 _ (val_narrow _)).trans ?_
  cases h : dec F a with
  | nan => rfl
  | inf s => rfl
  | fin x => exact round_rep ok64 ((rep_of_val (val_dec hF a) h).widen hp hu he)

/-- A distance that is not above a finite number: both values are finite. -/
theorem dist_back (hF : F.Ok) (hp : F.p ≤ binary64.p) (hu : binary64.umin ≤ F.umin)
    (he : F.emax ≤ binary64.emax) {tr : Pat binary64 → Int} {lg : Pat binary64 → Pat binary64}
    {a b : Pat F} {prec : Pat binary64} {e : ℚ} (hprec : dec binary64 prec = .fin e)
    (h : Fp.le (dec binary64 ((bitsQ F tr lg).dist a b)) (dec binary64 prec) = true) :
    ∃ x y, dec F a = .fin x ∧ dec F b = .fin y ∧ |x - y| ≤ (1 + p2 (-F.p)) * e := by
  have hd : dec binary64 ((bitsQ F tr lg).dist a b) =
      Fp.abs (Fp.sub (round F) (dec F a) (dec F b)) :=
    (dec_conv_wide hF hp hu he _).trans ((dec_abs hF _).trans (by rw [dec_sub hF]))
  rw [hd, hprec] at h
  cases ha : dec F a with
  | nan => rw [ha] at h; cases dec F b <;> simp [Fp.sub, Fp.add, Fp.abs, Fp.le] at h
  | inf s =>
    rw [ha] at h
    cases hb : dec F b with
    | nan => rw [hb] at h; simp [Fp.sub, Fp.neg, Fp.add, Fp.abs, Fp.le] at h
    | inf t =>
      rw [hb] at h
      cases s <;> cases t <;> simp [Fp.sub, Fp.neg, Fp.add, Fp.abs, Fp.le] at h
    | fin y => rw [hb] at h; simp [Fp.sub, Fp.neg, Fp.add, Fp.abs, Fp.le] at h
  | fin x =>
    rw [ha] at h
    cases hb : dec F b with
    | nan => rw [hb] at h; simp [Fp.sub, Fp.neg, Fp.add, Fp.abs, Fp.le] at h
    | inf t => rw [hb] at h; simp [Fp.sub, Fp.neg, Fp.add, Fp.abs, Fp.le] at h
    | fin y =>
      rw [hb, sub_fin] at h
      refine ⟨x, y, rfl, rfl, ?_⟩
      cases hr : round F (x - y) with
      | nan => exact absurd hr (round_not_nan _)
      | inf s => rw [hr] at h; simp [Fp.abs, Fp.le] at h
      | fin w =>
        rw [hr, abs_fin] at h
        have hw : |w| ≤ e := by simpa [Fp.le] using h
        refine (round_back hF (rep_of_val (val_dec hF a) ha) (rep_of_val (val_dec hF b) hb) hr).trans ?_
        exact mul_le_mul_of_nonneg_left hw (by have := p2_pos (-F.p); linarith)

end

end CpSZ.Ieee
