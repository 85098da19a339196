import Verif.Ieee.Bits
import Verif.Ieee.Rel
import Verif.LogRounded
/-
The log-domain modes (src/sz_compress_cp_preserve_2d.cpp L773-979) in IEEE-754 arithmetic:
distance of the reconstruction from the data.
-/

namespace CpSZ.Ieee
open CpSZ.VMode

section quant
variable {T D : Type} {O : Ops T D} {F : Fmt} {vT : T → Fp ℚ} {vD : D → Fp ℚ} {eps : ℚ}

/-- The bound quantiser (include/sz_cp_preserve_utils.hpp L14-22) with base 2 and a threshold that
is a power of two. -/
theorem IsIeee.ebQuant2 (hO : IsIeee O F vT vD eps) {lb thr a : D} (hlb : vD lb = .fin 1) {t : Int}
    (ht : vD thr = .fin (p2 t)) (ht0 : -100 ≤ t) (ht1 : t ≤ 0) (he0 : 0 ≤ eps) (he1 : eps ≤ 1)
    {A : ℚ} (ha : vD a = .fin A) (hA : A ≤ p2 400)
    (h : 0 < (CpSZ.ebQuant O.toDOps 2 lb thr a).2) :
    ∃ k : Int, k = (CpSZ.ebQuant O.toDOps 2 lb thr a).2 + t ∧ t < k ∧
      vD (CpSZ.ebQuant O.toDOps 2 lb thr a).1 = .fin (p2 k) ∧
      p2 k ≤ (1 + eps) * (1 + p2 (-53)) * A := by
  have hthr := p2_pos t
  unfold CpSZ.ebQuant at h ⊢
  by_cases hle : O.le a thr = true
  · simp [hle] at h
  rw [if_neg hle] at h ⊢
  simp only at h ⊢
  have hlt : p2 t < A := by
    rw [hO.le, ha, ht] at hle
    simpa [Fp.le] using hle
  -- the quotient
  have hq : vD (O.div a thr) = round binary64 (A / p2 t) := by
    rw [hO.div _ _ (by rw [ht]; simp [hthr.ne']), ha, ht]
    simp [Fp.div, hthr.ne']
  have h1 : 1 < A / p2 t := by rw [lt_div_iff₀ hthr]; linarith
  have hAt : A / p2 t ≤ p2 500 := by
    rw [div_le_iff₀ hthr, ← p2_add]
    exact hA.trans (p2_le (by omega))
  obtain ⟨y, hy, hyb⟩ := round_bounded ok64 (b := p2 500)
    (rep_p2 (by decide) (by decide)) (x := A / p2 t) (by rw [abs_of_pos (by linarith)]; exact hAt)
  rw [hy] at hq
  have hy1 : 1 ≤ y := round_ge ok64 (b := 1)
    (by simpa [p2_zero] using rep_p2 (F := binary64) (k := 0) (by decide) (by decide))
    zero_le_one h1.le hy
  have hyrel : y ≤ (1 + p2 (-53)) * (A / p2 t) := by
    have h2 := rmag_rel (F := binary64) (x := A / p2 t)
      ((p2_le (show binary64.emin ≤ 0 by decide)).trans (by rw [p2_zero]; exact h1.le))
    have h3 := (round_fin hy).1
    rw [abs_of_nonneg (by linarith), abs_of_pos (by linarith)] at h3
    rw [← h3] at h2
    have h4 := (abs_le.1 h2).2
    have e : p2 (-(binary64.p : Int)) = p2 (-53) := rfl
    rw [e] at h4
    linarith
  -- the logarithm
  obtain ⟨l, hl, hl1, hl2⟩ := hO.log2 _ _ hq hy1
  have hlrep := hO.repD _ _ hl
  have hlup : l < 600 := by
    by_contra hc
    have h2 := hl2 600 (by push_cast; exact not_lt.1 hc)
    have h3 : (1 + eps) * y ≤ 2 * p2 500 :=
      mul_le_mul (by linarith) ((le_abs_self y).trans hyb) (by linarith) (by norm_num)
    have h4 : (2 : ℚ) ^ 600 = p2 600 := by rw [show (600 : Int) = ((600 : Nat) : Int) from rfl, p2_nat]
    have h5 := p2_succ 500
    have h6 : p2 (500 + 1) < p2 600 := p2_lt (by norm_num)
    rw [h4] at h2
    linarith
  have hz : vD (O.div (O.log2 (O.div a thr)) lb) = .fin l := by
    rw [hO.div _ _ (by rw [hlb]; simp), hl, hlb]
    simp only [Fp.div, one_ne_zero, if_false, div_one]
    exact round_rep ok64 hlrep
  have htr := hO.trunc _ _ hz (by rw [abs_lt]; constructor <;> linarith)
  rw [htr] at h ⊢
  -- the code is positive
  have hz1 : 1 ≤ l := by
    by_contra hc
    push Not at hc
    have : truncQ l ≤ 0 := by
      unfold truncQ
      split
      · have : ⌊l⌋ < 1 := Int.floor_lt.2 (by exact_mod_cast hc)
        omega
      · rename_i hneg
        exact Int.ceil_le.2 (by push_cast; push Not at hneg; exact hneg.le)
    omega
  have htq : truncQ l = ⌊l⌋ := by unfold truncQ; rw [if_pos (by linarith)]
  rw [htq] at h ⊢
  obtain ⟨n, hn⟩ := Int.eq_ofNat_of_zero_le h.le
  rw [hn] at h ⊢
  have hnz : (n : ℚ) ≤ l := by
    have := Int.floor_le l
    rw [hn] at this
    exact_mod_cast this
  have h2n := hl2 n hnz
  have hn600 : n < 600 := by
    have : (n : ℚ) < 600 := by linarith
    exact_mod_cast this
  refine ⟨n + t, rfl, by omega, ?_, ?_⟩
  · have e4 : Fp.ipow (K := ℚ) 2 (n : Int) = p2 n := by
      rw [p2_nat]; simp [Fp.ipow]
    rw [hO.mul, hO.pow, e4, round_rep ok64 (rep_p2 (F := binary64) (k := n)
      (by have : binary64.umin = -1074 := by decide
          omega) (by have : binary64.emax = 1023 := by decide
                     omega)), ht]
    simp only [Fp.mul]
    rw [← p2_add]
    exact round_rep ok64 (rep_p2 (by have : binary64.umin = -1074 := by decide
                                     omega) (by have : binary64.emax = 1023 := by decide
                                                omega))
  · have e5 : p2 (n + t) = 2 ^ n * p2 t := by
      rw [p2_add, ← p2_nat]
    rw [e5]
    have h3 : 2 ^ n ≤ (1 + eps) * ((1 + p2 (-53)) * (A / p2 t)) :=
      h2n.trans (mul_le_mul_of_nonneg_left hyrel (by linarith))
    calc _ ≤ (1 + eps) * ((1 + p2 (-53)) * (A / p2 t)) * p2 t :=
        mul_le_mul_of_nonneg_right h3 hthr.le
      _ = _ := by
        rw [mul_assoc, mul_assoc, div_mul_cancel₀ _ hthr.ne', ← mul_assoc]

end quant

/-- The operations of the log modes on bit patterns: `lgT` is `log2f` with its result as an element
(include/sz_cp_preserve_utils.hpp L133-149), `exT` is `exp2` with its result as an element
(src/sz_compress_cp_preserve_2d.cpp L940-941).  Simplified: the logarithm of a NaN is one NaN. -/
def bitsL (F : Fmt) (tr : Pat binary64 → Int) (lg : Pat binary64 → Pat binary64)
    (lgT exT : Pat F → Pat F) : LOps (Pat F) (Pat binary64) where
  toOps := bitsOps F tr lg
  isZero x := decide (dec F x = .fin 0)
  pos x := Fp.lt (.fin 0) (dec F x)
  negT := bneg F
  absT := babs F
  log2T x := if dec F x = .nan then enc F false .nan else lgT x
  exp2T := exT
  m100 := enc F false (.fin (-100))
  ltM99 x := Fp.lt (dec F x) (.fin (-99))

/-- Accuracy of `log2f` and `exp2` where no result is subnormal or overflows. -/
structure ExpLogOk (F : Fmt) (lgT exT : Pat F → Pat F) : Prop where
  log : ∀ a x, dec F a = .fin x → p2 (-97) ≤ x → x ≤ p2 124 →
    ∃ l, dec F (lgT a) = .fin l ∧ |(l : ℝ) - Real.logb 2 x| ≤ 1 / 2 ^ 16
  exp : ∀ a y, dec F a = .fin y → -101 ≤ y → y ≤ 126 →
    ∃ z, dec F (exT a) = .fin z ∧ |(z : ℝ) - (2 : ℝ) ^ (y : ℝ)| ≤ 1 / 2 ^ 22 * (2 : ℝ) ^ (y : ℝ)

/-- The library's `log2` of `1 + required_eb` is not too large. -/
def LogUp (lg : Pat binary64 → Pat binary64) : Prop :=
  ∀ a x, dec binary64 a = .fin x → 1 ≤ x → x ≤ 4 →
    ∃ l, dec binary64 (lg a) = .fin l ∧ (l : ℝ) ≤ Real.logb 2 x + 1 / 2 ^ 30

section
variable {F : Fmt} {tr : Pat binary64 → Int} {lg : Pat binary64 → Pat binary64}
  {lgT exT : Pat F → Pat F} {eps : ℚ}

theorem pack_self (hF : F.Ok) (a : Pat F) : pack F (sgn F a) (mag F a) = a := by
  unfold pack sgn mag
  apply BitVec.eq_of_toNat_eq
  have h1 := a.isLt
  have h2 : 1 ≤ F.ew + F.p := by have := ew_pos hF; omega
  have h3 : 2 ^ (F.ew + F.p) = 2 * 2 ^ (F.ew + F.p - 1) := by
    rw [← pow_succ']; congr 1; omega
  rw [BitVec.toNat_ofNat]
  generalize 2 ^ (F.ew + F.p - 1) = H at *
  rw [h3] at h1 ⊢
  by_cases h : H ≤ a.toNat
  · have h5 : a.toNat % H = a.toNat - H := by
      rw [Nat.mod_eq_sub_mod h, Nat.mod_eq_of_lt (by omega)]
    simp only [h, decide_true, if_true, h5]
    rw [Nat.mod_eq_of_lt (by omega)]; omega
  · rw [Nat.mod_eq_of_lt (by omega : a.toNat < H)]
    simp only [h, decide_false, Bool.false_eq_true, if_false]
    rw [Nat.mod_eq_of_lt (by omega)]; omega

theorem sgn_inf {a : Pat F} {s : Bool} (h : dec F a = .inf s) : sgn F a = s := by
  unfold dec decMag at h
  cases hs : sgn F a <;> rw [hs] at h <;>
    simp only [if_true, Bool.false_eq_true, if_false] at h <;> split at h
  · cases h
  · split at h <;> cases h; rfl
  · cases h
  · split at h <;> cases h; rfl

theorem bitsL_laws (hF : F.Ok) : LogLaws (bitsL F tr lg lgT exT) := by
  constructor
  · intro x h
    simp only [bitsL, decide_eq_false_iff_not]
    intro h0
    simp only [bitsL, h0, Fp.lt] at h
    simp at h
  · intro x h
    have hx : dec F x ≠ .fin 0 := of_decide_eq_false h
    have eq : dec F x ≠ .nan →
        (if (bitsL F tr lg lgT exT).pos x = true then x else bneg F x) = babs F x := by
      intro hn
      have key : sgn F x = !(bitsL F tr lg lgT exT).pos x := by
        simp only [bitsL]
        cases hd : dec F x with
        | nan => exact absurd hd hn
        | inf s => rw [sgn_inf hd]; cases s <;> rfl
        | fin v =>
          have h0 : v ≠ 0 := by rintro rfl; exact hx hd
          rw [sgn_of_ne hd h0]
          simp only [Fp.lt]
          rcases lt_or_gt_of_ne h0 with h1 | h1
          · simp [h1, h1.le]
          · simp [h1, h1.le]
      cases hp : (bitsL F tr lg lgT exT).pos x <;> rw [hp] at key
      · simp only [Bool.false_eq_true, if_false]
        unfold bneg babs; rw [key]; rfl
      · simp only [if_true]
        unfold babs
        conv_lhs => rw [← pack_self hF x, key]
        rfl
    by_cases hn : dec F x = .nan
    · have h1 : dec F (bneg F x) = .nan := by rw [dec_neg hF, hn]; rfl
      have h2 : dec F (babs F x) = .nan := by rw [dec_abs hF, hn]; rfl
      change (if dec F _ = _ then _ else _) = (if dec F (babs F x) = _ then _ else _)
      rw [if_pos h2]
      apply if_pos
      split
      · exact hn
      · exact h1
    · change (bitsL F tr lg lgT exT).log2T (if _ then x else bneg F x) = _
      rw [eq hn]; rfl

/-- `log_transform` of a number that is not zero. -/
theorem logFwd_bits (hF : F.Ok) (H : ExpLogOk F lgT exT) {x : Pat F} {X : ℚ} (hx : dec F x = .fin X)
    (h1 : p2 (-97) ≤ |X|) (h2 : |X| ≤ p2 124) :
    ∃ l, dec F (logFwd (bitsL F tr lg lgT exT) x) = .fin l ∧
      abs ((l : ℝ) - Real.logb 2 |(X : ℝ)|) ≤ 1 / 2 ^ 16 := by
  have hX : X ≠ 0 := by
    rintro rfl
    have := p2_pos (-97)
    simp only [abs_zero] at h1
    linarith
  have hz : (bitsL F tr lg lgT exT).isZero x = false := by
    simp only [bitsL, decide_eq_false_iff_not, hx]
    intro h; cases h; exact hX rfl
  rw [logFwd_eq (bitsL_laws hF)]
  unfold logFwdDec
  rw [hz]
  simp only [Bool.false_eq_true, if_false]
  have ha : dec F (babs F x) = .fin |X| := by rw [dec_abs hF, hx, abs_fin]
  obtain ⟨l, l1, l2⟩ := H.log _ _ ha h1 h2
  refine ⟨l, ?_, by push_cast at l2; exact l2⟩
  change dec F (if dec F (babs F x) = .nan then _ else lgT (babs F x)) = _
  rw [if_neg (by rw [ha]; simp), l1]

/-- Reconstruction from a logarithm that is off by less than `E`. -/
theorem logBack_bits (hF : F.Ok) (H : ExpLogOk F lgT exT) {x l : Pat F} {X Lv : ℚ} {E : ℝ}
    (hx : dec F x = .fin X) (h0 : X ≠ 0) (hl : dec F l = .fin Lv)
    (hE : abs ((Lv : ℝ) - Real.logb 2 |(X : ℝ)|) < E) (l1 : -100 ≤ Lv) (l2 : Lv ≤ 126) :
    ∃ Y, dec F (logBack (bitsL F tr lg lgT exT) x l) = .fin Y ∧
      |(Y : ℝ) - X| < ((1 + 1 / 2 ^ 22) * (2 : ℝ) ^ E - 1) * |(X : ℝ)| ∧ 0 < (X : ℝ) * Y := by
  obtain ⟨z, z1, z2⟩ := H.exp l Lv hl (by linarith) l2
  have h0' : (X : ℝ) ≠ 0 := by exact_mod_cast h0
  have l1' : (-100 : ℝ) ≤ Lv := by exact_mod_cast l1
  have l2' : (Lv : ℝ) ≤ 126 := by exact_mod_cast l2
  have HR : Rounded.IsExpLog (Real.logb 2)
      (fun y => if y = (Lv : ℝ) then (z : ℝ) else (2 : ℝ) ^ y) 0 (1 / 2 ^ 22) := by
    constructor
    · intro x _ _; simp
    · intro y _ _
      have : (0 : ℝ) < (2 : ℝ) ^ y := Real.rpow_pos_of_pos (by norm_num) _
      split
      · rename_i h; rw [h]; exact z2
      · rw [sub_self, abs_zero]; positivity
  obtain ⟨k1, k2⟩ := Rounded.logBack_rounded (rT := id) (rD := id) (lg := id) HR (by norm_num) h0' hE
    (by linarith) (by linarith)
  have hv : ∃ Y : ℚ, dec F (logBack (bitsL F tr lg lgT exT) x l) = .fin Y ∧
      (Y : ℝ) = logBack (Rounded.roundedL id id id (Real.logb 2)
        (fun y => if y = (Lv : ℝ) then (z : ℝ) else (2 : ℝ) ^ y)) (X : ℝ) (Lv : ℝ) := by
    unfold logBack
    simp only [bitsL, Rounded.roundedL, hx, Fp.lt, if_true, decide_eq_true_eq]
    by_cases hp : 0 < X
    · have hp' : (0 : ℝ) < X := by exact_mod_cast hp
      rw [if_pos hp, if_pos hp']
      exact ⟨z, z1, rfl⟩
    · have hp' : ¬ (0 : ℝ) < X := by exact_mod_cast hp
      rw [if_neg hp, if_neg hp']
      exact ⟨-z, by rw [dec_neg hF, z1]; rfl, by push_cast; rfl⟩
  obtain ⟨Y, y1, y2⟩ := hv
  rw [← y2] at k1 k2
  exact ⟨Y, y1, k1, k2⟩

theorem p2_real (k : Int) : ((p2 k : ℚ) : ℝ) = (2 : ℝ) ^ k := by rw [p2_eq]; push_cast; rfl

/-- `y` is the reconstruction of a number `x`: exact, or of the same sign and within the relative
bound plus what `log2f` loses. -/
def LogCl (F : Fmt) (e : ℚ) (y x : Pat F) : Prop :=
  y = x ∨ ∃ Y X : ℚ, dec F y = .fin Y ∧ dec F x = .fin X ∧ 0 < X * Y ∧
    |Y - X| < ((1 + e) * (1 + 1 / 2 ^ 15) - 1) * |X|

/-- The data shared by the log modes: base 2, threshold `FLT_EPSILON`. -/
structure LogModeB (M : Mode (Pat F) (Pat binary64)) (L : LOps (Pat F) (Pat binary64)) : Prop where
  O : M.O = L.toOps
  base : M.base = 2
  logBase : dec binary64 M.logBase = .fin 1
  thr : dec binary64 M.thr = .fin (p2 (-23))
  fwd : M.fwd = logFwd L
  back : M.back = logBack L
  cap : M.capacity = 65536
  rad : M.radius = 32768

/-- The run of a log mode; data of magnitude at most `2^r`.  If `Z` holds, vertices with zero
components may be coded: such a component has a logarithm below -99. -/
theorem stateLogZ_run (hF : F.Ok) (hp : F.p ≤ binary64.p) (hu : binary64.umin ≤ F.umin)
    (hemax : F.emax ≤ binary64.emax) (hemin : F.emin ≤ -23) (hlg : LogOk lg eps) (hup : LogUp lg)
    (he0 : 0 ≤ eps) (he1 : eps ≤ p2 (-31)) (H : ExpLogOk F lgT exT) {e : ℚ} (hep : 0 ≤ e)
    (her : e ≤ 1) {Z : Prop} {M : Mode (Pat F) (Pat binary64)} (hM : LogModeB M (bitsL F tr lg lgT exT))
    {plan : State (Pat F) → Nat → Option (Plan (Pat binary64))} {n : Nat} {r : Int} (hr : r ≤ 124)
    (hZ : Z → 7 ≤ F.p ∧ 0 ≤ r)
    {data : Arr (Pat F)} {s' : State (Pat F)} {str : VMode.Streams (Pat F)}
    (hdata : ∀ c q, c < M.K → q < n → ∃ X, dec F (data c q) = .fin X ∧
      (X = 0 ∨ p2 (-97) ≤ |X|) ∧ |X| ≤ p2 r)
    (hplan : ∀ s p a id, p < n → (∀ c, s.val c p = data c p) →
      (∀ c q, c < M.K → q < n → Bd (dec F) (r + 2) (s.val c q)) →
      plan s p = some (.try a id) →
        (∃ b x, a = lg b ∧ dec binary64 b = .fin x ∧ 1 ≤ x ∧ x ≤ (1 + p2 (-53)) * (1 + e)) ∧
        ((∀ c, c < M.K → dec F (data c p) ≠ .fin 0) ∨ Z))
    (hids : ∀ s p id, (plan s p = some (.lossless id) ∨ ∃ a, plan s p = some (.try a id)) →
      0 ≤ id ∧ id ≤ 30)
    (h : VMode.compress M plan n data = some (s', str)) :
    (∀ c q, c < M.K → q < n →
      (LogCl F e (s'.val c q) (data c q) ∨
        (Z ∧ dec F (data c q) = .fin 0 ∧ Bd (dec F) 0 (s'.val c q))) ∧
      (dec F (data c q) ≠ .fin 0 → ∃ l, dec F (s'.cod c q) = .fin l ∧ -99 ≤ l) ∧
      (Z → dec F (data c q) = .fin 0 → ∃ l, dec F (s'.cod c q) = .fin l ∧ l < -99)) ∧
    ∃ (st : Nat → State (Pat F)) (ws : List (VMode.VCode (Pat F))), VMode.Run M plan n data st ws ∧
      st n = s' ∧ (∀ w ∈ ws, (∀ x ∈ w.eb, 0 ≤ x ∧ x ≤ 30) ∧ (∀ x ∈ w.dq M, 0 ≤ x ∧ x ≤ 65536) ∧
        (w.isEscCode = false → ∀ x ∈ w.eb, x ≤ 23)) ∧
      str = ⟨ws.flatMap VMode.VCode.eb, ws.flatMap (VMode.VCode.dq M), ws.flatMap VMode.VCode.un⟩ := by
  have hO := bits_ieee hF hp hu hemax tr hlg
  have he2 : eps ≤ 1 := he1.trans (by rw [← p2_zero]; exact p2_le (by norm_num))
  have hpow : ∀ k l : ℤ, k ≤ l → (2 : ℝ) ^ k ≤ (2 : ℝ) ^ l := fun k l h =>
    zpow_le_zpow_right₀ (by norm_num) h
  have hepR : (0 : ℝ) ≤ e := by exact_mod_cast hep
  have herR : (e : ℝ) ≤ 1 := by exact_mod_cast her
  -- the logarithms
  have hlog : ∀ c q, c < M.K → q < n → dec F (data c q) ≠ .fin 0 → ∃ X l,
      dec F (data c q) = .fin X ∧ X ≠ 0 ∧ dec F (M.fwd (data c q)) = .fin l ∧
      (-97 : ℝ) ≤ Real.logb 2 |(X : ℝ)| ∧ Real.logb 2 |(X : ℝ)| ≤ 124 ∧
        abs ((l : ℝ) - Real.logb 2 |(X : ℝ)|) ≤ 1 / 2 ^ 16 := by
    intro c q hc hq hne
    obtain ⟨X, x1, x2, x3⟩ := hdata c q hc hq
    have hX : X ≠ 0 := by rintro rfl; exact hne x1
    have x2 : p2 (-97) ≤ |X| := x2.resolve_left hX
    have x3 : |X| ≤ p2 124 := x3.trans (p2_le hr)
    obtain ⟨l, l1, l2⟩ := logFwd_bits (tr := tr) (lg := lg) hF H x1 x2 x3
    have hpos : (0 : ℝ) < |(X : ℝ)| := abs_pos.2 (by exact_mod_cast hX)
    have y2 : (2 : ℝ) ^ (-97 : ℤ) ≤ |(X : ℝ)| := by
      rw [← p2_real]; exact_mod_cast x2
    have y3 : |(X : ℝ)| ≤ (2 : ℝ) ^ (124 : ℤ) := by
      rw [← p2_real]; exact_mod_cast x3
    refine ⟨X, l, x1, hX, by rw [hM.fwd]; exact l1, ?_, ?_, l2⟩
    · rw [Real.le_logb_iff_rpow_le (by norm_num) hpos]
      have : (2 : ℝ) ^ (-97 : ℝ) = (2 : ℝ) ^ (-97 : ℤ) := by
        rw [← Real.rpow_intCast]; norm_num
      rw [this]; exact y2
    · rw [Real.logb_le_iff_le_rpow (by norm_num) hpos]
      have : (2 : ℝ) ^ (124 : ℝ) = (2 : ℝ) ^ (124 : ℤ) := by
        rw [← Real.rpow_intCast]; norm_num
      rw [this]; exact y3
  have hfwd0 : Z → ∀ {x : Pat F}, dec F x = .fin 0 →
      dec F (logFwd (bitsL F tr lg lgT exT) x) = .fin (-100) := by
    intro hz x hx
    have h1 : (bitsL F tr lg lgT exT).isZero x = true := decide_eq_true hx
    unfold logFwd
    rw [h1]
    change dec F (enc F false (.fin (-100))) = _
    refine dec_enc hF _ (show Rep F (-100) from ?_)
    have h2 : (2 : Int) ^ 7 ≤ 2 ^ F.p := pow_le_pow_right₀ (by norm_num) (hZ hz).1
    have := rep_int hF (n := -100) (by norm_num; linarith)
    exact_mod_cast this
  have wide : ∀ {x c : Pat F}, (∃ X, dec F c = .fin X ∧ |X| ≤ p2 r) →
      (LogCl F e x c ∨ (Z ∧ dec F c = .fin 0 ∧ Bd (dec F) 0 x)) → Bd (dec F) (r + 2) x := by
    rintro x c ⟨X, h1, h2⟩ (hx | ⟨hz, -, hx⟩)
    rotate_left
    · exact hx.mono (by have := (hZ hz).2; omega)
    have h5 := p2_pos r
    have e4 : p2 (r + 2) = 4 * p2 r := by
      rw [show r + 2 = r + 1 + 1 by ring, p2_succ, p2_succ]; ring
    rcases hx with rfl | ⟨Y, X', y1, y2, -, y3⟩
    · exact ⟨X, h1, by rw [e4]; linarith⟩
    · rw [h1] at y2
      cases y2
      refine ⟨Y, y1, ?_⟩
      have h3 := abs_sub_abs_le_abs_sub Y X
      have h4 : ((1 + e) * (1 + 1 / 2 ^ 15) - 1) * |X| ≤ 2 * |X| :=
        mul_le_mul_of_nonneg_right (by norm_num; linarith) (abs_nonneg _)
      rw [e4]
      linarith
  refine compress_inv_run M plan n data s' str h
    (fun p s => ∀ c q, c < M.K → q < n →
      (LogCl F e (s.val c q) (data c q) ∨
        (Z ∧ dec F (data c q) = .fin 0 ∧ Bd (dec F) 0 (s.val c q))) ∧
      (dec F (data c q) ≠ .fin 0 → ∃ l, dec F (s.cod c q) = .fin l ∧ -99 ≤ l) ∧
      (Z → dec F (data c q) = .fin 0 → ∃ l, dec F (s.cod c q) = .fin l ∧ l < -99))
    (fun w => (∀ x ∈ w.eb, 0 ≤ x ∧ x ≤ 30) ∧ (∀ x ∈ w.dq M, 0 ≤ x ∧ x ≤ 65536) ∧
      (w.isEscCode = false → ∀ x ∈ w.eb, x ≤ 23))
    (fun c q hc hq => ⟨Or.inl (Or.inl rfl), fun hne => by
      obtain ⟨X, l, -, -, x3, x4, -, x6⟩ := hlog c q hc hq hne
      refine ⟨l, x3, ?_⟩
      have := (abs_le.1 x6).1
      have h1 : (1 / 2 ^ 16 : ℝ) ≤ 1 := by norm_num
      have : (-99 : ℝ) ≤ l := by linarith
      exact_mod_cast this, fun hz h0 => ⟨-100, by
        change dec F (M.fwd (data c q)) = _
        rw [hM.fwd]; exact hfwd0 hz h0, by norm_num⟩⟩)
    (fun p s _ hI => hI)
    (fun p s id xs hid => by
      refine ⟨?_, ?_, fun hx => by cases hx⟩
      · simp only [VMode.VCode.eb, List.mem_cons, List.not_mem_nil, or_false]
        rintro x rfl
        exact hids s p _ hid
      · intro x hx
        simp only [VMode.VCode.dq, hM.rad] at hx
        split at hx
        · rw [List.mem_replicate] at hx; omega
        · cases hx)
    (fun p s s1 e' qs hpn hI hS hlater => ?_)
  obtain ⟨a, id, rs, hpl, he, hpos, hrs, hqs, hc1, hv1⟩ := hS.ex
  obtain ⟨⟨b, x, rfl, b1, b2, b3⟩, hnz⟩ := hplan s p a id hpn (fun c => (hlater c p (le_refl p)).2)
    (fun c q hc hq => wide (by
      obtain ⟨X, x1, -, x3⟩ := hdata c q hc hq; exact ⟨X, x1, x3⟩) (hI c q hc hq).1) hpl
  have h53 := p2_pos (-53)
  have e53 : p2 (-53) ≤ 1 := by rw [← p2_zero]; exact p2_le (by norm_num)
  have b4 : x ≤ 4 := by nlinarith
  obtain ⟨A, a1, a2⟩ := hup b x b1 b2 b4
  have b2R : (1 : ℝ) ≤ x := by exact_mod_cast b2
  have b3R : (x : ℝ) ≤ (1 + 1 / 2 ^ 50) * (1 + e) := by
    have h1 : (x : ℝ) ≤ (1 + ((p2 (-53) : ℚ) : ℝ)) * (1 + e) := by exact_mod_cast b3
    rw [p2_real] at h1
    refine h1.trans (mul_le_mul_of_nonneg_right ?_ (by linarith))
    norm_num
  have hale : (A : ℝ) ≤ Real.logb 2 ((1 + 1 / 2 ^ 50) * (1 + e)) + 1 / 2 ^ 30 := by
    have := Real.logb_le_logb_of_le (b := 2) (by norm_num) (by linarith) b3R
    linarith
  have hA4 : A ≤ 4 := by
    have h1 : Real.logb 2 ((1 + 1 / 2 ^ 50) * (1 + e)) ≤ 2 := by
      rw [Real.logb_le_iff_le_rpow (by norm_num) (mul_pos (by norm_num) (by linarith))]
      norm_num
      linarith
    have : (A : ℝ) ≤ 4 := by
      have : (1 / 2 ^ 30 : ℝ) ≤ 1 := by norm_num
      linarith
    exact_mod_cast this
  have hA2 : A ≤ 8 / 5 := by
    have hy : (0 : ℝ) < (1 + 1 / 2 ^ 50) * (1 + e) := mul_pos (by norm_num) (by linarith)
    have h1 : Real.logb 2 (((1 + 1 / 2 ^ 50) * (1 + e)) ^ 2) ≤ 3 := by
      rw [Real.logb_le_iff_le_rpow (by norm_num) (by positivity)]
      have h2 : (1 + 1 / 2 ^ 50) * (1 + (e : ℝ)) ≤ 5 / 2 := by norm_num; linarith
      have h3 : ((1 + 1 / 2 ^ 50) * (1 + (e : ℝ))) ^ 2 ≤ (5 / 2) ^ 2 := by gcongr
      refine h3.trans ?_
      norm_num
    rw [Real.logb_pow] at h1
    have : (A : ℝ) ≤ ((8 / 5 : ℚ) : ℝ) := by
      have : (1 / 2 ^ 30 : ℝ) ≤ 1 / 100 := by norm_num
      push_cast at h1 ⊢
      linarith
    exact Rat.cast_le.1 this
  rw [hM.O, hM.base] at he hrs
  rw [he] at hpos
  obtain ⟨k, k0, k1, k2, k3⟩ := hO.ebQuant2 hM.logBase hM.thr (by norm_num) (by norm_num) he0 he2 a1
    (hA4.trans (by
      have : p2 2 ≤ p2 400 := p2_le (by norm_num)
      have e2 : p2 2 = 4 := by rw [p2_eq]; norm_num
      linarith)) hpos
  have hk5 : k ≤ 0 := by
    by_contra hc
    have h1 := p2_le (show (1 : Int) ≤ k by omega)
    have e6 : p2 1 = 2 := by rw [p2_eq]; norm_num
    have e53' : p2 (-53) ≤ 1 / 100 := by rw [p2_eq]; norm_num
    have e31' : p2 (-31) ≤ 1 / 100 := by rw [p2_eq]; norm_num
    have h2 : (1 + eps) * (1 + p2 (-53)) ≤ 11 / 10 := by nlinarith
    have hA0 : 0 ≤ A := by
      by_contra hneg
      have h3 : 0 ≤ (1 + eps) * (1 + p2 (-53)) := mul_nonneg (by linarith) (by linarith)
      have := p2_pos k
      nlinarith
    have h3 : (1 + eps) * (1 + p2 (-53)) * A ≤ 11 / 10 * (8 / 5) :=
      mul_le_mul h2 hA2 hA0 (by norm_num)
    linarith
  -- the bound in the log domain
  obtain ⟨δ, hδ⟩ : ∃ δ : ℝ, δ = 1 / 2 ^ 30 := ⟨_, rfl⟩
  rw [← hδ] at hale
  have hkR : ((p2 k : ℚ) : ℝ) ≤ (1 + 1 / 2 ^ 50) * (2 : ℝ) ^ δ * A := by
    have h1 : ((p2 k : ℚ) : ℝ) ≤ (1 + eps) * (1 + ((p2 (-53) : ℚ) : ℝ)) * A := by exact_mod_cast k3
    have hA0 : (0 : ℝ) ≤ A := by
      have h3 : 0 ≤ (1 + eps) * (1 + p2 (-53)) := mul_nonneg (by linarith) (by linarith)
      have h4 := p2_pos k
      have : 0 ≤ A := by
        by_contra hneg
        nlinarith
      exact_mod_cast this
    refine h1.trans (mul_le_mul_of_nonneg_right ?_ hA0)
    have h2 : (1 : ℝ) + 1 / 2 ^ 31 ≤ (2 : ℝ) ^ δ := by
      rw [Real.rpow_def_of_pos (by norm_num)]
      have h5 := Real.add_one_le_exp (Real.log 2 * δ)
      have h6 : (1 / 2 : ℝ) ≤ Real.log 2 := by
        have := Real.one_sub_inv_le_log_of_pos (show (0 : ℝ) < 2 by norm_num)
        norm_num at this ⊢
        linarith
      have h7 : (1 / 2 : ℝ) * δ ≤ Real.log 2 * δ :=
        mul_le_mul_of_nonneg_right h6 (by rw [hδ]; norm_num)
      have h8 : (1 / 2 : ℝ) * δ = 1 / 2 ^ 31 := by rw [hδ]; norm_num
      linarith
    have h3 : (eps : ℝ) ≤ 1 / 2 ^ 31 := by
      have : (eps : ℝ) ≤ ((p2 (-31) : ℚ) : ℝ) := by exact_mod_cast he1
      rw [p2_real] at this
      refine this.trans ?_
      norm_num
    have h4 : ((p2 (-53) : ℚ) : ℝ) ≤ 1 / 2 ^ 50 := by rw [p2_real]; norm_num
    have h5 : (0 : ℝ) ≤ eps := by exact_mod_cast he0
    have h6 : (0 : ℝ) < ((p2 (-53) : ℚ) : ℝ) := by exact_mod_cast h53
    rw [mul_comm (1 + (1 / 2 ^ 50 : ℝ))]
    exact mul_le_mul (by linarith) (by linarith) (by linarith) (by linarith)
  have hA0 : (0 : ℝ) ≤ A := by
    have h4 : (0 : ℝ) < ((p2 k : ℚ) : ℝ) := by exact_mod_cast p2_pos k
    by_contra hneg
    have h5 : (0 : ℝ) < (1 + 1 / 2 ^ 50) * (2 : ℝ) ^ δ :=
      mul_pos (by norm_num) (Real.rpow_pos_of_pos (by norm_num) _)
    nlinarith
  obtain ⟨t1, t2⟩ := Rounded.total_log (ε := 1 / 2 ^ 16) (w := 1 / 2 ^ 22) (u := 1 / 2 ^ 50)
    (δ := δ) (maxEb := e) (a := A) (by norm_num) (le_refl _) (by rw [hδ]; norm_num) (le_of_eq hδ)
    (le_refl _) (le_refl _) hepR herR hA0 hale
  obtain ⟨l1, l2⟩ := encComps_spec _ _ _ _ _ _ hrs
  rw [List.length_range] at l1
  have hMO : M.O = bitsOps F tr lg := hM.O
  have hle23 : e' ≤ 23 := by
    rw [he]
    change (CpSZ.ebQuant (bitsOps F tr lg).toDOps 2 M.logBase M.thr (lg b)).2 ≤ 23
    omega
  have hle0 : 0 ≤ e' := by rw [he]; exact hpos.le
  refine ⟨?_, ?_, ?_, ?_⟩
  rotate_left
  · simp only [VMode.VCode.eb, List.mem_cons, List.not_mem_nil, or_false]
    rintro x rfl
    exact ⟨hle0, by omega⟩
  rotate_left
  · intro _
    simp only [VMode.VCode.eb, List.mem_cons, List.not_mem_nil, or_false]
    rintro x rfl
    exact hle23
  rotate_left
  · intro x hx
    change x ∈ qs at hx
    rw [hqs] at hx
    obtain ⟨y, hy, rfl⟩ := List.mem_map.1 hx
    obtain ⟨i, hi, rfl⟩ := List.getElem_of_mem hy
    have hcc := l2 i (by rw [List.length_range]; omega) hi
    unfold VMode.encComp at hcc
    simp only [hMO, hM.cap, hM.rad] at hcc
    split at hcc
    · cases hcc
    · rename_i q hq
      split at hcc
      · cases hcc
      · simp only [Option.some.injEq] at hcc
        rw [← hcc]
        exact hO.linQuant_range k2 hq
  intro c q hc hq
  by_cases hqp : q = p
  · subst hqp
    have hcc := l2 c (by simpa using hc) (by omega)
    simp only [List.getElem_range] at hcc
    have hcod : s1.cod c q = rs[c].2 := by
      rw [hc1, setCol_same (by simpa [l1] using hc)]; simp
    have hval : s1.val c q = logBack (bitsL F tr lg lgT exT) (data c q) (s1.cod c q) := by
      rw [hcod, hv1, setCol_same (by simp [l1, col_length, hc]), List.getElem_zipWith, col_get,
        hM.back, (hlater c q (le_refl q)).2]
      simp
    by_cases h0 : dec F (data c q) = .fin 0
    · have hz : Z := hnz.resolve_left fun h => h c hc h0
      obtain ⟨Y, y1, y2⟩ := encComp3_ieee hO hMO hF (by omega) k2 hcc (c := -100) (by
        rw [(hlater c q (le_refl q)).1, hM.fwd]; exact hfwd0 hz h0)
      change dec F rs[c].2 = _ at y1
      rw [← hcod] at y1
      have y4 : |Y - -100| < 1 := by
        refine lt_of_le_of_lt y2 ?_
        have := p2_pos (-((F.p : Int) + 1))
        have := p2_pos k
        have h1 := p2_le hk5
        rw [p2_zero] at h1
        nlinarith
      rw [abs_lt] at y4
      refine ⟨Or.inr ⟨hz, h0, ?_⟩, fun h => absurd h0 h, fun _ _ => ⟨Y, y1, by linarith⟩⟩
      obtain ⟨z, z1, z2⟩ := H.exp _ Y y1 (by linarith) (by linarith)
      have hnp : (bitsL F tr lg lgT exT).pos (data c q) = false := by
        simp only [bitsL, h0, Fp.lt]; simp
      rw [hval]
      unfold logBack
      rw [hnp]
      simp only [Bool.false_eq_true, if_false]
      refine ⟨-z, by change dec F (bneg F (exT _)) = _; rw [dec_neg hF, z1]; rfl, ?_⟩
      rw [abs_neg, p2_zero]
      have h5 : (2 : ℝ) ^ (Y : ℝ) ≤ 1 / 2 := by
        have h6 : (Y : ℝ) ≤ -1 := by
          have : Y ≤ -1 := by linarith
          exact_mod_cast this
        have := Real.rpow_le_rpow_of_exponent_le (show (1 : ℝ) ≤ 2 by norm_num) h6
        rw [Real.rpow_neg_one] at this
        linarith
      have h7 : (0 : ℝ) < (2 : ℝ) ^ (Y : ℝ) := Real.rpow_pos_of_pos (by norm_num) _
      have h8 : |(z : ℝ)| ≤ 1 := by
        rw [abs_le] at z2 ⊢
        constructor <;> norm_num at z2 ⊢ <;> linarith [z2.1, z2.2]
      exact_mod_cast h8
    obtain ⟨X, l, x1, x2, x3, x4, x5, x6⟩ := hlog c q hc hq h0
    obtain ⟨Y, y1, y2⟩ := encComp3_ieee hO hMO hF (by omega) k2 hcc (c := l) (by
      rw [(hlater c q (le_refl q)).1]; exact x3)
    change dec F rs[c].2 = _ at y1
    rw [← hcod] at y1
    have y3 : |(Y : ℝ) - l| ≤ (1 + 1 / 2 ^ 50) * (2 : ℝ) ^ δ * A := by
      refine le_trans ?_ hkR
      have h2 : |Y - l| ≤ p2 k := y2.trans (by
        have := p2_pos (-((F.p : Int) + 1))
        have := p2_pos k
        nlinarith)
      exact_mod_cast h2
    have y4 : |Y - l| < p2 k := by
      refine lt_of_le_of_lt y2 ?_
      have := p2_pos (-((F.p : Int) + 1))
      have := p2_pos k
      nlinarith
    have y5 : |(Y : ℝ) - l| < ((p2 k : ℚ) : ℝ) := by exact_mod_cast y4
    have hE : abs ((Y : ℝ) - Real.logb 2 |(X : ℝ)|) <
        (1 + 1 / 2 ^ 50) * (2 : ℝ) ^ δ * A + 1 / 2 ^ 16 := by
      have := abs_sub_le (Y : ℝ) (l : ℝ) (Real.logb 2 |(X : ℝ)|)
      linarith
    have hE1 := (abs_lt.1 hE).1
    have hE2 := (abs_lt.1 hE).2
    have r1 : -99 ≤ Y := by
      have : (-99 : ℝ) ≤ Y := by linarith
      exact_mod_cast this
    have r2 : Y ≤ 126 := by
      have : (Y : ℝ) ≤ 126 := by linarith
      exact_mod_cast this
    refine ⟨Or.inl (Or.inr ?_), fun _ => ⟨Y, y1, r1⟩, fun _ h => absurd h h0⟩
    obtain ⟨Z, z1, z2, z3⟩ := logBack_bits (tr := tr) (lg := lg) hF H x1 x2 y1 hE (by linarith) r2
    refine ⟨Z, X, by rw [hval]; exact z1, x1, by exact_mod_cast z3, ?_⟩
    have z4 : |(Z : ℝ) - X| < ((1 + e) * (1 + 1 / 2 ^ 15) - 1) * |(X : ℝ)| :=
      z2.trans_le (mul_le_mul_of_nonneg_right (by linarith) (abs_nonneg _))
    rw [← Rat.cast_lt (K := ℝ)]
    push_cast
    exact z4
  · rw [hv1, hc1, setCol_ne hqp, setCol_ne hqp]; exact hI c q hc hq

/-- The run of a log mode; data of magnitude at most `2^r`. -/
theorem stateLogB_run (hF : F.Ok) (hp : F.p ≤ binary64.p) (hu : binary64.umin ≤ F.umin)
    (hemax : F.emax ≤ binary64.emax) (hemin : F.emin ≤ -23) (hlg : LogOk lg eps) (hup : LogUp lg)
    (he0 : 0 ≤ eps) (he1 : eps ≤ p2 (-31)) (H : ExpLogOk F lgT exT) {e : ℚ} (hep : 0 ≤ e)
    (her : e ≤ 1) {M : Mode (Pat F) (Pat binary64)} (hM : LogModeB M (bitsL F tr lg lgT exT))
    {plan : State (Pat F) → Nat → Option (Plan (Pat binary64))} {n : Nat} {r : Int} (hr : r ≤ 124)
    {data : Arr (Pat F)} {s' : State (Pat F)} {str : VMode.Streams (Pat F)}
    (hdata : ∀ c q, c < M.K → q < n → ∃ X, dec F (data c q) = .fin X ∧
      (X = 0 ∨ p2 (-97) ≤ |X|) ∧ |X| ≤ p2 r)
    (hplan : ∀ s p a id, p < n → (∀ c, s.val c p = data c p) →
      (∀ c q, c < M.K → q < n → Bd (dec F) (r + 2) (s.val c q)) →
      plan s p = some (.try a id) →
        (∃ b x, a = lg b ∧ dec binary64 b = .fin x ∧ 1 ≤ x ∧ x ≤ (1 + p2 (-53)) * (1 + e)) ∧
        ∀ c, c < M.K → dec F (data c p) ≠ .fin 0)
    (hids : ∀ s p id, (plan s p = some (.lossless id) ∨ ∃ a, plan s p = some (.try a id)) →
      0 ≤ id ∧ id ≤ 30)
    (h : VMode.compress M plan n data = some (s', str)) :
    (∀ c q, c < M.K → q < n → LogCl F e (s'.val c q) (data c q) ∧
      (dec F (data c q) ≠ .fin 0 → ∃ l, dec F (s'.cod c q) = .fin l ∧ -99 ≤ l)) ∧
    ∃ (st : Nat → State (Pat F)) (ws : List (VMode.VCode (Pat F))), VMode.Run M plan n data st ws ∧
      st n = s' ∧ (∀ w ∈ ws, (∀ x ∈ w.eb, 0 ≤ x ∧ x ≤ 30) ∧ (∀ x ∈ w.dq M, 0 ≤ x ∧ x ≤ 65536) ∧
        (w.isEscCode = false → ∀ x ∈ w.eb, x ≤ 23)) ∧
      str = ⟨ws.flatMap VMode.VCode.eb, ws.flatMap (VMode.VCode.dq M), ws.flatMap VMode.VCode.un⟩ := by
  obtain ⟨h1, h2⟩ := stateLogZ_run (Z := False) hF hp hu hemax hemin hlg hup he0 he1 H hep her hM hr
    (fun h => h.elim) hdata
    (fun s p a id hpn h1 h2 h3 => ⟨(hplan s p a id hpn h1 h2 h3).1, Or.inl (hplan s p a id hpn h1 h2 h3).2⟩)
    hids h
  refine ⟨fun c q hc hq => ⟨(h1 c q hc hq).1.resolve_right fun h => h.1, (h1 c q hc hq).2.1⟩, h2⟩

/-- The compressor's reconstruction in a log mode; data of magnitude at most `2^r`. -/
theorem stateLogB (hF : F.Ok) (hp : F.p ≤ binary64.p) (hu : binary64.umin ≤ F.umin)
    (hemax : F.emax ≤ binary64.emax) (hemin : F.emin ≤ -23) (hlg : LogOk lg eps) (hup : LogUp lg)
    (he0 : 0 ≤ eps) (he1 : eps ≤ p2 (-31)) (H : ExpLogOk F lgT exT) {e : ℚ} (hep : 0 ≤ e)
    (her : e ≤ 1) {M : Mode (Pat F) (Pat binary64)} (hM : LogModeB M (bitsL F tr lg lgT exT))
    {plan : State (Pat F) → Nat → Option (Plan (Pat binary64))} {n : Nat} {r : Int} (hr : r ≤ 124)
    {data : Arr (Pat F)} {s' : State (Pat F)} {str : VMode.Streams (Pat F)}
    (hdata : ∀ c q, c < M.K → q < n → ∃ X, dec F (data c q) = .fin X ∧
      (X = 0 ∨ p2 (-97) ≤ |X|) ∧ |X| ≤ p2 r)
    (hplan : ∀ s p a id, p < n → (∀ c, s.val c p = data c p) →
      (∀ c q, c < M.K → q < n → Bd (dec F) (r + 2) (s.val c q)) →
      plan s p = some (.try a id) →
        (∃ b x, a = lg b ∧ dec binary64 b = .fin x ∧ 1 ≤ x ∧ x ≤ (1 + p2 (-53)) * (1 + e)) ∧
        ∀ c, c < M.K → dec F (data c p) ≠ .fin 0)
    (hids : ∀ s p id, (plan s p = some (.lossless id) ∨ ∃ a, plan s p = some (.try a id)) →
      0 ≤ id ∧ id ≤ 30)
    (h : VMode.compress M plan n data = some (s', str)) :
    (∀ c q, c < M.K → q < n → LogCl F e (s'.val c q) (data c q) ∧
      (dec F (data c q) ≠ .fin 0 → ∃ l, dec F (s'.cod c q) = .fin l ∧ -99 ≤ l)) ∧
    (∀ x ∈ str.eb, 0 ≤ x ∧ x ≤ 30) ∧ ∀ x ∈ str.dq, 0 ≤ x ∧ x ≤ 65536 := by
  obtain ⟨g, _, ws, -, -, hw, rfl⟩ := stateLogB_run hF hp hu hemax hemin hlg hup he0 he1 H hep her hM
    hr hdata hplan hids h
  refine ⟨g, ?_, ?_⟩
  · intro x hx
    obtain ⟨w, hw1, hxw⟩ := List.mem_flatMap.1 hx
    exact (hw w hw1).1 x hxw
  · intro x hx
    obtain ⟨w, hw1, hxw⟩ := List.mem_flatMap.1 hx
    exact (hw w hw1).2.1 x hxw

end
end CpSZ.Ieee
