import Mathlib.Analysis.Convex.SpecificFunctions.Basic
import Verif.RoundedRun
import Verif.VMode.Log2D
/-
The log-domain modes in rounded arithmetic.
-/

namespace CpSZ.Rounded
open CpSZ CpSZ.VMode

/-- Rounded arithmetic with a logarithm `lgT` (`log2f`) and an exponential `exT` (`exp2`) that
are arbitrary functions. -/
noncomputable def roundedL (rT rD lg lgT exT : ℝ → ℝ) : LOps ℝ ℝ where
  toOps := roundedOps rT rD lg
  isZero x := decide (x = 0)
  pos x := decide (0 < x)
  negT := fun x => -x
  absT := fun x => |x|
  log2T := lgT
  exp2T := exT
  m100 := -100
  ltM99 x := decide (x < -99)

theorem roundedL_id :
    roundedL id id (Real.logb 2) (Real.logb 2) (fun x => (2 : ℝ) ^ x) = realL := rfl

theorem roundedL_laws (rT rD lg lgT exT : ℝ → ℝ) : LogLaws (roundedL rT rD lg lgT exT) := by
  constructor
  · intro x h
    have : 0 < x := of_decide_eq_true h
    exact decide_eq_false this.ne'
  · intro x h
    have hx : x ≠ 0 := of_decide_eq_false h
    simp only [roundedL, decide_eq_true_eq]
    split
    · rename_i hp; rw [abs_of_pos hp]
    · rename_i hp
      rw [abs_of_nonpos (not_lt.1 hp)]

/-- Accuracy of `log2f` and `exp2` in the range of normal `float` numbers. -/
structure IsExpLog (lgT exT : ℝ → ℝ) (ε w : ℝ) : Prop where
  log : ∀ x, (2 : ℝ) ^ (-126 : ℤ) ≤ x → x ≤ (2 : ℝ) ^ (126 : ℤ) → |lgT x - Real.logb 2 x| ≤ ε
  exp : ∀ y, -126 ≤ y → y < 128 → |exT y - (2 : ℝ) ^ y| ≤ w * (2 : ℝ) ^ y

theorem logFwd_rounded {rT rD lg lgT exT : ℝ → ℝ} {x : ℝ} (hx : x ≠ 0) :
    logFwd (roundedL rT rD lg lgT exT) x = lgT |x| := by
  unfold logFwd
  have h0 : (roundedL rT rD lg lgT exT).isZero x = false := decide_eq_false hx
  rw [h0]
  simp only [Bool.false_eq_true, if_false]
  exact (roundedL_laws rT rD lg lgT exT).log_abs x h0

/-- Reconstruction from a logarithm that is off by less than `E`. -/
theorem logBack_rounded {rT rD lg lgT exT : ℝ → ℝ} {ε w E x l : ℝ} (H : IsExpLog lgT exT ε w)
    (hw : w < 1) (hx : x ≠ 0) (hE : abs (l - Real.logb 2 |x|) < E) (l1 : -126 ≤ l) (l2 : l < 128) :
    |logBack (roundedL rT rD lg lgT exT) x l - x| < ((1 + w) * (2 : ℝ) ^ E - 1) * |x| ∧
      0 < x * logBack (roundedL rT rD lg lgT exT) x l := by
  have hxp : 0 < |x| := abs_pos.2 hx
  have hw0 : 0 ≤ w := by
    have := (abs_nonneg _).trans (H.exp 0 (by norm_num) (by norm_num))
    simpa using this
  set t := l - Real.logb 2 |x| with ht
  have hl : (2 : ℝ) ^ l = |x| * (2 : ℝ) ^ t := by
    rw [show l = Real.logb 2 |x| + t by rw [ht]; ring, Real.rpow_add (by norm_num),
      Real.rpow_logb (by norm_num) (by norm_num) hxp]
  rw [abs_lt] at hE
  have hF : (0 : ℝ) < (2 : ℝ) ^ E := Real.rpow_pos_of_pos (by norm_num) _
  have h1 : (2 : ℝ) ^ t < (2 : ℝ) ^ E :=
    Real.rpow_lt_rpow_of_exponent_lt (by norm_num) hE.2
  have h2 : ((2 : ℝ) ^ E)⁻¹ < (2 : ℝ) ^ t := by
    rw [← Real.rpow_neg (by norm_num)]
    exact Real.rpow_lt_rpow_of_exponent_lt (by norm_num) hE.1
  obtain ⟨e1, e2⟩ := abs_le.1 (H.exp l l1 l2)
  rw [hl] at e1 e2
  set y := exT l with hy
  have hF1 : 1 ≤ (2 : ℝ) ^ E := by
    have h0 : 0 ≤ E := by linarith
    exact Real.one_le_rpow (by norm_num) h0
  have hinv : 0 < ((2 : ℝ) ^ E)⁻¹ := inv_pos.2 hF
  have hprod : ((2 : ℝ) ^ E)⁻¹ * (2 : ℝ) ^ E = 1 := inv_mul_cancel₀ hF.ne'
  generalize (2 : ℝ) ^ E = F at *
  generalize (2 : ℝ) ^ t = G at *
  generalize F⁻¹ = I at *
  have hG : 0 < G := hinv.trans h2
  -- upper and lower estimate of `y`
  have u1 : y < (1 + w) * F * |x| := by
    have : (1 + w) * (|x| * G) < (1 + w) * (|x| * F) :=
      mul_lt_mul_of_pos_left (mul_lt_mul_of_pos_left h1 hxp) (by linarith)
    nlinarith
  have u2 : (1 - w) * I * |x| < y := by
    have : (1 - w) * (|x| * I) < (1 - w) * (|x| * G) :=
      mul_lt_mul_of_pos_left (mul_lt_mul_of_pos_left h2 hxp) (by linarith)
    nlinarith
  have u3 : 2 ≤ (1 - w) * I + (1 + w) * F := by
    have a1 : I ≤ F := by nlinarith
    have a2 : 2 ≤ I + F := by nlinarith [sq_nonneg (F - 1)]
    nlinarith
  have hypos : 0 < y := lt_trans (mul_pos (mul_pos (by linarith) hinv) hxp) u2
  have key : abs (y - |x|) < ((1 + w) * F - 1) * |x| := by
    rw [abs_lt]
    constructor
    · nlinarith
    · linarith
  unfold logBack
  simp only [roundedL, decide_eq_true_eq]
  rw [← hy]
  split
  · rename_i hp
    rw [abs_of_pos hp] at key ⊢
    exact ⟨key, mul_pos hp hypos⟩
  · rename_i hp
    have hn : x < 0 := lt_of_le_of_ne (not_lt.1 hp) hx
    rw [abs_of_neg hn] at key ⊢
    refine ⟨?_, by nlinarith⟩
    rw [show -y - x = -(y - -x) by ring, abs_neg]
    exact key

/-- `abs_eb = log2(1 + required_eb)` in rounded arithmetic. -/
theorem logEb_le {rD lg : ℝ → ℝ} {u δ req maxEb : ℝ} (hD : IsFloat rD u) (hu : u ≤ 1)
    (hl : IsLog2 rD lg δ) (h0 : 0 ≤ req) (hle : req ≤ maxEb) (hm : maxEb ≤ 1) :
    lg (rD (1 + req)) ≤ Real.logb 2 ((1 + u) * (1 + maxEb)) + δ := by
  have r1 : rD 1 = 1 := by simpa using hD.int 1 (by norm_num)
  have h1 : 1 ≤ rD (1 + req) := by
    have := hD.mono (show (1 : ℝ) ≤ 1 + req by linarith); rwa [r1] at this
  have hu0 := hD.u_nonneg
  have h2 : rD (1 + req) ≤ (1 + u) * (1 + maxEb) :=
    (hD.le (by linarith)).trans (mul_le_mul_of_nonneg_left (by linarith) (by linarith))
  have h3 : (1 + u) * (1 + maxEb) ≤ 4 := by nlinarith
  have h4 : (4 : ℝ) < (2 : ℝ) ^ (1024 : ℕ) :=
    lt_of_lt_of_le (by norm_num : (4 : ℝ) < 2 ^ 3) (pow_le_pow_right₀ (by norm_num) (by norm_num))
  have h5 := hl.upper _ h1 (lt_of_le_of_lt (h2.trans h3) h4)
  have h6 := Real.logb_le_logb_of_le (b := 2) (by norm_num) (by linarith) h2
  linarith

/-- The data shared by the log modes: base 2, threshold `FLT_EPSILON`. -/
structure LogMode (M : Mode ℝ ℝ) (L : LOps ℝ ℝ) : Prop where
  O : M.O = L.toOps
  base : M.base = 2
  logBase : M.logBase = Real.logb 2 2
  thr : M.thr = 1 / 2 ^ 23
  fwd : M.fwd = logFwd L
  back : M.back = logBack L

/-- One coded vertex in rounded arithmetic. -/
theorem Coded.rounded {rT rD lg lgT exT : ℝ → ℝ} {u w' δ : ℝ} (hT : IsFloat rT w')
    (hD : IsFloat rD u) (hl : IsLog2 rD lg δ) {M : Mode ℝ ℝ}
    (hM : LogMode M (roundedL rT rD lg lgT exT))
    {plan : State ℝ → Nat → Option (Plan ℝ)} {s s' : State ℝ} {p : Nat} {e : Int} {qs : List Int}
    (h : Coded M plan s s' p e qs)
    (ha : ∀ a id, plan s p = some (.try a id) → (1 + u) * (a * 2 ^ 23) < (2 : ℝ) ^ (1024 : ℕ)) :
    ∃ a id, plan s p = some (.try a id) ∧ (∀ c, c < M.K →
      |s'.cod c p - s.cod c p| < (1 + u) * (2 : ℝ) ^ δ * a ∧
      s'.val c p = logBack (roundedL rT rD lg lgT exT) (s.val c p) (s'.cod c p)) ∧
      ∀ c q, q ≠ p → s'.cod c q = s.cod c q ∧ s'.val c q = s.val c q := by
  obtain ⟨a, id, rs, hp, he, hpos, hr, -, h1, h2⟩ := h.ex
  have e2 : Real.logb 2 2 = ((1 : ℕ) : ℝ) := by
    rw [Real.logb_self_eq_one (by norm_num)]; norm_num
  have et : (1 / 2 ^ 23 : ℝ) = (2 : ℝ) ^ (-23 : ℤ) := by norm_num
  have ep : ebQuant M.O.toDOps M.base M.logBase M.thr a =
      ebQuant (roundedOps rT rD lg).toDOps (2 ^ 1) ((1 : ℕ) : ℝ) ((2 : ℝ) ^ (-23 : ℤ)) a := by
    rw [hM.O, hM.base, hM.logBase, hM.thr, e2, et]; rfl
  rw [ep] at he hr
  rw [he] at hpos
  obtain ⟨k, k1, k2⟩ := ebQuant_rounded (rT := rT) hD hl 1 (Or.inl rfl) (-23) a (by
    rw [← et, div_div_eq_mul_div, div_one]; exact ha a id hp) hpos
  rw [k1] at hr
  obtain ⟨l1, l2⟩ := encComps_spec M _ _ _ _ _ hr
  rw [List.length_range] at l1
  refine ⟨a, id, hp, fun c hc => ?_, fun c q hq => ?_⟩
  · have hc1 := l2 c (by simpa using hc) (by omega)
    simp only [List.getElem_range] at hc1
    have hcod : s'.cod c p = rs[c].2 := by
      rw [h1, setCol_same (by simpa [l1] using hc)]; simp
    have hlt := encComp3_rounded hT.guard (M := M) (by rw [hM.O]; rfl) (q := rs[c].1)
      (x := rs[c].2) hc1
    rw [sub_zero, one_mul] at hlt
    rw [hcod]
    refine ⟨hlt.trans_le k2, ?_⟩
    rw [h2, setCol_same (by simp [l1, col_length, hc]), List.getElem_zipWith, col_get, hM.back]
    simp
  · rw [h1, h2]; exact ⟨setCol_ne hq, setCol_ne hq⟩

theorem rpow_two_le {δ : ℝ} (h0 : 0 ≤ δ) (h1 : δ ≤ 1) : (2 : ℝ) ^ δ ≤ 1 + δ := by
  have := rpow_one_add_le_one_add_mul_self (s := 1) (p := δ) (by norm_num) h0 h1
  norm_num at this
  linarith

/-- The total error in the log domain. -/
theorem total_log {u δ ε w maxEb a : ℝ} (hu0 : 0 ≤ u) (hu : u ≤ 1 / 2 ^ 50) (hd0 : 0 ≤ δ)
    (hd : δ ≤ 1 / 2 ^ 30) (he : ε ≤ 1 / 2 ^ 16)
    (hw : w ≤ 1 / 2 ^ 22) (hm0 : 0 ≤ maxEb) (hm : maxEb ≤ 1) (ha0 : 0 ≤ a)
    (ha : a ≤ Real.logb 2 ((1 + u) * (1 + maxEb)) + δ) :
    (1 + w) * (2 : ℝ) ^ ((1 + u) * (2 : ℝ) ^ δ * a + ε) ≤ (1 + maxEb) * (1 + 1 / 2 ^ 15) ∧
      (1 + u) * (2 : ℝ) ^ δ * a + ε ≤ 3 / 2 := by
  have hpos : 0 < (1 + u) * (1 + maxEb) := mul_pos (by linarith) (by linarith)
  have hδ := rpow_two_le hd0 (hd.trans (by norm_num))
  have hδ0 : (0 : ℝ) < (2 : ℝ) ^ δ := Real.rpow_pos_of_pos (by norm_num) _
  have hC : (1 + u) * (2 : ℝ) ^ δ ≤ 1 + 1 / 2 ^ 29 := by
    calc (1 + u) * (2 : ℝ) ^ δ ≤ (1 + 1 / 2 ^ 50) * (1 + 1 / 2 ^ 30) :=
          mul_le_mul (by linarith) (by linarith) hδ0.le (by norm_num)
      _ ≤ _ := by norm_num
  have ha2 : a ≤ 9 / 8 := by
    have h1 : (1 + u) * (1 + maxEb) ≤ 2 * (1 + 1 / 2 ^ 50) := by nlinarith
    have h2 := Real.logb_le_logb_of_le (b := 2) (by norm_num) hpos h1
    have h3 : Real.logb 2 (2 * (1 + 1 / 2 ^ 50)) ≤ 1 + 1 / 16 := by
      have : (2 : ℝ) * (1 + 1 / 2 ^ 50) ≤ (2 : ℝ) ^ (1 + 1 / 16 : ℝ) := by
        rw [Real.rpow_add (by norm_num), Real.rpow_one]
        apply mul_le_mul_of_nonneg_left _ (by norm_num)
        by_contra hc
        push Not at hc
        have h0 : (0 : ℝ) ≤ (2 : ℝ) ^ (1 / 16 : ℝ) := (Real.rpow_pos_of_pos (by norm_num) _).le
        have h4 : ((2 : ℝ) ^ (1 / 16 : ℝ)) ^ 16 = 2 := by
          rw [← Real.rpow_natCast, ← Real.rpow_mul (by norm_num)]; norm_num
        have h5 : ((2 : ℝ) ^ (1 / 16 : ℝ)) ^ 16 ≤ (1 + 1 / 2 ^ 50) ^ 16 :=
          pow_le_pow_left₀ h0 hc.le 16
        rw [h4] at h5
        norm_num at h5
      rw [Real.logb_le_iff_le_rpow (by norm_num) (by norm_num)]
      exact this
    linarith
  have hCa : (1 + u) * (2 : ℝ) ^ δ * a ≤ a + 1 / 2 ^ 28 := by nlinarith
  have hE : (1 + u) * (2 : ℝ) ^ δ * a + ε ≤
      Real.logb 2 ((1 + u) * (1 + maxEb)) + (1 / 2 ^ 30 + 1 / 2 ^ 28 + 1 / 2 ^ 16) := by linarith
  refine ⟨?_, by linarith⟩
  have h1 : (2 : ℝ) ^ ((1 + u) * (2 : ℝ) ^ δ * a + ε) ≤
      (1 + u) * (1 + maxEb) * (1 + (1 / 2 ^ 30 + 1 / 2 ^ 28 + 1 / 2 ^ 16)) := by
    calc _ ≤ (2 : ℝ) ^ (Real.logb 2 ((1 + u) * (1 + maxEb)) +
          (1 / 2 ^ 30 + 1 / 2 ^ 28 + 1 / 2 ^ 16)) :=
          Real.rpow_le_rpow_of_exponent_le (by norm_num) hE
      _ = (1 + u) * (1 + maxEb) * (2 : ℝ) ^ (1 / 2 ^ 30 + 1 / 2 ^ 28 + 1 / 2 ^ 16 : ℝ) := by
        rw [Real.rpow_add (by norm_num), Real.rpow_logb (by norm_num) (by norm_num) hpos]
      _ ≤ _ := mul_le_mul_of_nonneg_left (rpow_two_le (by norm_num) (by norm_num)) hpos.le
  have hp0 : 0 ≤ (2 : ℝ) ^ ((1 + u) * (2 : ℝ) ^ δ * a + ε) :=
    (Real.rpow_pos_of_pos (by norm_num) _).le
  have hm1 : 0 < 1 + maxEb := by linarith
  calc _ ≤ (1 + 1 / 2 ^ 22) * ((1 + u) * (1 + maxEb) *
        (1 + (1 / 2 ^ 30 + 1 / 2 ^ 28 + 1 / 2 ^ 16))) :=
        mul_le_mul (by linarith) h1 hp0 (by norm_num)
    _ ≤ (1 + 1 / 2 ^ 22) * ((1 + 1 / 2 ^ 50) * (1 + maxEb) *
        (1 + (1 / 2 ^ 30 + 1 / 2 ^ 28 + 1 / 2 ^ 16))) := by
      apply mul_le_mul_of_nonneg_left _ (by norm_num)
      apply mul_le_mul_of_nonneg_right _ (by norm_num)
      exact mul_le_mul_of_nonneg_right (by linarith) hm1.le
    _ = (1 + maxEb) * ((1 + 1 / 2 ^ 22) * (1 + 1 / 2 ^ 50) *
        (1 + (1 / 2 ^ 30 + 1 / 2 ^ 28 + 1 / 2 ^ 16))) := by ring
    _ ≤ _ := mul_le_mul_of_nonneg_left (by norm_num) hm1.le

/-- The compressor's reconstruction in a log mode. -/
theorem stateLog {rT rD lg lgT exT : ℝ → ℝ} {u w' δ ε w maxEb : ℝ} (hT : IsFloat rT w')
    (hD : IsFloat rD u) (hu : u ≤ 1 / 2 ^ 50) (hl : IsLog2 rD lg δ) (hd0 : 0 ≤ δ)
    (hd : δ ≤ 1 / 2 ^ 30) (H : IsExpLog lgT exT ε w) (he : ε ≤ 1 / 2 ^ 16) (hw : w ≤ 1 / 2 ^ 22)
    (hm0 : 0 ≤ maxEb) (hm : maxEb ≤ 1) {M : Mode ℝ ℝ}
    (hM : LogMode M (roundedL rT rD lg lgT exT)) {plan : State ℝ → Nat → Option (Plan ℝ)} {n : Nat}
    {data : Arr ℝ} {s' : State ℝ} {str : VMode.Streams ℝ}
    (hplan : ∀ s p a id, plan s p = some (.try a id) →
      ∃ req, 0 < req ∧ req ≤ maxEb ∧ a = lg (rD (1 + req)))
    (hnz : ∀ s p a id, p < n → (∀ c, s.val c p = data c p) → plan s p = some (.try a id) →
      ∀ c, c < M.K → data c p ≠ 0)
    (h : VMode.compress M plan n data = some (s', str))
    (hr : ∀ c q, c < M.K → q < n → data c q = 0 ∨
      ((2 : ℝ) ^ (-97 : ℤ) ≤ |data c q| ∧ |data c q| ≤ (2 : ℝ) ^ (126 : ℤ))) :
    ∀ c q, c < M.K → q < n → (data c q ≠ 0 → -99 ≤ s'.cod c q) ∧
      (s'.val c q = data c q ∨ (0 < data c q * s'.val c q ∧
        |s'.val c q - data c q| < ((1 + maxEb) * (1 + 1 / 2 ^ 15) - 1) * |data c q|)) := by
  have hu0 := hD.u_nonneg
  have hw1 : w < 1 := lt_of_le_of_lt hw (by norm_num)
  have hpow : ∀ k l : ℤ, k ≤ l → (2 : ℝ) ^ k ≤ (2 : ℝ) ^ l := fun k l h =>
    zpow_le_zpow_right₀ (by norm_num) h
  have hlog : ∀ c q, c < M.K → q < n → data c q ≠ 0 →
      (-97 : ℝ) ≤ Real.logb 2 |data c q| ∧ Real.logb 2 |data c q| ≤ 126 ∧
        abs (lgT |data c q| - Real.logb 2 |data c q|) ≤ ε := by
    intro c q hc hq hne
    rcases hr c q hc hq with h0 | ⟨h1, h2⟩
    · exact absurd h0 hne
    · have hpos : (0 : ℝ) < |data c q| := abs_pos.2 hne
      refine ⟨?_, ?_, H.log _ ((hpow _ _ (by norm_num)).trans h1) h2⟩
      · rw [Real.le_logb_iff_rpow_le (by norm_num) hpos]
        have : (2 : ℝ) ^ (-97 : ℝ) = (2 : ℝ) ^ (-97 : ℤ) := by
          rw [← Real.rpow_intCast]; norm_num
        rw [this]; exact h1
      · rw [Real.logb_le_iff_le_rpow (by norm_num) hpos]
        have : (2 : ℝ) ^ (126 : ℝ) = (2 : ℝ) ^ (126 : ℤ) := by
          rw [← Real.rpow_intCast]; norm_num
        rw [this]; exact h2
  -- the invariant
  exact VMode.compress_inv M plan n data s' str h
    (fun p s => ∀ c q, c < M.K → q < n →
      (data c q ≠ 0 → -99 ≤ s.cod c q) ∧ (s.val c q = data c q ∨ (0 < data c q * s.val c q ∧
        |s.val c q - data c q| < ((1 + maxEb) * (1 + 1 / 2 ^ 15) - 1) * |data c q|)))
    (fun c q hc hq => ⟨fun hne => by
      obtain ⟨a1, -, a2⟩ := hlog c q hc hq hne
      have e1 : (initState M data).cod c q = lgT |data c q| := by
        simp only [initState, hM.fwd]
        exact logFwd_rounded hne
      rw [e1]
      have := (abs_le.1 a2).1
      have : (1 / 2 ^ 16 : ℝ) ≤ 1 := by norm_num
      linarith, Or.inl rfl⟩)
    (fun p s _ hI => hI)
    (fun p s s1 e qs hp hI hS hlater => by
      obtain ⟨a, id, hpl, h1, h2⟩ := Coded.rounded hT hD hl hM hS (fun a id ha => by
        obtain ⟨req, q0, q1, rfl⟩ := hplan s p a id ha
        have := logEb_le hD (hu.trans (by norm_num)) hl q0.le q1 hm
        have h4 : Real.logb 2 ((1 + u) * (1 + maxEb)) ≤ 2 := by
          rw [Real.logb_le_iff_le_rpow (by norm_num) (mul_pos (by linarith) (by linarith))]
          have : u ≤ 1 := hu.trans (by norm_num)
          norm_num
          nlinarith
        have h5 : lg (rD (1 + req)) ≤ 3 := by
          have : (1 / 2 ^ 30 : ℝ) ≤ 1 := by norm_num
          linarith
        have h6 : (1 + u) * (lg (rD (1 + req)) * 2 ^ 23) ≤ 2 ^ 40 := by
          have : u ≤ 1 := hu.trans (by norm_num)
          calc _ ≤ (1 + u) * (3 * 2 ^ 23) :=
                mul_le_mul_of_nonneg_left (mul_le_mul_of_nonneg_right h5 (by norm_num))
                  (by linarith)
            _ ≤ 2 * (3 * 2 ^ 23) := mul_le_mul_of_nonneg_right (by linarith) (by norm_num)
            _ ≤ _ := by norm_num
        exact lt_of_le_of_lt h6 (pow_lt_pow_right₀ (by norm_num) (by norm_num)))
      obtain ⟨req, q0, q1, ha⟩ := hplan s p a id hpl
      have hale : a ≤ Real.logb 2 ((1 + u) * (1 + maxEb)) + δ := by
        rw [ha]; exact logEb_le hD (hu.trans (by norm_num)) hl q0.le q1 hm
      intro c q hc hq
      by_cases hqp : q = p
      · subst hqp
        have hne := hnz s q a id hq (fun c => (hlater c q (le_refl q)).2) hpl c hc
        obtain ⟨a1, a3, a2⟩ := hlog c q hc hq hne
        obtain ⟨b1, b2⟩ := h1 c hc
        have e1 : s.cod c q = lgT |data c q| := by
          rw [(hlater c q (le_refl q)).1, hM.fwd]; exact logFwd_rounded hne
        rw [e1] at b1
        rw [(hlater c q (le_refl q)).2] at b2
        have ha0 : 0 ≤ a := by
          by_contra hc
          push Not at hc
          have hp1 : (0 : ℝ) < (1 + u) * (2 : ℝ) ^ δ :=
            mul_pos (by linarith) (Real.rpow_pos_of_pos (by norm_num) _)
          have := lt_of_le_of_lt (abs_nonneg _) b1
          nlinarith
        obtain ⟨t1, t2⟩ := total_log (ε := ε) (w := w) hu0 hu hd0 hd he hw hm0 hm ha0 hale
        have hE : abs (s1.cod c q - Real.logb 2 |data c q|) < (1 + u) * (2 : ℝ) ^ δ * a + ε := by
          have := abs_sub_le (s1.cod c q) (lgT |data c q|) (Real.logb 2 |data c q|)
          linarith
        refine ⟨fun _ => ?_, Or.inr ?_⟩
        · have := (abs_lt.1 hE).1
          linarith
        · obtain ⟨k1, k2⟩ := logBack_rounded (rT := rT) (rD := rD) (lg := lg) H hw1 hne hE
            (by have := (abs_lt.1 hE).1; linarith) (by have := (abs_lt.1 hE).2; linarith)
          rw [b2]
          refine ⟨k2, k1.trans_le (mul_le_mul_of_nonneg_right (by linarith) (abs_nonneg _))⟩
      · rw [(h2 c q hqp).1, (h2 c q hqp).2]; exact hI c q hc hq)

/-- The structured decompressor returns it. -/
theorem decLog {rT rD lg lgT exT : ℝ → ℝ} {M : Mode ℝ ℝ} (hM : LogMode M (roundedL rT rD lg lgT exT))
    {plan : State ℝ → Nat → Option (Plan ℝ)} {n : Nat}
    (G : Good M plan n) {data m0 : Arr ℝ} {s' : State ℝ} {str : VMode.Streams ℝ}
    (h : VMode.compress M plan n data = some (s', str))
    (hesc : ∀ c q e, c < M.K → q < n → str.eb[q]? = some e → M.isEsc e = false → -99 ≤ s'.cod c q) :
    ∃ d, VMode.decompress M (logFin (roundedL rT rD lg lgT exT)
        (mapAt (signMaps (roundedL rT rD lg lgT exT) M.K n data))) n m0 str = some d ∧
      ∀ c q, c < M.K → q < n → d c q = s'.val c q :=
  VMode.lockstep M plan n G (logFin (roundedL rT rD lg lgT exT)
        (mapAt (signMaps (roundedL rT rD lg lgT exT) M.K n data))) data m0 s' str h
    (fun c q e hc hq hs hne => by
      rw [hM.back]
      refine logFin_eq (roundedL_laws rT rD lg lgT exT) _ _ _ _ _
        (mapAt_signMaps (roundedL rT rD lg lgT exT) _ _ _ _ _ hc hq) ?_
      simp only [roundedL, decide_eq_false_iff_not, not_lt]
      exact hesc c q e hc hq hs hne)

end CpSZ.Rounded
