import Verif.VMode.Log
import Verif.Online2D.Real
/-
The log-domain modes in exact arithmetic.
-/

namespace CpSZ.VMode

/-- Exact arithmetic with exact logarithm and exponential. -/
noncomputable def realL : LOps ℝ ℝ where
  toOps := realOps
  isZero x := decide (x = 0)
  pos x := decide (0 < x)
  negT := fun x => -x
  absT := fun x => |x|
  log2T := Real.logb 2
  exp2T x := (2 : ℝ) ^ x
  m100 := -100
  ltM99 x := decide (x < -99)

theorem realL_laws : LogLaws realL := by
  constructor
  · intro x h
    have : 0 < x := of_decide_eq_true h
    exact decide_eq_false this.ne'
  · intro x h
    have hx : x ≠ 0 := of_decide_eq_false h
    simp only [realL, decide_eq_true_eq]
    split
    · rename_i hp; rw [abs_of_pos hp]
    · rename_i hp
      rw [abs_of_nonpos (not_lt.1 hp)]

theorem logFwd_real {x : ℝ} (hx : x ≠ 0) : logFwd realL x = Real.logb 2 |x| := by
  unfold logFwd
  have h0 : realL.isZero x = false := decide_eq_false hx
  rw [h0]
  simp only [Bool.false_eq_true, if_false]
  exact realL_laws.log_abs x h0

/-- Reconstruction from a logarithm that is off by less than `log2 (1 + req)`. -/
theorem logBack_real {x l req : ℝ} (hx : x ≠ 0) (hreq : 0 < req)
    (h : abs (l - Real.logb 2 |x|) < Real.logb 2 (1 + req)) :
    |logBack realL x l - x| < |x| * req ∧ 0 < x * logBack realL x l := by
  have hxp : 0 < |x| := abs_pos.2 hx
  set t := l - Real.logb 2 |x| with ht
  have hl : (2 : ℝ) ^ l = |x| * (2 : ℝ) ^ t := by
    rw [show l = Real.logb 2 |x| + t by rw [ht]; ring, Real.rpow_add (by norm_num),
      Real.rpow_logb (by norm_num) (by norm_num) hxp]
  have hback : logBack realL x l = x * (2 : ℝ) ^ t := by
    unfold logBack
    simp only [realL, decide_eq_true_eq]
    split
    · rename_i hp; rw [hl, abs_of_pos hp]
    · rename_i hp; rw [hl, abs_of_nonpos (not_lt.1 hp)]; ring
  have hpow : (2 : ℝ) ^ Real.logb 2 (1 + req) = 1 + req :=
    Real.rpow_logb (by norm_num) (by norm_num) (by linarith)
  rw [abs_lt] at h
  have h1 : (2 : ℝ) ^ t < 1 + req := by
    rw [← hpow]; exact Real.rpow_lt_rpow_of_exponent_lt (by norm_num) h.2
  have h2 : (1 + req)⁻¹ < (2 : ℝ) ^ t := by
    rw [← hpow, ← Real.rpow_neg (by norm_num)]
    exact Real.rpow_lt_rpow_of_exponent_lt (by norm_num) h.1
  have h3 : 1 - req < (1 + req)⁻¹ := by
    rw [inv_eq_one_div, lt_div_iff₀ (by linarith)]
    nlinarith
  have hpos : 0 < (2 : ℝ) ^ t := Real.rpow_pos_of_pos (by norm_num) t
  rw [hback]
  constructor
  · rw [show x * (2 : ℝ) ^ t - x = x * ((2 : ℝ) ^ t - 1) by ring, abs_mul]
    apply mul_lt_mul_of_pos_left _ hxp
    rw [abs_lt]
    constructor <;> linarith
  · have h4 : 0 < x * x := mul_self_pos.2 hx
    rw [← mul_assoc]
    exact mul_pos h4 hpos

/-- An accepted component in exact arithmetic. -/
theorem encComp_real {M : Mode ℝ ℝ} (hO : M.O = realOps) {f : Nat → ℝ} {p : Nat} {eb : ℝ}
    {q : Int} {x : ℝ} (h : encComp M f p eb = some (q, x)) : |x - f p| < eb := by
  unfold encComp at h
  simp only [hO] at h
  split at h
  · cases h
  · split at h
    · cases h
    · rename_i hle
      simp only [Option.some.injEq, Prod.mk.injEq] at h
      obtain ⟨-, rfl⟩ := h
      have : ¬ (realOps.le eb _ = true) := hle
      simp only [realOps, realD, decide_eq_true_eq, not_le, id] at this
      exact this

/-- A coded vertex in exact arithmetic: each component is coded within the planned bound. -/
theorem Coded.real {M : Mode ℝ ℝ} (hO : M.O = realOps) (hb : 2 ≤ M.base)
    (hlb : M.logBase = Real.logb 2 M.base) (ht : 0 < M.thr)
    {plan : State ℝ → Nat → Option (Plan ℝ)} {s s' : State ℝ} {p : Nat} {e : Int} {qs : List Int}
    (h : Coded M plan s s' p e qs) :
    ∃ a id, plan s p = some (.try a id) ∧ M.thr < a ∧ (∀ c, c < M.K →
      |s'.cod c p - s.cod c p| < a ∧ s'.val c p = M.back (s.val c p) (s'.cod c p)) ∧
      ∀ c q, q ≠ p → s'.cod c q = s.cod c q ∧ s'.val c q = s.val c q := by
  obtain ⟨a, id, rs, hp, he, hpos, hr, -, h1, h2⟩ := h.ex
  have hs := ebQuant_spec M.base hb M.thr a ht
  rw [← hlb] at hs
  simp only at hs
  obtain ⟨-, -, s3, s4⟩ := hs
  have hgt : M.thr < a := by
    by_contra hc
    have := s4 (not_lt.1 hc)
    rw [hO] at he
    have he' : e = (ebQuant realD M.base M.logBase M.thr a).2 := he
    rw [this] at he'
    simp only at he'
    omega
  obtain ⟨l1, l2⟩ := encComps_spec M _ _ _ _ _ hr
  rw [List.length_range] at l1
  refine ⟨a, id, hp, hgt, fun c hc => ?_, fun c q hq => ?_⟩
  · have hc1 := l2 c (by simpa using hc) (by omega)
    simp only [List.getElem_range] at hc1
    have hcod : s'.cod c p = rs[c].2 := by
      rw [h1, setCol_same (by simpa [l1] using hc)]; simp
    have hlt := encComp_real hO (q := rs[c].1) (x := rs[c].2) hc1
    rw [hcod]
    refine ⟨lt_of_lt_of_le hlt ?_, ?_⟩
    · rw [hO]; exact (s3 hgt).2.1
    · rw [h2, setCol_same (by simp [l1, col_length, hc]), List.getElem_zipWith, col_get]
      simp
  · rw [h1, h2]; exact ⟨setCol_ne hq, setCol_ne hq⟩

end CpSZ.VMode
