import Verif.Relax.Lockstep
import Verif.Spec2D
/-
The relaxed mode in exact and in rounded arithmetic; `check_cp` in exact arithmetic.
-/

namespace CpSZ.Online2D.Relax

open CpSZ.Mesh2D

/-- Exact arithmetic.  A division by zero gives infinity or NaN. -/
noncomputable def realR : ROps ℝ ℝ where
  toOps := realOps
  quot d e := if e = 0 then none else some (|d| / e + 1)
  ltInt x n := decide (x < n)
  pos x := decide (0 < x)
  negT x := -x
  half x := truncR (x / 2)
  isZero x := decide (x = 0)

/-- Rounded arithmetic: `rT` for the element type, `rD` for `double`. -/
noncomputable def roundedR (rT rD lg : ℝ → ℝ) : ROps ℝ ℝ where
  toOps := roundedOps rT rD lg
  quot d e := if e = 0 then none else some (rT (rD (rD (|d| / e) + 1)))
  ltInt x n := decide (x < n)
  pos x := decide (0 < x)
  negT x := -x
  half x := truncR (rT (x / 2))
  isZero x := decide (x = 0)

/-- `max_count` (src/sz_compress_cp_preserve_2d.cpp L1391). -/
def maxCount : Nat := 1

/-! ### `check_cp` -/

open Classical in
/-- `check_cp` (src/sz_compress_cp_preserve_2d.cpp L1291-1298) with `inverse_lerp_s2v2__`
(L1272-1289) and `solve_linear2x2__` (L1258-1270).  If the determinant is zero, the quotients are
infinite or NaN and the test fails. -/
noncomputable def checkCP : Test ℝ := fun p0 p1 p2 =>
  let a00 := p0.1 - p2.1
  let a01 := p1.1 - p2.1
  let a10 := p0.2 - p2.2
  let a11 := p1.2 - p2.2
  let b0 := -p2.1
  let b1 := -p2.2
  let D := a00 * a11 - a10 * a01
  let mu0 := (b0 * a11 - a01 * b1) / D
  let mu1 := (a00 * b1 - b0 * a10) / D
  let mu2 := 1 - mu0 - mu1
  decide (D ≠ 0 ∧ (0 ≤ mu0 ∧ mu0 ≤ 1) ∧ (0 ≤ mu1 ∧ mu1 ≤ 1) ∧ (0 ≤ mu2 ∧ mu2 ≤ 1))

/-- The linear interpolant of three vectors is invertible. -/
def Regular (p0 p1 p2 : ℝ × ℝ) : Prop :=
  (p0.1 - p2.1) * (p1.2 - p2.2) - (p0.2 - p2.2) * (p1.1 - p2.1) ≠ 0

theorem checkCP_iff (p0 p1 p2 : ℝ × ℝ) :
    checkCP p0 p1 p2 = true ↔ Regular p0 p1 p2 ∧ HasCP p0 p1 p2 := by
  obtain ⟨u0, v0⟩ := p0
  obtain ⟨u1, v1⟩ := p1
  obtain ⟨u2, v2⟩ := p2
  simp only [checkCP, Regular, decide_eq_true_eq]
  constructor
  · rintro ⟨hD, ⟨h1, h2⟩, ⟨h3, h4⟩, h5, h6⟩
    set D := (u0 - u2) * (v1 - v2) - (v0 - v2) * (u1 - u2) with hDd
    refine ⟨hD, _, _, _, h1, h3, h5, by ring, ?_, ?_⟩
    · simp only
      have : (-u2 * (v1 - v2) - (u1 - u2) * -v2) * u0 + ((u0 - u2) * -v2 - -u2 * (v0 - v2)) * u1 +
          (D - (-u2 * (v1 - v2) - (u1 - u2) * -v2) - ((u0 - u2) * -v2 - -u2 * (v0 - v2))) * u2 =
          0 := by rw [hDd]; ring
      field_simp
      linear_combination this
    · simp only
      have : (-u2 * (v1 - v2) - (u1 - u2) * -v2) * v0 + ((u0 - u2) * -v2 - -u2 * (v0 - v2)) * v1 +
          (D - (-u2 * (v1 - v2) - (u1 - u2) * -v2) - ((u0 - u2) * -v2 - -u2 * (v0 - v2))) * v2 =
          0 := by rw [hDd]; ring
      field_simp
      linear_combination this
  · rintro ⟨hD, a, b, c, ha, hb, hc, hs, e1, e2⟩
    simp only at e1 e2
    have hc' : c = 1 - a - b := by linarith
    subst hc'
    have m0 : (-u2 * (v1 - v2) - (u1 - u2) * -v2) /
        ((u0 - u2) * (v1 - v2) - (v0 - v2) * (u1 - u2)) = a := by
      rw [div_eq_iff hD]
      linear_combination -(v1 - v2) * e1 + (u1 - u2) * e2
    have m1 : ((u0 - u2) * -v2 - -u2 * (v0 - v2)) /
        ((u0 - u2) * (v1 - v2) - (v0 - v2) * (u1 - u2)) = b := by
      rw [div_eq_iff hD]
      linear_combination -(u0 - u2) * e2 + (v0 - v2) * e1
    rw [m0, m1]
    exact ⟨hD, ⟨ha, by linarith⟩, ⟨hb, by linarith⟩, hc, by linarith⟩

/-- A test that does not depend on the order of the vertices. -/
def Symm {T : Type} (chk : Test T) : Prop :=
  ∀ a b c a' b' c', [a, b, c].Perm [a', b', c'] → chk a b c = chk a' b' c'

theorem symm_of {T : Type} {chk : Test T} (h1 : ∀ a b c, chk a b c = chk b a c)
    (h2 : ∀ a b c, chk a b c = chk a c b) : Symm chk := by
  intro a b c a' b' c' h
  classical
  have two : ∀ {x y z w : T × T}, [x, y].Perm [z, w] → (z = x ∧ w = y) ∨ (z = y ∧ w = x) := by
    intro x y z w hp
    rcases List.mem_cons.1 (hp.mem_iff.2 (List.mem_cons_self (a := z) (l := [w]))) with e | e
    · subst e
      have := List.perm_singleton.1 ((List.perm_cons z).1 hp).symm
      simp at this
      exact Or.inl ⟨rfl, this⟩
    · have e : z = y := by simpa using e
      subst e
      have := List.perm_singleton.1 ((List.perm_cons z).1 ((List.Perm.swap x z []).trans hp)).symm
      simp at this
      exact Or.inr ⟨rfl, this⟩
  have hm := h.mem_iff.2 (List.mem_cons_self (a := a') (l := [b', c']))
  simp only [List.mem_cons, List.not_mem_nil, or_false] at hm
  rcases hm with e | e | e
  · subst e
    rcases two ((List.perm_cons a').1 h) with ⟨rfl, rfl⟩ | ⟨rfl, rfl⟩
    · rfl
    · exact h2 _ _ _
  · subst e
    rcases two ((List.perm_cons a').1 ((List.Perm.swap a a' [c]).trans h)) with ⟨rfl, rfl⟩ | ⟨rfl, rfl⟩
    · exact h1 _ _ _
    · rw [h1, h2]
  · subst e
    rcases two ((List.perm_cons a').1 (((List.Perm.swap a a' [b]).trans
      (List.Perm.cons a (List.Perm.swap b a' []))).trans h)) with ⟨rfl, rfl⟩ | ⟨rfl, rfl⟩
    · rw [h2, h1]
    · rw [h2, h1, h2]

theorem checkCP_symm : Symm checkCP := by
  apply symm_of
  · intro a b c
    rw [Bool.eq_iff_iff, checkCP_iff, checkCP_iff]
    refine and_congr ?_ ⟨HasCP.perm (List.Perm.swap _ _ _), HasCP.perm (List.Perm.swap _ _ _)⟩
    unfold Regular
    rw [not_iff_not]
    constructor <;> intro h <;> linear_combination -h
  · intro a b c
    rw [Bool.eq_iff_iff, checkCP_iff, checkCP_iff]
    refine and_congr ?_ ⟨HasCP.perm (List.Perm.cons _ (List.Perm.swap _ _ _)),
      HasCP.perm (List.Perm.cons _ (List.Perm.swap _ _ _))⟩
    unfold Regular
    rw [not_iff_not]
    constructor <;> intro h <;> linear_combination -h

/-! ### Values in exact arithmetic -/

/-- Truncation of a signed quotient. -/
theorem trunc_near {d e : ℝ} (he : 0 < e) {n : ℤ} (h : |d - 2 * n * e| < e) :
    truncR ((if 0 < d then |d| / e + 1 else -(|d| / e + 1)) / 2) = n := by
  rw [abs_lt] at h
  by_cases hd : 0 < d
  · rw [if_pos hd, abs_of_pos hd, truncR_nonneg (by positivity), Int.floor_eq_iff]
    have h1 : (2 * n - 1 : ℝ) ≤ d / e := by rw [le_div_iff₀ he]; nlinarith
    have h2 : d / e < 2 * n + 1 := by rw [div_lt_iff₀ he]; nlinarith
    constructor <;> linarith
  · push Not at hd
    rw [if_neg (by linarith), abs_of_nonpos hd, neg_div, truncR_neg,
      truncR_nonneg (by have := div_nonneg (neg_nonneg.2 hd) he.le; linarith)]
    have h1 : (-2 * n - 1 : ℝ) ≤ -d / e := by rw [le_div_iff₀ he]; nlinarith
    have h2 : -d / e < -2 * n + 1 := by rw [div_lt_iff₀ he]; nlinarith
    have : ⌊(-d / e + 1) / 2⌋ = -n := by
      rw [Int.floor_eq_iff]
      push_cast
      constructor <;> linarith
    omega

/-- The tentative value in exact arithmetic. -/
theorem tentative_real (P : Par ℝ) (r2 p : Nat) (f : Nat → ℝ) (e : ℝ) :
    tentative realR P r2 f p e =
      (let d := f p - lorenzo realOps r2 f p
      let n := truncR ((if 0 < d then |d| / e + 1 else -(|d| / e + 1)) / 2)
      if e = 0 then none
      else if |d| / e + 1 < P.capacity then
        some (n + P.radius, lorenzo realOps r2 f p + 2 * n * e)
      else none) := by
  unfold tentative
  simp only
  rw [show lorenzo realR.toOps r2 f p = lorenzo realOps r2 f p from rfl]
  generalize lorenzo realOps r2 f p = pred
  rw [show realR.subT (f p) pred = f p - pred from rfl]
  generalize f p - pred = d
  by_cases he : e = 0
  · simp [realR, he]
  · simp only [realR, he, if_false, decide_eq_true_eq, linOffset, realOps, realD, id]
    split
    · simp only [Option.some.injEq, Prod.mk.injEq, true_and]
      push_cast
      ring
    · rfl

theorem tentative_near {P : Par ℝ} {r2 p : Nat} {f : Nat → ℝ} {e : ℝ} (he : 0 < e) {n : ℤ}
    (h : |f p - lorenzo realOps r2 f p - 2 * n * e| < e)
    (hc : |f p - lorenzo realOps r2 f p| < (P.capacity - 1) * e) :
    tentative realR P r2 f p e =
      some (n + P.radius, lorenzo realOps r2 f p + 2 * n * e) := by
  have hlt : |f p - lorenzo realOps r2 f p| / e + 1 < P.capacity := by
    have : |f p - lorenzo realOps r2 f p| / e < P.capacity - 1 := by
      rw [div_lt_iff₀ he]; exact hc
    linarith
  rw [tentative_real]
  simp only [he.ne', if_false, hlt, if_true, trunc_near he h]

/-- The tentative value is within the bound with which it was computed. -/
theorem tentative_error {P : Par ℝ} {r2 p : Nat} {f : Nat → ℝ} {e : ℝ} (he : 0 ≤ e) {q : Int}
    {x : ℝ} (h : tentative realR P r2 f p e = some (q, x)) : |x - f p| ≤ e := by
  rw [tentative_real] at h
  simp only at h
  split at h
  · cases h
  · rename_i he0
    split at h
    swap
    · cases h
    simp only [Option.some.injEq, Prod.mk.injEq] at h
    obtain ⟨-, hx⟩ := h
    generalize lorenzo realOps r2 f p = pred at hx
    rw [← hx]
    have hpos : 0 < e := lt_of_le_of_ne he (Ne.symm he0)
    obtain ⟨d, hd⟩ : ∃ d, d = f p - pred := ⟨_, rfl⟩
    rw [show f p = pred + d by rw [hd]; ring]
    simp only [add_sub_cancel_left]
    rw [show ∀ a : ℝ, pred + a - (pred + d) = a - d from fun a => by ring, abs_le]
    have f1 := Int.floor_le ((|d| / e + 1) / 2)
    have f2 := Int.lt_floor_add_one ((|d| / e + 1) / 2)
    have nn : 0 ≤ |d| / e := div_nonneg (abs_nonneg _) he
    by_cases hdp : 0 < d
    · rw [if_pos hdp, truncR_nonneg (by linarith)]
      rw [abs_of_pos hdp] at *
      have hde : d = d / e * e := by field_simp
      constructor <;> nlinarith
    · push Not at hdp
      rw [if_neg (by linarith), neg_div, truncR_neg, truncR_nonneg (by linarith)]
      rw [abs_of_nonpos hdp] at *
      have hde : -d = -d / e * e := by field_simp
      push_cast
      constructor <;> nlinarith

/-- A number is stored with each bound tried at most the user's. -/
theorem tried_le {P : Par ℝ} (hb : 2 ≤ P.base) (hlb : P.logBase = Real.logb 2 P.base)
    (ht : 0 < P.thr) {maxEb : ℝ} (hm : 0 ≤ maxEb) (k : Nat) :
    0 ≤ (ebQuant realR.toDOps P.base P.logBase P.thr (tried realR P maxEb k)).1 ∧
    (ebQuant realR.toDOps P.base P.logBase P.thr (tried realR P maxEb k)).1 ≤ maxEb := by
  have key : ∀ a : ℝ, 0 ≤ a →
      0 ≤ (ebQuant realR.toDOps P.base P.logBase P.thr a).1 ∧
      (ebQuant realR.toDOps P.base P.logBase P.thr a).1 ≤ a := by
    intro a ha
    have hs := ebQuant_spec P.base hb P.thr a ht
    rw [← hlb] at hs
    obtain ⟨-, -, h3, h4⟩ := hs
    show 0 ≤ (ebQuant realD P.base P.logBase P.thr a).1 ∧
      (ebQuant realD P.base P.logBase P.thr a).1 ≤ a
    rcases le_or_gt a P.thr with h | h
    · rw [h4 h]; exact ⟨le_rfl, ha⟩
    · obtain ⟨e1, e2, e3⟩ := h3 h
      refine ⟨?_, e2⟩
      rw [e1]
      have : (0 : ℝ) < P.base := by
        have : (2 : ℝ) ≤ P.base := by exact_mod_cast hb
        linarith
      exact mul_nonneg (zpow_nonneg this.le _) ht.le
  have : ∀ k, 0 ≤ tried realR P maxEb k ∧ tried realR P maxEb k ≤ maxEb := by
    intro k
    induction k with
    | zero => exact ⟨hm, le_rfl⟩
    | succ k ih =>
      obtain ⟨a, b⟩ := key _ ih.1
      have e : tried realR P maxEb (k + 1) =
          (ebQuant realR.toDOps P.base P.logBase P.thr (tried realR P maxEb k)).1 / 2 := by
        rw [tried]
        show _ / ((2 : ℤ) : ℝ) = _
        norm_num
      rw [e]
      constructor <;> linarith [ih.2]
  obtain ⟨a, b⟩ := key _ (this k).1
  exact ⟨a, b.trans (this k).2⟩

/-- Which bounds are safe, in exact arithmetic and with at most one retry: at least `base^2`
thresholds, or at most one. -/
theorem codesOK_real {P : Par ℝ} (hb : P.base = 4) (hlb : P.logBase = Real.logb 2 P.base)
    (ht : 0 < P.thr) {maxEb : ℝ} (h : 16 * P.thr ≤ maxEb ∨ maxEb ≤ P.thr) :
    CodesOK realR P maxCount maxEb := by
  have hb2 : 2 ≤ P.base := by omega
  have spec : ∀ a, _ := fun a => ebQuant_spec P.base hb2 P.thr a ht
  rw [← hlb] at spec
  have hbR : (P.base : ℝ) = 4 := by rw [hb]; norm_num
  have t1 : tried realR P maxEb 1 = (ebQuant realD P.base P.logBase P.thr maxEb).1 / 2 := by
    show _ / ((2 : ℤ) : ℝ) = _
    norm_num
    rfl
  intro k hk
  have hk' : k = 0 ∨ k = 1 := by unfold maxCount at hk; omega
  rcases h with h | h
  · left
    show (ebQuant realD P.base P.logBase P.thr (tried realR P maxEb k)).2 ≠ 0
    rcases hk' with rfl | rfl
    · intro hz
      have := (spec maxEb).2.1.1 hz
      rw [hbR] at this
      linarith
    · intro hz
      obtain ⟨-, -, e3⟩ := (spec maxEb).2.2.1 (by linarith)
      rw [hbR] at e3
      have := (spec _).2.1.1 hz
      rw [t1, hbR] at this
      obtain ⟨e1, -, -⟩ := (spec maxEb).2.2.1 (by linarith)
      rw [e1, hbR] at this e3
      set id := (ebQuant realD P.base P.logBase P.thr maxEb).2 with hid
      -- `4^id > 4` and `4^id / 2 < 4`
      have hgt : (4 : ℝ) ≤ (4 : ℝ) ^ id := by
        by_contra hcon
        push Not at hcon
        nlinarith
      have hlt : (4 : ℝ) ^ id < 8 := by
        by_contra hcon
        push Not at hcon
        nlinarith
      have h2 : id < 2 := by
        by_contra hcon
        have : (4 : ℝ) ^ (2 : ℤ) ≤ (4 : ℝ) ^ id := zpow_le_zpow_right₀ (by norm_num) (by omega)
        norm_num at this
        linarith
      have : (4 : ℝ) ^ id ≤ (4 : ℝ) ^ (1 : ℤ) := zpow_le_zpow_right₀ (by norm_num) (by omega)
      norm_num at this
      have h4 : (4 : ℝ) ^ id = 4 := le_antisymm this hgt
      rw [h4] at e3
      nlinarith
  · right
    have h0 : ebQuant realD P.base P.logBase P.thr maxEb = (0, 0) := (spec maxEb).2.2.2 h
    have h1 : ebQuant realD P.base P.logBase P.thr (tried realR P maxEb k) = (0, 0) := by
      rcases hk' with rfl | rfl
      · exact h0
      · rw [t1, h0]
        exact (spec _).2.2.2 (by norm_num; exact ht.le)
    intro d q hq
    rw [show ebQuant realR.toDOps P.base P.logBase P.thr (tried realR P maxEb k) = (0, 0) from h1]
      at hq
    simp [realR] at hq

end CpSZ.Online2D.Relax
