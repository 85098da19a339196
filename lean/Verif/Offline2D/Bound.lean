import Verif.Bound2D
import Mathlib.Analysis.SpecialFunctions.Pow.Real
/-
Error bounds of the 2D offline modes over ℝ (src/sz_compress_cp_preserve_2d.cpp L15-170) and
their effect on simultaneous relative perturbations of all three vertices.
-/

namespace CpSZ.Offline2D

/-! ### Model -/

/-- `accumulate`, positive part (include/sz_cp_preserve_utils.hpp L127-131). -/
noncomputable def posSum (l : List ℝ) : ℝ := (l.map fun x => if 0 ≤ x then x else 0).sum

/-- `accumulate`, negative part.  (include/sz_cp_preserve_utils.hpp L26-46.) -/
noncomputable def negSum (l : List ℝ) : ℝ := (l.map fun x => if 0 ≤ x then 0 else -x).sum

/-- `x`, `sqrt(x)` and `cbrt(x)` of `max_eb_to_keep_sign`. 
(include/sz_cp_preserve_utils.hpp L48-78.) -/
noncomputable def root (d : ℕ) (x : ℝ) : ℝ := x ^ ((1 : ℝ) / d)

/-- `max_eb_to_keep_sign(positive, negative, degree)` (include/sz_cp_preserve_utils.hpp L48-78);
the early exit for negative sums cannot happen. -/
noncomputable def keepSgn (d : ℕ) (l : List ℝ) : ℝ :=
  if negSum l = 0 ∨ posSum l = 0 then 1
  else |root d (posSum l) - root d (negSum l)| / (root d (posSum l) + root d (negSum l))

/-- `max_eb_to_keep_sign_det2x2` (src/sz_compress_cp_preserve_2d.cpp L16-27). -/
noncomputable def keepDet (u0 u1 u2 v0 v1 v2 : ℝ) : ℝ :=
  keepSgn 2 [u0 * v1, -u0 * v2, u1 * v2, -u1 * v0, u2 * v0, -u2 * v1]

/-- `accumulate_in_square`: all products of two coefficients
(src/sz_compress_cp_preserve_2d.cpp L64-71). -/
def squares (l : List ℝ) : List ℝ := l.flatMap fun a => l.map fun b => a * b

/-- Second half of `max_eb_to_keep_sign_eigen_delta_2` (src/sz_compress_cp_preserve_2d.cpp L73-121)
for given `c`. -/
noncomputable def keepDelta (c0 c1 c2 c3 u0 u1 u2 v0 v1 v2 : ℝ) : ℝ :=
  let eb := minf (keepSgn 1 [c0 * u0, c1 * u1, -(c0 + c1) * u2, c2 * v0, c3 * v1, -(c2 + c3) * v2])
    (keepDet u0 u1 u2 v0 v1 v2)
  let m := c1 * c2 - c0 * c3
  let C := -m * (u0 * v1 - u0 * v2 + u1 * v2 - u1 * v0 + u2 * v0 - u2 * v1)
  if C = 0 then 0
  else if C < 0 then eb
  else minf eb (keepSgn 2 (squares [c0 * u0, c1 * u1, -(c1 + c0) * u2, c2 * v0, c3 * v1,
      -(c3 + c2) * v2] ++ [-4 * m * u1 * v0, 4 * m * u2 * v0, 4 * m * u0 * v1, -4 * m * u2 * v1,
      -4 * m * u0 * v2, 4 * m * u1 * v2]))

/-- The test `det / m >= 1`.  For `m = 0` the quotient is an infinity whose sign depends on the
sign of the zero; `z` is the outcome then.  (src/sz_compress_cp_preserve_2d.cpp L135-137.) -/
noncomputable def flag (z : Bool) (det m : ℝ) : Bool :=
  if m = 0 then z else decide (1 ≤ det / m)

/-- `max_eb_to_keep_position_and_type` (src/sz_compress_cp_preserve_2d.cpp L123-170) with the
coefficients of `get_adjugate_matrix_for_position` as arguments; `z1 z2 z3` see `flag`. -/
noncomputable def offlineEb (z1 z2 z3 : Bool) (c0 c1 c2 c3 u0 u1 u2 v0 v1 v2 : ℝ) : ℝ :=
  let u0v1 := u0 * v1
  let u1v0 := u1 * v0
  let u0v2 := u0 * v2
  let u2v0 := u2 * v0
  let u1v2 := u1 * v2
  let u2v1 := u2 * v1
  let det := u0v1 - u1v0 + u1v2 - u2v1 + u2v0 - u0v2
  if det = 0 then 0
  else
    let f1 := flag z1 det (u2v0 - u0v2)
    let f2 := flag z2 det (u1v2 - u2v1)
    let f3 := flag z3 det (u0v1 - u1v0)
    let e1 := minf (keepSgn 2 [u2v0, -u0v2]) (keepSgn 2 [u0v1, -u1v0, u1v2, -u2v1])
    let e2 := minf (keepSgn 2 [u1v2, -u2v1]) (keepSgn 2 [u0v1, -u1v0, u2v0, -u0v2])
    let e3 := minf (keepSgn 2 [u0v1, -u1v0]) (keepSgn 2 [u1v2, -u2v1, u2v0, -u0v2])
    if f1 && f2 && f3 then
      minf (minf e1 e2) (minf e3 (keepDelta c0 c1 c2 c3 u0 u1 u2 v0 v1 v2))
    else
      let a := if f1 then 0 else maxf 0 e1
      let b := if f2 then a else maxf a e2
      if f3 then b else maxf b e3

/-! ### Sign of a sum of perturbed terms -/

/-- Each term of `l'` is the corresponding term of `l` times a factor in
`[(1-e)^d, (1+e)^d]`. -/
def Scaled (d : ℕ) (e : ℝ) : List ℝ → List ℝ → Prop :=
  List.Forall₂ fun x x' => ∃ f, x' = x * f ∧ (1 - e) ^ d ≤ f ∧ f ≤ (1 + e) ^ d

theorem posSum_nonneg (l : List ℝ) : 0 ≤ posSum l := by
  unfold posSum
  apply List.sum_nonneg
  simp only [List.mem_map]
  rintro x ⟨y, -, rfl⟩
  split <;> linarith

theorem negSum_nonneg (l : List ℝ) : 0 ≤ negSum l := by
  unfold negSum
  apply List.sum_nonneg
  simp only [List.mem_map]
  rintro x ⟨y, -, rfl⟩
  split <;> linarith

theorem sum_eq (l : List ℝ) : l.sum = posSum l - negSum l := by
  unfold posSum negSum
  induction l with
  | nil => simp
  | cons x l ih =>
    simp only [List.sum_cons, List.map_cons, ih]
    split <;> ring

theorem scaled_bounds {d : ℕ} {e : ℝ} {l l' : List ℝ} (h : Scaled d e l l') :
    posSum l * (1 - e) ^ d - negSum l * (1 + e) ^ d ≤ l'.sum ∧
      l'.sum ≤ posSum l * (1 + e) ^ d - negSum l * (1 - e) ^ d := by
  unfold posSum negSum
  induction h with
  | nil => simp
  | cons h1 _ ih =>
    obtain ⟨f, rfl, a, b⟩ := h1
    simp only [List.sum_cons, List.map_cons]
    split
    · constructor <;> nlinarith
    · constructor <;> nlinarith

theorem root_pow {d : ℕ} (hd : d ≠ 0) {x : ℝ} (hx : 0 ≤ x) : root d x ^ d = x := by
  unfold root
  rw [one_div]
  exact Real.rpow_inv_natCast_pow hx hd

theorem root_pos {d : ℕ} {x : ℝ} (hx : 0 < x) : 0 < root d x := Real.rpow_pos_of_pos hx _

theorem keepSgn_le_one (d : ℕ) (l : List ℝ) : keepSgn d l ≤ 1 := by
  unfold keepSgn
  split
  · exact le_rfl
  · rename_i h
    push Not at h
    have hp := root_pos (d := d) ((posSum_nonneg l).lt_of_ne h.2.symm)
    have hn := root_pos (d := d) ((negSum_nonneg l).lt_of_ne h.1.symm)
    rw [div_le_one (by linarith), abs_le]
    constructor <;> linarith

theorem pow_cmp {d : ℕ} (hd : d ≠ 0) {e P N : ℝ} (he : 0 ≤ e) (hP : 0 < P) (hN : 0 < N)
    (h : e < (root d P - root d N) / (root d P + root d N)) :
    N * (1 + e) ^ d < P * (1 - e) ^ d := by
  have p := root_pos (d := d) hP
  have n := root_pos (d := d) hN
  rw [lt_div_iff₀ (by linarith)] at h
  have key : root d N * (1 + e) < root d P * (1 - e) := by nlinarith
  have := pow_lt_pow_left₀ key (by positivity) hd
  rwa [mul_pow, mul_pow, root_pow hd hP.le, root_pow hd hN.le] at this

/-- The sign of the sum survives. -/
theorem keepSgn_spec {d : ℕ} (hd : d ≠ 0) {e : ℝ} {l l' : List ℝ} (he : 0 ≤ e)
    (h : e < keepSgn d l) (hs : Scaled d e l l') :
    SignType.sign l'.sum = SignType.sign l.sum ∧ (l.sum = 0 → posSum l = 0 ∧ negSum l = 0) := by
  have he1 : e < 1 := h.trans_le (keepSgn_le_one d l)
  obtain ⟨b1, b2⟩ := scaled_bounds hs
  have hPn := posSum_nonneg l
  have hNn := negSum_nonneg l
  have q1 : 0 < (1 - e) ^ d := pow_pos (by linarith) d
  have q2 : 0 < (1 + e) ^ d := pow_pos (by linarith) d
  rw [sum_eq l]
  have pos_case : 0 < posSum l * (1 - e) ^ d - negSum l * (1 + e) ^ d → 0 < posSum l - negSum l →
      SignType.sign l'.sum = SignType.sign (posSum l - negSum l) := fun g1 g2 => by
    rw [sign_pos g2, sign_pos (by linarith)]
  have neg_case : posSum l * (1 + e) ^ d - negSum l * (1 - e) ^ d < 0 → posSum l - negSum l < 0 →
      SignType.sign l'.sum = SignType.sign (posSum l - negSum l) := fun g1 g2 => by
    rw [sign_neg g2, sign_neg (by linarith)]
  unfold keepSgn at h
  split at h
  · rename_i hz
    rcases hPn.eq_or_lt with p0 | p0
    · rcases hNn.eq_or_lt with n0 | n0
      · refine ⟨?_, fun _ => ⟨p0.symm, n0.symm⟩⟩
        rw [← p0, ← n0] at b1 b2 ⊢
        simp only [zero_mul, sub_self] at b1 b2 ⊢
        rw [le_antisymm b2 b1]
      · refine ⟨neg_case ?_ ?_, fun h0 => by linarith⟩
        · rw [← p0]; nlinarith
        · linarith
    · have n0 : negSum l = 0 := hz.resolve_right p0.ne'
      refine ⟨pos_case ?_ ?_, fun h0 => by linarith⟩
      · rw [n0]; nlinarith
      · linarith
  · rename_i hz
    push Not at hz
    have p0 := hPn.lt_of_ne hz.2.symm
    have n0 := hNn.lt_of_ne hz.1.symm
    have rp := root_pos (d := d) p0
    have rn := root_pos (d := d) n0
    rcases lt_trichotomy (root d (posSum l)) (root d (negSum l)) with c | c | c
    · rw [abs_of_neg (by linarith), neg_sub, add_comm] at h
      have k := pow_cmp hd he n0 p0 h
      have k0 : posSum l < negSum l := by
        have := pow_lt_pow_left₀ c rp.le hd
        rwa [root_pow hd hPn, root_pow hd hNn] at this
      exact ⟨neg_case (by linarith) (by linarith), fun h0 => by linarith⟩
    · rw [c, sub_self, abs_zero, zero_div] at h
      linarith
    · rw [abs_of_pos (by linarith)] at h
      have k := pow_cmp hd he p0 n0 h
      have k0 : negSum l < posSum l := by
        have := pow_lt_pow_left₀ c rn.le hd
        rwa [root_pow hd hPn, root_pow hd hNn] at this
      exact ⟨pos_case (by linarith) (by linarith), fun h0 => by linarith⟩

/-- A sum whose positive and negative parts vanish has only zero terms. -/
theorem all_zero {l : List ℝ} (hp : posSum l = 0) (hn : negSum l = 0) : ∀ x ∈ l, x = 0 := by
  unfold posSum at hp
  unfold negSum at hn
  intro x hx
  have a := List.all_zero_of_le_zero_le_of_sum_eq_zero (l := l.map fun x => if 0 ≤ x then x else 0)
    (by simp only [List.mem_map]; rintro x ⟨y, -, rfl⟩; split <;> linarith) hp
    (List.mem_map.2 ⟨x, hx, rfl⟩)
  have b := List.all_zero_of_le_zero_le_of_sum_eq_zero (l := l.map fun x => if 0 ≤ x then 0 else -x)
    (by simp only [List.mem_map]; rintro x ⟨y, -, rfl⟩; split <;> linarith) hn
    (List.mem_map.2 ⟨x, hx, rfl⟩)
  split at a
  · exact a
  · rename_i h0
    rw [if_neg h0] at b
    linarith

/-! ### Perturbations -/

/-- `x'` is `x` itself or differs from it by a relative error strictly below `eb`. -/
def Near (eb x x' : ℝ) : Prop := x' = x ∨ |x' - x| < eb * |x|

/-- `x'` is `x` times a factor within `e` of one. -/
def Pert (e x x' : ℝ) : Prop := ∃ f, x' = x * f ∧ 1 - e ≤ f ∧ f ≤ 1 + e

theorem Pert.mono {e e' x x' : ℝ} (h : Pert e x x') (he : e ≤ e') : Pert e' x x' := by
  obtain ⟨f, h1, h2, h3⟩ := h
  exact ⟨f, h1, by linarith, by linarith⟩

theorem near_pert {eb x x' : ℝ} (h : Near eb x x') (hb : 0 < eb) :
    ∃ e, 0 ≤ e ∧ e < eb ∧ Pert e x x' := by
  rcases h with rfl | h
  · exact ⟨0, le_rfl, hb, 1, by ring, by linarith, by linarith⟩
  · have hx : 0 < |x| := by
      rcases (abs_nonneg x).eq_or_lt with h0 | h0
      · rw [← h0, mul_zero] at h
        exact absurd h (not_lt.2 (abs_nonneg _))
      · exact h0
    have hx0 : x ≠ 0 := abs_pos.1 hx
    refine ⟨|x' - x| / |x|, by positivity, by rwa [div_lt_iff₀ hx], x' / x, ?_, ?_, ?_⟩
    · field_simp
    · have : |x' / x - 1| ≤ |x' - x| / |x| := by
        rw [show x' / x - 1 = (x' - x) / x by field_simp, abs_div]
      have := (abs_le.1 this).1
      linarith
    · have : |x' / x - 1| ≤ |x' - x| / |x| := by
        rw [show x' / x - 1 = (x' - x) / x by field_simp, abs_div]
      have := (abs_le.1 this).2
      linarith

theorem near_common {eb : ℝ} {l : List (ℝ × ℝ)} (h : ∀ p ∈ l, Near eb p.1 p.2) (hb : 0 < eb) :
    ∃ e, 0 ≤ e ∧ e < eb ∧ ∀ p ∈ l, Pert e p.1 p.2 := by
  induction l with
  | nil => exact ⟨0, le_rfl, hb, by simp⟩
  | cons p l ih =>
    obtain ⟨e1, a1, a2, a3⟩ := near_pert (h p (by simp)) hb
    obtain ⟨e2, b1, b2, b3⟩ := ih (fun q hq => h q (by simp [hq]))
    refine ⟨max e1 e2, a1.trans (le_max_left _ _), max_lt a2 b2, fun q hq => ?_⟩
    rcases List.mem_cons.1 hq with rfl | hq
    · exact a3.mono (le_max_left _ _)
    · exact (b3 q hq).mono (le_max_right _ _)

theorem near_nonpos {eb x x' : ℝ} (h : Near eb x x') (hb : eb ≤ 0) : x' = x := by
  rcases h with h | h
  · exact h
  · have := mul_nonpos_of_nonpos_of_nonneg hb (abs_nonneg x)
    exact absurd (h.trans_le this) (not_lt.2 (abs_nonneg _))

section
variable {e : ℝ}

theorem sc1 {x x' : ℝ} (h : Pert e x x') (k : ℝ) :
    ∃ f, k * x' = k * x * f ∧ (1 - e) ^ 1 ≤ f ∧ f ≤ (1 + e) ^ 1 := by
  obtain ⟨f, rfl, h2, h3⟩ := h
  exact ⟨f, by ring, by simpa using h2, by simpa using h3⟩

theorem sc2 {x x' y y' : ℝ} (he0 : 0 ≤ e) (he : e < 1) (h : Pert e x x') (h' : Pert e y y')
    (k : ℝ) {t t' : ℝ} (ht : t = k * (x * y)) (ht' : t' = k * (x' * y')) :
    ∃ f, t' = t * f ∧ (1 - e) ^ 2 ≤ f ∧ f ≤ (1 + e) ^ 2 := by
  obtain ⟨f, rfl, h2, h3⟩ := h
  obtain ⟨g, rfl, k2, k3⟩ := h'
  refine ⟨f * g, by rw [ht, ht']; ring, ?_, ?_⟩
  · rw [pow_two]; exact mul_le_mul h2 k2 (by linarith) (by linarith)
  · rw [pow_two]; exact mul_le_mul h3 k3 (by linarith) (by linarith)

end

theorem Pert.sign {e x x' : ℝ} (he : e < 1) (h : Pert e x x') :
    SignType.sign x' = SignType.sign x := by
  obtain ⟨f, rfl, h2, -⟩ := h
  rw [sign_mul, sign_pos (show 0 < f by linarith), mul_one]

theorem Pert.zero {e x' : ℝ} (h : Pert e 0 x') : x' = 0 := by
  obtain ⟨f, rfl, -⟩ := h
  ring

theorem Pert.ne_zero {e x x' : ℝ} (he : e < 1) (h : Pert e x x') (hx : x ≠ 0) : x' ≠ 0 := by
  obtain ⟨f, rfl, h2, -⟩ := h
  exact mul_ne_zero hx (by linarith)

/-! ### Critical points -/

/-- A minor opposite to the sum of the two others excludes a critical point. -/
theorem no_cp_opposite {u0 v0 u1 v1 u2 v2 : ℝ}
    (h : (u2 * v0 - u0 * v2) * ((u0 * v1 - u1 * v0) + (u1 * v2 - u2 * v1)) < 0) :
    ¬ HasCP (u0, v0) (u1, v1) (u2, v2) := by
  rintro ⟨a, b, c, ha, hb, hc, hs, e1, e2⟩
  simp only at e1 e2
  set M := (u2 * v0 - u0 * v2) + ((u0 * v1 - u1 * v0) + (u1 * v2 - u2 * v1)) with hM
  have hc' : c = 1 - a - b := by linarith
  have k0 : b * M = u2 * v0 - u0 * v2 := by
    rw [hM]; subst hc'
    linear_combination (v2 - v0) * e1 - (u2 - u0) * e2
  have k1 : (u0 * v1 - u1 * v0) + (u1 * v2 - u2 * v1) = (1 - b) * M := by linarith
  rw [← k0, k1] at h
  have : 0 ≤ b * (1 - b) * (M * M) :=
    mul_nonneg (mul_nonneg hb (by linarith)) (mul_self_nonneg M)
  nlinarith

/-- Critical points of a triangle with two vectors on one axis. -/
theorem cp_axis {u1 v0 v1 v2 : ℝ} (h1 : u1 ≠ 0) :
    HasCP (0, v0) (u1, v1) (0, v2) ↔ v0 * v2 ≤ 0 := by
  constructor
  · rintro ⟨a, b, c, ha, hb, hc, hs, e1, e2⟩
    simp only [mul_zero, zero_add, add_zero, mul_eq_zero, h1, or_false] at e1 e2
    subst e1
    by_contra hlt
    push Not at hlt
    have : (a * v0 + c * v2) = 0 := by linarith
    rcases pos_cases hlt with ⟨p, q⟩ | ⟨p, q⟩
    · rcases ha.eq_or_lt with h | h
      · have : c = 1 := by linarith
        subst this; nlinarith
      · nlinarith [mul_pos h p, mul_nonneg hc q.le]
    · rcases ha.eq_or_lt with h | h
      · have : c = 1 := by linarith
        subst this; nlinarith
      · nlinarith [mul_neg_of_pos_of_neg h p, mul_nonpos_of_nonneg_of_nonpos hc q.le]
  · intro h
    by_cases hd : v2 - v0 = 0
    · have : v2 = v0 := by linarith
      subst this
      have : v2 = 0 := by nlinarith [mul_self_nonneg v2]
      subst this
      exact ⟨1, 0, 0, by norm_num, by norm_num, by norm_num, by norm_num, by simp, by simp⟩
    · have hp : 0 < (v2 - v0) * (v2 - v0) := mul_self_pos.2 hd
      refine ⟨v2 / (v2 - v0), 0, -v0 / (v2 - v0), ?_, le_rfl, ?_, ?_, by simp, ?_⟩
      · rw [← mul_div_mul_right _ _ hd]
        exact div_nonneg (by nlinarith [mul_self_nonneg v2]) hp.le
      · rw [← mul_div_mul_right _ _ hd]
        exact div_nonneg (by nlinarith [mul_self_nonneg v0]) hp.le
      · field_simp; ring
      · simp only; field_simp; ring

theorem HasCP.swapUV {u0 v0 u1 v1 u2 v2 : ℝ} (h : HasCP (u0, v0) (u1, v1) (u2, v2)) :
    HasCP (v0, u0) (v1, u1) (v2, u2) := by
  obtain ⟨a, b, c, ha, hb, hc, hs, e1, e2⟩ := h
  exact ⟨a, b, c, ha, hb, hc, hs, e2, e1⟩

theorem sign_mul_nonpos {a b a' b' : ℝ} (h1 : SignType.sign a' = SignType.sign a)
    (h2 : SignType.sign b' = SignType.sign b) : a' * b' ≤ 0 ↔ a * b ≤ 0 := by
  rw [← sign_nonpos_iff, ← sign_nonpos_iff (a := a * b), sign_mul, sign_mul, h1, h2]

/-- If both products of a minor vanish, critical points persist whatever the bound. -/
theorem cp_zero_minor {e u0 v0 u1 v1 u2 v2 u0' v0' u1' v1' u2' v2' : ℝ} (he : e < 1)
    (hu0 : Pert e u0 u0') (hu1 : Pert e u1 u1') (hu2 : Pert e u2 u2')
    (hv0 : Pert e v0 v0') (hv1 : Pert e v1 v1') (hv2 : Pert e v2 v2')
    (hd : (u0 * v1 - u1 * v0) + (u1 * v2 - u2 * v1) ≠ 0)
    (h1 : u2 * v0 = 0) (h2 : u0 * v2 = 0) :
    HasCP (u0', v0') (u1', v1') (u2', v2') ↔ HasCP (u0, v0) (u1, v1) (u2, v2) := by
  have at2 : ∀ {p q : ℝ × ℝ}, HasCP p q (0, 0) := fun {p q} =>
    ⟨0, 0, 1, by norm_num, by norm_num, by norm_num, by norm_num, by simp, by simp⟩
  have at0 : ∀ {p q : ℝ × ℝ}, HasCP (0, 0) p q := fun {p q} =>
    ⟨1, 0, 0, by norm_num, by norm_num, by norm_num, by norm_num, by simp, by simp⟩
  rcases mul_eq_zero.1 h1 with a | a <;> rcases mul_eq_zero.1 h2 with b | b
  · subst a b
    rw [hu0.zero, hu2.zero]
    have hu : u1 ≠ 0 := by rintro rfl; simp at hd
    rw [cp_axis hu, cp_axis (hu1.ne_zero he hu)]
    exact sign_mul_nonpos (hv0.sign he) (hv2.sign he)
  · subst a b
    rw [hu2.zero, hv2.zero]
    exact ⟨fun _ => at2, fun _ => at2⟩
  · subst a b
    rw [hu0.zero, hv0.zero]
    exact ⟨fun _ => at0, fun _ => at0⟩
  · subst a b
    rw [hv0.zero, hv2.zero]
    have hu : v1 ≠ 0 := by rintro rfl; simp at hd
    have key : ∀ {p q r s : ℝ}, HasCP (p, 0) (q, r) (s, 0) ↔ HasCP (0, p) (r, q) (0, s) :=
      fun {p q r s} => ⟨HasCP.swapUV, HasCP.swapUV⟩
    rw [key, key, cp_axis hu, cp_axis (hv1.ne_zero he hu)]
    exact sign_mul_nonpos (hu0.sign he) (hu2.sign he)

theorem sign_lt_zero_iff {a b a' b' : ℝ} (h1 : SignType.sign a' = SignType.sign a)
    (h2 : SignType.sign b' = SignType.sign b) (h : a * b < 0) : a' * b' < 0 := by
  rw [← sign_eq_neg_one_iff] at h ⊢
  rw [sign_mul, h1, h2, ← sign_mul, h]

theorem nonneg_of_sign {a a' : ℝ} (h : SignType.sign a' = SignType.sign a) (ha : 0 ≤ a) :
    0 ≤ a' := by rw [← sign_nonneg_iff, h]; exact sign_nonneg_iff.2 ha

theorem nonpos_of_sign {a a' : ℝ} (h : SignType.sign a' = SignType.sign a) (ha : a ≤ 0) :
    a' ≤ 0 := by rw [← sign_nonpos_iff, h]; exact sign_nonpos_iff.2 ha

theorem ne_zero_of_sign {a a' : ℝ} (h : SignType.sign a' = SignType.sign a) (ha : a ≠ 0) :
    a' ≠ 0 := by rw [← sign_ne_zero, h]; exact sign_ne_zero.2 ha

theorem mul_pos_of_sign {a a' : ℝ} (h : SignType.sign a' = SignType.sign a) (ha : a ≠ 0) :
    0 < a * a' := by
  rcases lt_or_gt_of_ne ha with n | p
  · rw [sign_neg n, sign_eq_neg_one_iff] at h
    exact mul_pos_of_neg_of_neg n h
  · rw [sign_pos p, sign_eq_one_iff] at h
    exact mul_pos p h

/-- One of the three branches for triangles without critical point. -/
theorem branch {e u0 v0 u1 v1 u2 v2 u0' v0' u1' v1' u2' v2' det : ℝ} {z : Bool}
    (he0 : 0 ≤ e)
    (hu0 : Pert e u0 u0') (hu1 : Pert e u1 u1') (hu2 : Pert e u2 u2')
    (hv0 : Pert e v0 v0') (hv1 : Pert e v1 v1') (hv2 : Pert e v2 v2')
    (hdet : det = (u2 * v0 - u0 * v2) + ((u0 * v1 - u1 * v0) + (u1 * v2 - u2 * v1)))
    (hd : det ≠ 0) (hf : flag z det (u2 * v0 - u0 * v2) = false)
    (h2 : e < keepSgn 2 [u2 * v0, -(u0 * v2)])
    (h4 : SignType.sign ((u0' * v1' - u1' * v0') + (u1' * v2' - u2' * v1')) =
      SignType.sign ((u0 * v1 - u1 * v0) + (u1 * v2 - u2 * v1))) :
    HasCP (u0', v0') (u1', v1') (u2', v2') ↔ HasCP (u0, v0) (u1, v1) (u2, v2) := by
  have he : e < 1 := h2.trans_le (keepSgn_le_one _ _)
  obtain ⟨s1, s2⟩ := keepSgn_spec (by norm_num) he0 h2
    (l' := [u2' * v0', -(u0' * v2')]) (by
      refine .cons (sc2 he0 he hu2 hv0 1 (by ring) (by ring)) (.cons
        (sc2 he0 he hu0 hv2 (-1) (by ring) (by ring)) .nil))
  have s3 : SignType.sign (u2' * v0' - u0' * v2') = SignType.sign (u2 * v0 - u0 * v2) := by
    simpa [sub_eq_add_neg] using s1
  unfold flag at hf
  by_cases hm : u2 * v0 - u0 * v2 = 0
  · obtain ⟨a, b⟩ := s2 (by simp only [List.sum_cons, List.sum_nil]; linarith)
    have hz := all_zero a b
    have z1 := hz (u2 * v0) (by simp)
    have z2 := hz (-(u0 * v2)) (by simp)
    exact cp_zero_minor he hu0 hu1 hu2 hv0 hv1 hv2 (by rw [hdet, hm, zero_add] at hd; exact hd)
      z1 (by linarith)
  · rw [if_neg hm] at hf
    have hlt : det / (u2 * v0 - u0 * v2) < 1 := by simpa using hf
    have hopp : (u2 * v0 - u0 * v2) * ((u0 * v1 - u1 * v0) + (u1 * v2 - u2 * v1)) < 0 := by
      have hp : 0 < (u2 * v0 - u0 * v2) * (u2 * v0 - u0 * v2) := mul_self_pos.2 hm
      have h5 : det / (u2 * v0 - u0 * v2) * ((u2 * v0 - u0 * v2) * (u2 * v0 - u0 * v2)) =
          det * (u2 * v0 - u0 * v2) := by field_simp
      have h6 := mul_lt_mul_of_pos_right hlt hp
      rw [h5, hdet] at h6
      nlinarith
    exact ⟨fun h => absurd h (no_cp_opposite (sign_lt_zero_iff s3 h4 hopp)),
      fun h => absurd h (no_cp_opposite hopp)⟩

theorem flag_true {z : Bool} {det m : ℝ} (h : flag z det m = true) : 0 ≤ m * det := by
  unfold flag at h
  by_cases hm : m = 0
  · simp [hm]
  · rw [if_neg hm] at h
    have hle : 1 ≤ det / m := by simpa using h
    have hp : 0 < m * m := mul_self_pos.2 hm
    have h5 : det / m * (m * m) = m * det := by field_simp
    nlinarith

/-- Signs of the minors decide. -/
theorem cp_of_signs {u0 v0 u1 v1 u2 v2 M0 M1 M2 : ℝ} (h0 : M0 = u2 * v0 - u0 * v2)
    (h1 : M1 = u1 * v2 - u2 * v1) (h2 : M2 = u0 * v1 - u1 * v0)
    (h : (0 ≤ M0 ∧ 0 ≤ M1 ∧ 0 ≤ M2) ∨ (M0 ≤ 0 ∧ M1 ≤ 0 ∧ M2 ≤ 0))
    (hne : M0 ≠ 0 ∨ M1 ≠ 0 ∨ M2 ≠ 0) :
    HasCP (u0, v0) (u1, v1) (u2, v2) := by
  have hM : M0 + M1 + M2 ≠ 0 := by
    rcases h with ⟨a, b, c⟩ | ⟨a, b, c⟩
    · intro h
      rcases hne with x | x | x <;> exact x (by linarith)
    · intro h
      rcases hne with x | x | x <;> exact x (by linarith)
  rw [hasCP_iff h0 h1 h2 rfl hM]
  rcases h with ⟨a, b, c⟩ | ⟨a, b, c⟩
  · exact ⟨mul_nonneg a (by linarith), mul_nonneg b (by linarith), mul_nonneg c (by linarith)⟩
  · exact ⟨mul_nonneg_of_nonpos_of_nonpos a (by linarith),
      mul_nonneg_of_nonpos_of_nonpos b (by linarith), mul_nonneg_of_nonpos_of_nonpos c (by linarith)⟩

theorem lt_maxf {e a b : ℝ} (h : e < maxf a b) : e < a ∨ e < b := by
  unfold maxf at h
  split at h
  · exact Or.inl h
  · exact Or.inr h

theorem lt_minf {e a b : ℝ} (h : e < minf a b) : e < a ∧ e < b :=
  ⟨h.trans_le (minf_le_left a b), h.trans_le (minf_le_right a b)⟩

theorem keepDelta_le_one (c0 c1 c2 c3 u0 u1 u2 v0 v1 v2 : ℝ) :
    keepDelta c0 c1 c2 c3 u0 u1 u2 v0 v1 v2 ≤ 1 := by
  unfold keepDelta
  simp only
  split
  · norm_num
  · split
    · exact (minf_le_left _ _).trans (keepSgn_le_one _ _)
    · exact (minf_le_right _ _).trans (keepSgn_le_one _ _)

section
variable {e c0 c1 c2 c3 u0 v0 u1 v1 u2 v2 u0' v0' u1' v1' u2' v2' : ℝ} {z1 z2 z3 : Bool}

/-- Simultaneous perturbation below the bound neither creates nor removes a critical point. -/
theorem position_kept (he0 : 0 ≤ e)
    (h : e < offlineEb z1 z2 z3 c0 c1 c2 c3 u0 u1 u2 v0 v1 v2)
    (hu0 : Pert e u0 u0') (hu1 : Pert e u1 u1') (hu2 : Pert e u2 u2')
    (hv0 : Pert e v0 v0') (hv1 : Pert e v1 v1') (hv2 : Pert e v2 v2') :
    HasCP (u0', v0') (u1', v1') (u2', v2') ↔ HasCP (u0, v0) (u1, v1) (u2, v2) := by
  unfold offlineEb at h
  simp only at h
  by_cases hd : u0 * v1 - u1 * v0 + u1 * v2 - u2 * v1 + u2 * v0 - u0 * v2 = 0
  · rw [if_pos hd] at h
    linarith
  rw [if_neg hd] at h
  -- signs kept by the sums of four products
  have four : ∀ {a0 a1 a2 b0 b1 b2 a0' a1' a2' b0' b1' b2' : ℝ}, Pert e a0 a0' → Pert e a1 a1' →
      Pert e a2 a2' → Pert e b0 b0' → Pert e b1 b1' → Pert e b2 b2' → ∀ {l : List ℝ},
      l.Perm [a0 * b1, -(a1 * b0), a1 * b2, -(a2 * b1)] →
      e < keepSgn 2 l →
      SignType.sign ((a0' * b1' - a1' * b0') + (a1' * b2' - a2' * b1')) =
        SignType.sign ((a0 * b1 - a1 * b0) + (a1 * b2 - a2 * b1)) := by
    intro a0 a1 a2 b0 b1 b2 a0' a1' a2' b0' b1' b2' p0 p1 p2 q0 q1 q2 l hp hk
    have he : e < 1 := hk.trans_le (keepSgn_le_one _ _)
    have hk' : e < keepSgn 2 [a0 * b1, -(a1 * b0), a1 * b2, -(a2 * b1)] := by
      unfold keepSgn posSum negSum at hk ⊢
      rwa [(hp.map _).sum_eq, (hp.map _).sum_eq] at hk
    have := (keepSgn_spec (by norm_num) he0 hk'
      (l' := [a0' * b1', -(a1' * b0'), a1' * b2', -(a2' * b1')]) (by
        refine .cons (sc2 he0 he p0 q1 1 (by ring) (by ring)) (.cons
          (sc2 he0 he p1 q0 (-1) (by ring) (by ring)) (.cons
          (sc2 he0 he p1 q2 1 (by ring) (by ring)) (.cons
          (sc2 he0 he p2 q1 (-1) (by ring) (by ring)) .nil))))).1
    have e1 : ∀ {p q r s : ℝ}, [p, -q, r, -s].sum = (p - q) + (r - s) := by
      intro p q r s; simp only [List.sum_cons, List.sum_nil]; ring
    rwa [e1, e1] at this
  have perm1 : ∀ {p0 p1 p2 : ℝ × ℝ}, HasCP p2 p0 p1 ↔ HasCP p0 p1 p2 := fun {p0 p1 p2} =>
    ⟨HasCP.perm ((List.perm_append_comm (l₁ := [p2]) (l₂ := [p0, p1]))),
      HasCP.perm ((List.perm_append_comm (l₁ := [p0, p1]) (l₂ := [p2])))⟩
  have perm2 : ∀ {p0 p1 p2 : ℝ × ℝ}, HasCP p1 p2 p0 ↔ HasCP p0 p1 p2 := fun {p0 p1 p2} =>
    ⟨HasCP.perm ((List.perm_append_comm (l₁ := [p1, p2]) (l₂ := [p0]))),
      HasCP.perm ((List.perm_append_comm (l₁ := [p0]) (l₂ := [p1, p2])))⟩
  -- the three branches
  have b1 : flag z1 (u0 * v1 - u1 * v0 + u1 * v2 - u2 * v1 + u2 * v0 - u0 * v2)
        (u2 * v0 - u0 * v2) = false →
      e < minf (keepSgn 2 [u2 * v0, -(u0 * v2)])
        (keepSgn 2 [u0 * v1, -(u1 * v0), u1 * v2, -(u2 * v1)]) →
      (HasCP (u0', v0') (u1', v1') (u2', v2') ↔ HasCP (u0, v0) (u1, v1) (u2, v2)) := by
    intro hf hk
    obtain ⟨k1, k2⟩ := lt_minf hk
    exact branch he0 hu0 hu1 hu2 hv0 hv1 hv2 (by ring) hd hf k1
      (four hu0 hu1 hu2 hv0 hv1 hv2 (List.Perm.refl _) k2)
  have b2 : flag z2 (u0 * v1 - u1 * v0 + u1 * v2 - u2 * v1 + u2 * v0 - u0 * v2)
        (u1 * v2 - u2 * v1) = false →
      e < minf (keepSgn 2 [u1 * v2, -(u2 * v1)])
        (keepSgn 2 [u0 * v1, -(u1 * v0), u2 * v0, -(u0 * v2)]) →
      (HasCP (u0', v0') (u1', v1') (u2', v2') ↔ HasCP (u0, v0) (u1, v1) (u2, v2)) := by
    intro hf hk
    obtain ⟨k1, k2⟩ := lt_minf hk
    have := branch he0 hu2 hu0 hu1 hv2 hv0 hv1 (by ring) hd hf k1
      (four hu2 hu0 hu1 hv2 hv0 hv1
        (List.perm_append_comm (l₁ := [u0 * v1, -(u1 * v0)])) k2)
    exact perm1.symm.trans (this.trans perm1)
  have b3 : flag z3 (u0 * v1 - u1 * v0 + u1 * v2 - u2 * v1 + u2 * v0 - u0 * v2)
        (u0 * v1 - u1 * v0) = false →
      e < minf (keepSgn 2 [u0 * v1, -(u1 * v0)])
        (keepSgn 2 [u1 * v2, -(u2 * v1), u2 * v0, -(u0 * v2)]) →
      (HasCP (u0', v0') (u1', v1') (u2', v2') ↔ HasCP (u0, v0) (u1, v1) (u2, v2)) := by
    intro hf hk
    obtain ⟨k1, k2⟩ := lt_minf hk
    have := branch he0 hu1 hu2 hu0 hv1 hv2 hv0 (by ring) hd hf k1
      (four hu1 hu2 hu0 hv1 hv2 hv0 (List.Perm.refl _) k2)
    exact perm2.symm.trans (this.trans perm2)
  split at h
  · -- critical point
    rename_i hf
    simp only [Bool.and_eq_true] at hf
    obtain ⟨⟨f1, f2⟩, f3⟩ := hf
    obtain ⟨h12, h34⟩ := lt_minf h
    obtain ⟨h1, h2⟩ := lt_minf h12
    obtain ⟨h3, -⟩ := lt_minf h34
    have two : ∀ {p q r s p' q' r' s' : ℝ}, Pert e p p' → Pert e q q' → Pert e r r' → Pert e s s' →
        e < keepSgn 2 [p * q, -(r * s)] →
        SignType.sign (p' * q' - r' * s') = SignType.sign (p * q - r * s) := by
      intro p q r s p' q' r' s' hp hq hr hs hk
      have he : e < 1 := hk.trans_le (keepSgn_le_one _ _)
      have := (keepSgn_spec (by norm_num) he0 hk (l' := [p' * q', -(r' * s')]) (by
        refine .cons (sc2 he0 he hp hq 1 (by ring) (by ring)) (.cons
          (sc2 he0 he hr hs (-1) (by ring) (by ring)) .nil))).1
      simpa [sub_eq_add_neg] using this
    have s1 := two hu2 hv0 hu0 hv2 (lt_minf h1).1
    have s2 := two hu1 hv2 hu2 hv1 (lt_minf h2).1
    have s3 := two hu0 hv1 hu1 hv0 (lt_minf h3).1
    have g1 := flag_true f1
    have g2 := flag_true f2
    have g3 := flag_true f3
    set det := u0 * v1 - u1 * v0 + u1 * v2 - u2 * v1 + u2 * v0 - u0 * v2 with hdet
    set M0 := u2 * v0 - u0 * v2 with e0
    set M1 := u1 * v2 - u2 * v1 with e1
    set M2 := u0 * v1 - u1 * v0 with e2
    have hsum : det = M0 + M1 + M2 := by rw [hdet, e0, e1, e2]; ring
    have hne : M0 ≠ 0 ∨ M1 ≠ 0 ∨ M2 ≠ 0 := by
      by_contra hc
      push Not at hc
      exact hd (by rw [hsum, hc.1, hc.2.1, hc.2.2]; norm_num)
    have hsg : (0 ≤ M0 ∧ 0 ≤ M1 ∧ 0 ≤ M2) ∨ (M0 ≤ 0 ∧ M1 ≤ 0 ∧ M2 ≤ 0) := by
      rcases lt_or_gt_of_ne hd with hn | hp
      · exact Or.inr ⟨by nlinarith, by nlinarith, by nlinarith⟩
      · exact Or.inl ⟨by nlinarith, by nlinarith, by nlinarith⟩
    refine ⟨fun _ => cp_of_signs e0 e1 e2 hsg hne, fun _ => cp_of_signs rfl rfl rfl ?_ ?_⟩
    · rcases hsg with ⟨a, b, c⟩ | ⟨a, b, c⟩
      · exact Or.inl ⟨nonneg_of_sign s1 a, nonneg_of_sign s2 b, nonneg_of_sign s3 c⟩
      · exact Or.inr ⟨nonpos_of_sign s1 a, nonpos_of_sign s2 b, nonpos_of_sign s3 c⟩
    · rcases hne with a | a | a
      · exact Or.inl (ne_zero_of_sign s1 a)
      · exact Or.inr (Or.inl (ne_zero_of_sign s2 a))
      · exact Or.inr (Or.inr (ne_zero_of_sign s3 a))
  · -- no critical point according to the flags
    have fin : ∀ {x : ℝ}, e < (if flag z1 (u0 * v1 - u1 * v0 + u1 * v2 - u2 * v1 + u2 * v0 -
        u0 * v2) (u2 * v0 - u0 * v2) = true then (0 : ℝ) else maxf 0 x) →
        flag z1 (u0 * v1 - u1 * v0 + u1 * v2 - u2 * v1 + u2 * v0 -
          u0 * v2) (u2 * v0 - u0 * v2) = false ∧ e < x := by
      intro x hx
      split at hx
      · linarith
      · rename_i hf
        rcases lt_maxf hx with h0 | h0
        · linarith
        · exact ⟨by simpa using hf, h0⟩
    split at h
    · split at h
      · obtain ⟨hf, hk⟩ := fin h
        exact b1 hf hk
      · rename_i hf2
        rcases lt_maxf h with h | h
        · obtain ⟨hf, hk⟩ := fin h
          exact b1 hf hk
        · exact b2 (by simpa using hf2) h
    · rename_i hf3
      rcases lt_maxf h with h | h
      · split at h
        · obtain ⟨hf, hk⟩ := fin h
          exact b1 hf hk
        · rename_i hf2
          rcases lt_maxf h with h | h
          · obtain ⟨hf, hk⟩ := fin h
            exact b1 hf hk
          · exact b2 (by simpa using hf2) h
      · exact b3 (by simpa using hf3) h

/-- Perturbation below the second part of the bound keeps the signs of trace, determinant and
discriminant of the Jacobian. -/
theorem type_kept (he0 : 0 ≤ e) (h : e < keepDelta c0 c1 c2 c3 u0 u1 u2 v0 v1 v2)
    (hu0 : Pert e u0 u0') (hu1 : Pert e u1 u1') (hu2 : Pert e u2 u2')
    (hv0 : Pert e v0 v0') (hv1 : Pert e v1 v1') (hv2 : Pert e v2 v2') :
    0 < detC c0 c1 c2 c3 u0 u1 u2 v0 v1 v2 * detC c0 c1 c2 c3 u0' u1' u2' v0' v1' v2' ∧
    SignType.sign (trC c0 c1 c2 c3 u0' u1' u2' v0' v1' v2') =
      SignType.sign (trC c0 c1 c2 c3 u0 u1 u2 v0 v1 v2) ∧
    0 < (trC c0 c1 c2 c3 u0 u1 u2 v0 v1 v2 ^ 2 - 4 * detC c0 c1 c2 c3 u0 u1 u2 v0 v1 v2) *
      (trC c0 c1 c2 c3 u0' u1' u2' v0' v1' v2' ^ 2 -
        4 * detC c0 c1 c2 c3 u0' u1' u2' v0' v1' v2') := by
  have he : e < 1 := h.trans_le (keepDelta_le_one ..)
  have hC : ∀ a0 a1 a2 b0 b1 b2 : ℝ, -(c1 * c2 - c0 * c3) * (a0 * b1 - a0 * b2 + a1 * b2 -
      a1 * b0 + a2 * b0 - a2 * b1) = detC c0 c1 c2 c3 a0 a1 a2 b0 b1 b2 := by
    intro a0 a1 a2 b0 b1 b2; unfold detC; ring
  unfold keepDelta at h
  simp only [hC] at h
  by_cases h0 : detC c0 c1 c2 c3 u0 u1 u2 v0 v1 v2 = 0
  · rw [if_pos h0] at h; linarith
  rw [if_neg h0] at h
  have hTD : e < minf (keepSgn 1 [c0 * u0, c1 * u1, -(c0 + c1) * u2, c2 * v0, c3 * v1,
      -(c2 + c3) * v2]) (keepDet u0 u1 u2 v0 v1 v2) := by
    split at h
    · exact h
    · exact (lt_minf h).1
  obtain ⟨hT, hD⟩ := lt_minf hTD
  have sT : SignType.sign (trC c0 c1 c2 c3 u0' u1' u2' v0' v1' v2') =
      SignType.sign (trC c0 c1 c2 c3 u0 u1 u2 v0 v1 v2) := by
    have := (keepSgn_spec (by norm_num) he0 hT (l' := [c0 * u0', c1 * u1', -(c0 + c1) * u2',
      c2 * v0', c3 * v1', -(c2 + c3) * v2'])
      (.cons (sc1 hu0 _) (.cons (sc1 hu1 _) (.cons (sc1 hu2 _) (.cons (sc1 hv0 _)
        (.cons (sc1 hv1 _) (.cons (sc1 hv2 _) .nil))))))).1
    have e1 : ∀ a0 a1 a2 b0 b1 b2 : ℝ, [c0 * a0, c1 * a1, -(c0 + c1) * a2, c2 * b0, c3 * b1,
        -(c2 + c3) * b2].sum = trC c0 c1 c2 c3 a0 a1 a2 b0 b1 b2 := by
      intro a0 a1 a2 b0 b1 b2; simp only [List.sum_cons, List.sum_nil, trC]; ring
    rwa [e1, e1] at this
  have sD : SignType.sign (detC c0 c1 c2 c3 u0' u1' u2' v0' v1' v2') =
      SignType.sign (detC c0 c1 c2 c3 u0 u1 u2 v0 v1 v2) := by
    have := (keepSgn_spec (by norm_num) he0 hD (l' := [u0' * v1', -u0' * v2', u1' * v2',
        -u1' * v0', u2' * v0', -u2' * v1'])
      (.cons (sc2 he0 he hu0 hv1 1 (by ring) (by ring)) (.cons
        (sc2 he0 he hu0 hv2 (-1) (by ring) (by ring)) (.cons
        (sc2 he0 he hu1 hv2 1 (by ring) (by ring)) (.cons
        (sc2 he0 he hu1 hv0 (-1) (by ring) (by ring)) (.cons
        (sc2 he0 he hu2 hv0 1 (by ring) (by ring)) (.cons
        (sc2 he0 he hu2 hv1 (-1) (by ring) (by ring)) .nil))))))).1
    have e1 : ∀ a0 a1 a2 b0 b1 b2 : ℝ, detC c0 c1 c2 c3 a0 a1 a2 b0 b1 b2 =
        -(c1 * c2 - c0 * c3) * [a0 * b1, -a0 * b2, a1 * b2, -a1 * b0, a2 * b0, -a2 * b1].sum := by
      intro a0 a1 a2 b0 b1 b2; simp only [List.sum_cons, List.sum_nil, detC]; ring
    rw [e1, e1, sign_mul, sign_mul, this]
  refine ⟨mul_pos_of_sign sD h0, sT, ?_⟩
  split at h
  · rename_i hneg
    have : detC c0 c1 c2 c3 u0' u1' u2' v0' v1' v2' < 0 := by
      rw [sign_neg hneg, sign_eq_neg_one_iff] at sD; exact sD
    exact mul_pos (by nlinarith [sq_nonneg (trC c0 c1 c2 c3 u0 u1 u2 v0 v1 v2)])
      (by nlinarith [sq_nonneg (trC c0 c1 c2 c3 u0' u1' u2' v0' v1' v2')])
  · rename_i hnn
    have hpos : 0 < detC c0 c1 c2 c3 u0 u1 u2 v0 v1 v2 :=
      lt_of_le_of_ne (not_lt.1 hnn) (Ne.symm h0)
    have hQ := (lt_minf h).2
    set m := c1 * c2 - c0 * c3 with hm
    have e1 : ∀ a0 a1 a2 b0 b1 b2 : ℝ, (squares [c0 * a0, c1 * a1, -(c1 + c0) * a2, c2 * b0,
        c3 * b1, -(c3 + c2) * b2] ++ [-4 * m * a1 * b0, 4 * m * a2 * b0, 4 * m * a0 * b1,
        -4 * m * a2 * b1, -4 * m * a0 * b2, 4 * m * a1 * b2]).sum =
        trC c0 c1 c2 c3 a0 a1 a2 b0 b1 b2 ^ 2 - 4 * detC c0 c1 c2 c3 a0 a1 a2 b0 b1 b2 := by
      intro a0 a1 a2 b0 b1 b2
      simp only [squares, List.flatMap_cons, List.flatMap_nil, List.map_cons, List.map_nil,
        List.cons_append, List.nil_append, List.sum_cons, List.sum_nil, trC, detC, hm]
      ring
    have hcoef : List.Forall₂ (fun a a' => ∃ k x x', Pert e x x' ∧ a = k * x ∧ a' = k * x')
        [c0 * u0, c1 * u1, -(c1 + c0) * u2, c2 * v0, c3 * v1, -(c3 + c2) * v2]
        [c0 * u0', c1 * u1', -(c1 + c0) * u2', c2 * v0', c3 * v1', -(c3 + c2) * v2'] :=
      .cons ⟨_, _, _, hu0, rfl, rfl⟩ (.cons ⟨_, _, _, hu1, rfl, rfl⟩
        (.cons ⟨_, _, _, hu2, rfl, rfl⟩ (.cons ⟨_, _, _, hv0, rfl, rfl⟩
        (.cons ⟨_, _, _, hv1, rfl, rfl⟩ (.cons ⟨_, _, _, hv2, rfl, rfl⟩ .nil)))))
    have hsq : ∀ {L L' : List ℝ}, List.Forall₂ (fun a a' => ∃ k x x', Pert e x x' ∧ a = k * x ∧
        a' = k * x') L L' → Scaled 2 e (squares L) (squares L') := by
      intro L L' hL
      have row : ∀ {K K' : List ℝ} {a a' : ℝ}, (∃ k x x', Pert e x x' ∧ a = k * x ∧ a' = k * x') →
          List.Forall₂ (fun a a' => ∃ k x x', Pert e x x' ∧ a = k * x ∧ a' = k * x') K K' →
          Scaled 2 e (K.map fun b => a * b) (K'.map fun b => a' * b) := by
        rintro K K' a a' ⟨k, x, x', hx, rfl, rfl⟩ hK
        induction hK with
        | nil => exact .nil
        | cons hb _ ih =>
          obtain ⟨k2, y, y', hy, rfl, rfl⟩ := hb
          exact .cons (sc2 he0 he hx hy (k * k2) (by ring) (by ring)) ih
      have gen : ∀ {K K' : List ℝ}, List.Forall₂ (fun a a' => ∃ k x x', Pert e x x' ∧ a = k * x ∧
          a' = k * x') K K' → Scaled 2 e (K.flatMap fun a => L.map fun b => a * b)
            (K'.flatMap fun a => L'.map fun b => a * b) := by
        intro K K' hK
        induction hK with
        | nil => exact .nil
        | cons hb _ ih =>
          simp only [List.flatMap_cons]
          exact List.rel_append (row hb hL) ih
      exact gen hL
    have hsc : Scaled 2 e (squares [c0 * u0, c1 * u1, -(c1 + c0) * u2, c2 * v0,
        c3 * v1, -(c3 + c2) * v2] ++ [-4 * m * u1 * v0, 4 * m * u2 * v0, 4 * m * u0 * v1,
        -4 * m * u2 * v1, -4 * m * u0 * v2, 4 * m * u1 * v2])
        (squares [c0 * u0', c1 * u1', -(c1 + c0) * u2', c2 * v0',
        c3 * v1', -(c3 + c2) * v2'] ++ [-4 * m * u1' * v0', 4 * m * u2' * v0', 4 * m * u0' * v1',
        -4 * m * u2' * v1', -4 * m * u0' * v2', 4 * m * u1' * v2']) := by
      refine List.rel_append (hsq hcoef) ?_
      exact (.cons (sc2 he0 he hu1 hv0 (-4 * m) (by ring) (by ring)) (.cons
        (sc2 he0 he hu2 hv0 (4 * m) (by ring) (by ring)) (.cons
        (sc2 he0 he hu0 hv1 (4 * m) (by ring) (by ring)) (.cons
        (sc2 he0 he hu2 hv1 (-4 * m) (by ring) (by ring)) (.cons
        (sc2 he0 he hu0 hv2 (-4 * m) (by ring) (by ring)) (.cons
        (sc2 he0 he hu1 hv2 (4 * m) (by ring) (by ring)) .nil))))))
    obtain ⟨s1, s2⟩ := keepSgn_spec (by norm_num) he0 hQ hsc
    rw [e1, e1] at s1
    refine mul_pos_of_sign s1 fun hz => ?_
    rw [e1] at s2
    obtain ⟨p0, n0⟩ := s2 hz
    have hall := all_zero p0 n0
    have z1 := hall (-4 * m * u1 * v0) (by simp)
    have z2 := hall (4 * m * u2 * v0) (by simp)
    have z3 := hall (4 * m * u0 * v1) (by simp)
    have z4 := hall (-4 * m * u2 * v1) (by simp)
    have z5 := hall (-4 * m * u0 * v2) (by simp)
    have z6 := hall (4 * m * u1 * v2) (by simp)
    have : detC c0 c1 c2 c3 u0 u1 u2 v0 v1 v2 = 0 := by
      unfold detC; rw [← hm]; linarith
    linarith

end

end CpSZ.Offline2D
