import Verif.Bilinear.Model
import Mathlib.Analysis.Calculus.Deriv.Mul
/-
The bilinear mode in exact arithmetic: what the extraction computes, and the errors of a run.
-/

namespace CpSZ.VMode.Bilinear

/-! ### Specification: the bilinear interpolant of a cell -/

namespace Quad

/-- Value of the bilinear interpolant at local coordinates `x` (along the first edge `p0 p1`) and
`y` (along `p0 p3`). -/
def val (q : Quad ℝ) (x y : ℝ) : ℝ × ℝ :=
  ((1 - x) * (1 - y) * q.p0.1 + x * (1 - y) * q.p1.1 + x * y * q.p2.1 + (1 - x) * y * q.p3.1,
   (1 - x) * (1 - y) * q.p0.2 + x * (1 - y) * q.p1.2 + x * y * q.p2.2 + (1 - x) * y * q.p3.2)

/-- Its Jacobian. -/
def jac (q : Quad ℝ) (x y : ℝ) : Jac where
  ux := (1 - y) * (q.p1.1 - q.p0.1) + y * (q.p2.1 - q.p3.1)
  uy := (1 - x) * (q.p3.1 - q.p0.1) + x * (q.p2.1 - q.p1.1)
  vx := (1 - y) * (q.p1.2 - q.p0.2) + y * (q.p2.2 - q.p3.2)
  vy := (1 - x) * (q.p3.2 - q.p0.2) + x * (q.p2.2 - q.p1.2)

/-- The interpolant vanishes at a point of the half-open cell. -/
def IsZero (q : Quad ℝ) (z : ℝ × ℝ) : Prop :=
  0 ≤ z.1 ∧ z.1 < 1 ∧ 0 ≤ z.2 ∧ z.2 < 1 ∧ q.val z.1 z.2 = (0, 0)

/-- Cross product. -/
def cross (a b : ℝ × ℝ) : ℝ := a.1 * b.2 - a.2 * b.1

/-- The coefficient of `x y`. -/
def mixed (q : Quad ℝ) : ℝ × ℝ := q.p0 - q.p1 + q.p2 - q.p3

/-- The coefficient of `x y` is parallel neither to that of `x` nor to that of `y`. -/
def Regular (q : Quad ℝ) : Prop :=
  cross q.mixed (q.p1 - q.p0) ≠ 0 ∧ cross q.mixed (q.p3 - q.p0) ≠ 0

end Quad

/-- `jac` is the derivative of `val`. -/
theorem jac_hasDeriv (q : Quad ℝ) (x y : ℝ) :
    HasDerivAt (fun t => (q.val t y).1) (q.jac x y).ux x ∧
    HasDerivAt (fun t => (q.val x t).1) (q.jac x y).uy y ∧
    HasDerivAt (fun t => (q.val t y).2) (q.jac x y).vx x ∧
    HasDerivAt (fun t => (q.val x t).2) (q.jac x y).vy y := by
  have lin : ∀ (a b z : ℝ) (f : ℝ → ℝ), (∀ t, f t = a * t + b) → HasDerivAt f a z := by
    intro a b z f hf
    have : f = fun t => a * t + b := funext hf
    rw [this]
    have := ((hasDerivAt_id z).const_mul a).add_const b
    rw [mul_one] at this
    exact this
  refine ⟨lin _ ((q.val 0 y).1) _ _ fun t => ?_, lin _ ((q.val x 0).1) _ _ fun t => ?_,
    lin _ ((q.val 0 y).2) _ _ fun t => ?_, lin _ ((q.val x 0).2) _ _ fun t => ?_⟩ <;>
    simp only [Quad.val, Quad.jac] <;> ring

/-! ### Model -/

/-- Positions found by `inverse_bilinear_interpolation`
(src/sz_compress_cp_preserve_2d_bilinear.cpp L597-643), in its order.  A vanishing `detM1` makes
all entries of `Q` infinite or NaN, hence also both `lambda`; a vanishing `Q[2]` makes both `x`
infinite or NaN; in either case every test `x[i]>=0 && x[i]<1 && …` fails and no root is reported.
-/
noncomputable def roots (A0 B0 C0 D0 A1 B1 C1 D1 : ℝ) : List (ℝ × ℝ) :=
  open Classical in
  let detM1 := A0 * C1 - A1 * C0
  if detM1 = 0 then []
  else
    let Q0 := C1 / detM1 * (-B0) + -C0 / detM1 * (-B1)
    let Q1 := C1 / detM1 * (-D0) + -C0 / detM1 * (-D1)
    let Q2 := -A1 / detM1 * (-B0) + A0 / detM1 * (-B1)
    let Q3 := -A1 / detM1 * (-D0) + A0 / detM1 * (-D1)
    let trace := Q0 + Q3
    let det := Q0 * Q3 - Q1 * Q2
    if trace * trace / 4 - det < 0 then []
    else if Q2 = 0 then []
    else
      let l0 := trace / 2 + √(trace * trace / 4 - det)
      let l1 := trace / 2 - √(trace * trace / 4 - det)
      [((l0 - Q3) / Q2, l0), ((l1 - Q3) / Q2, l1)].filter fun z =>
        decide (0 ≤ z.1) && decide (z.1 < 1) && decide (0 ≤ z.2) && decide (z.2 < 1)

/-- Positions found by `bilinear_extract_critical_point`
(src/sz_compress_cp_preserve_2d_bilinear.cpp L719-735). -/
noncomputable def rootsOf (q : Quad ℝ) : List (ℝ × ℝ) :=
  roots (q.p0.1 - q.p1.1 - q.p3.1 + q.p2.1) (q.p1.1 - q.p0.1) (q.p3.1 - q.p0.1) q.p0.1
    (q.p0.2 - q.p1.2 - q.p3.2 + q.p2.2) (q.p1.2 - q.p0.2) (q.p3.2 - q.p0.2) q.p0.2

/-- The Jacobian stored for a root (src/sz_compress_cp_preserve_2d_bilinear.cpp L636-639). -/
def jacAt (q : Quad ℝ) (z : ℝ × ℝ) : Jac where
  ux := (q.p0.1 - q.p1.1 - q.p3.1 + q.p2.1) * z.2 + (q.p1.1 - q.p0.1)
  uy := (q.p0.1 - q.p1.1 - q.p3.1 + q.p2.1) * z.1 + (q.p3.1 - q.p0.1)
  vx := (q.p0.2 - q.p1.2 - q.p3.2 + q.p2.2) * z.2 + (q.p1.2 - q.p0.2)
  vy := (q.p0.2 - q.p1.2 - q.p3.2 + q.p2.2) * z.1 + (q.p3.2 - q.p0.2)

/-- `solve_eigenvalues2x2` and `get_cp_type`
(src/sz_compress_cp_preserve_2d_bilinear.cpp L651-712).  For a negative discriminant the compiled
code takes `pow(complex(delta), 0.5)`; here
its real part is exactly 0. -/
noncomputable def getCpType (J : Jac) : Int :=
  open Classical in
  let P1 := -(J.ux + J.vy)
  let P0 := J.ux * J.vy - J.vx * J.uy
  let delta := P1 * P1 - 4 * 1 * P0
  if 0 ≤ delta then
    let e0 := (-P1 + √delta) / (2 * 1)
    let e1 := (-P1 - √delta) / (2 * 1)
    if e0 * e1 < 0 then 3 else if e0 < 0 then 1 else if 0 < e0 then 2 else 0
  else
    let re := -P1 / (2 * 1)
    if re < 0 then 4 else if 0 < re then 5 else 6

/-- The checks of the verification in exact arithmetic.
(src/sz_compress_cp_preserve_2d_bilinear.cpp L597-735.) -/
noncomputable def realCheck : Check ℝ Jac where
  extract q := (rootsOf q).map (jacAt q)
  ctype := getCpType

/-! ### What they compute -/

theorem jacAt_eq (q : Quad ℝ) (z : ℝ × ℝ) : jacAt q z = q.jac z.1 z.2 := by
  unfold jacAt Quad.jac
  congr 1 <;> ring

theorem getCpType_eq (J : Jac) : getCpType J =
    match cpType J with
    | .singular => 0 | .attracting => 1 | .repelling => 2 | .saddle => 3
    | .attractingFocus => 4 | .repellingFocus => 5 | .center => 6 := by
  have hd : -(J.ux + J.vy) * -(J.ux + J.vy) - 4 * (J.ux * J.vy - J.vx * J.uy) = J.disc := by
    unfold Jac.disc Jac.tr Jac.det; ring
  have ht : -(-(J.ux + J.vy)) = J.tr := by unfold Jac.tr; ring
  unfold getCpType cpType
  simp only [mul_one, hd, ht]
  by_cases h : 0 ≤ J.disc
  · simp only [h, if_true]
    split_ifs <;> rfl
  · simp only [h, if_false]
    have e1 : (J.tr / 2 < 0) ↔ J.tr < 0 := by constructor <;> intro h <;> linarith
    have e2 : (0 < J.tr / 2) ↔ 0 < J.tr := by constructor <;> intro h <;> linarith
    simp only [e1, e2]
    split_ifs <;> rfl

theorem getCpType_inj (J J' : Jac) : getCpType J = getCpType J' ↔ cpType J = cpType J' := by
  rw [getCpType_eq, getCpType_eq]
  cases cpType J <;> cases cpType J' <;> simp

/-- Zeros of `A x y + B x + C y + D` in the plane as eigenvalues. -/
theorem zero_iff {A0 B0 C0 D0 A1 B1 C1 D1 x y d Q0 Q1 Q2 Q3 : ℝ} (hd : d = A0 * C1 - A1 * C0)
    (h0 : d ≠ 0) (h2 : Q2 ≠ 0)
    (e0 : Q0 * d = C0 * B1 - C1 * B0) (e1 : Q1 * d = C0 * D1 - C1 * D0)
    (e2 : Q2 * d = A1 * B0 - A0 * B1) (e3 : Q3 * d = A1 * D0 - A0 * D1) :
    (A0 * x * y + B0 * x + C0 * y + D0 = 0 ∧ A1 * x * y + B1 * x + C1 * y + D1 = 0) ↔
    ((y - Q0) * (y - Q3) = Q1 * Q2 ∧ x = (y - Q3) / Q2) := by
  constructor
  · rintro ⟨z0, z1⟩
    have k1 : y = Q2 * x + Q3 := by
      apply mul_right_cancel₀ h0
      have : (Q2 * x + Q3) * d = Q2 * d * x + Q3 * d := by ring
      rw [this, e2, e3, hd]
      linear_combination A0 * z1 - A1 * z0
    have k2 : y * x = Q0 * x + Q1 := by
      apply mul_right_cancel₀ h0
      have : (Q0 * x + Q1) * d = Q0 * d * x + Q1 * d := by ring
      rw [this, e0, e1, hd]
      linear_combination C1 * z0 - C0 * z1
    refine ⟨?_, ?_⟩
    · linear_combination (y - Q0) * k1 + Q2 * k2
    · rw [eq_div_iff h2]; linear_combination -k1
  · rintro ⟨k, kx⟩
    rw [eq_div_iff h2] at kx
    have k1 : y = Q2 * x + Q3 := by linear_combination -kx
    have k2 : y * x = Q0 * x + Q1 := by
      apply mul_right_cancel₀ h2
      linear_combination k + (y - Q0) * kx
    have m1 : d * y + (A0 * B1 - A1 * B0) * x + (A0 * D1 - A1 * D0) = 0 := by
      linear_combination d * k1 + x * e2 + e3
    have m2 : d * (y * x) + (C1 * B0 - C0 * B1) * x + (C1 * D0 - C0 * D1) = 0 := by
      linear_combination d * k2 + x * e0 + e1
    constructor <;> apply mul_left_cancel₀ h0
    · rw [hd] at m1 m2 ⊢; linear_combination C0 * m1 + A0 * m2
    · rw [hd] at m1 m2 ⊢; linear_combination C1 * m1 + A1 * m2

theorem quad_roots {t det y : ℝ} :
    (y * y - t * y + det = 0) ↔ 0 ≤ t * t / 4 - det ∧
      (y = t / 2 + √(t * t / 4 - det) ∨ y = t / 2 - √(t * t / 4 - det)) := by
  constructor
  · intro h
    have hs : t * t / 4 - det = (y - t / 2) ^ 2 := by linear_combination -h
    have h0 : 0 ≤ t * t / 4 - det := by rw [hs]; positivity
    refine ⟨h0, ?_⟩
    have hq : (√(t * t / 4 - det)) ^ 2 = (y - t / 2) ^ 2 := by rw [Real.sq_sqrt h0, hs]
    rcases sq_eq_sq_iff_eq_or_eq_neg.1 hq with h | h
    · left; linarith
    · right; linarith
  · rintro ⟨h0, h⟩
    have := Real.mul_self_sqrt h0
    rcases h with h | h <;> rw [h] <;> linear_combination this

/-- The extraction returns exactly the zeros in the half-open cell. -/
theorem rootsOf_mem (q : Quad ℝ) (hq : q.Regular) (z : ℝ × ℝ) : z ∈ rootsOf q ↔ q.IsZero z := by
  obtain ⟨r1, r2⟩ := hq
  unfold rootsOf
  set A0 := q.p0.1 - q.p1.1 - q.p3.1 + q.p2.1 with hA0
  set A1 := q.p0.2 - q.p1.2 - q.p3.2 + q.p2.2 with hA1
  set B0 := q.p1.1 - q.p0.1 with hB0
  set B1 := q.p1.2 - q.p0.2 with hB1
  set C0 := q.p3.1 - q.p0.1 with hC0
  set C1 := q.p3.2 - q.p0.2 with hC1
  have hd : A0 * C1 - A1 * C0 ≠ 0 := by
    have : Quad.cross q.mixed (q.p3 - q.p0) = A0 * C1 - A1 * C0 := by
      simp only [Quad.cross, Quad.mixed, Prod.fst_sub, Prod.snd_sub, Prod.fst_add, Prod.snd_add]
      rw [hA0, hA1, hC0, hC1]; ring
    rwa [this] at r2
  have hb : A1 * B0 - A0 * B1 ≠ 0 := by
    have : Quad.cross q.mixed (q.p1 - q.p0) = -(A1 * B0 - A0 * B1) := by
      simp only [Quad.cross, Quad.mixed, Prod.fst_sub, Prod.snd_sub, Prod.fst_add, Prod.snd_add]
      rw [hA0, hA1, hB0, hB1]; ring
    rw [this] at r1
    exact fun h => r1 (by rw [h, neg_zero])
  have hval : q.val z.1 z.2 = (0, 0) ↔ (A0 * z.1 * z.2 + B0 * z.1 + C0 * z.2 + q.p0.1 = 0 ∧
      A1 * z.1 * z.2 + B1 * z.1 + C1 * z.2 + q.p0.2 = 0) := by
    rw [Prod.ext_iff]
    simp only [Quad.val]
    have e1 : (1 - z.1) * (1 - z.2) * q.p0.1 + z.1 * (1 - z.2) * q.p1.1 + z.1 * z.2 * q.p2.1 +
        (1 - z.1) * z.2 * q.p3.1 = A0 * z.1 * z.2 + B0 * z.1 + C0 * z.2 + q.p0.1 := by
      rw [hA0, hB0, hC0]; ring
    have e2 : (1 - z.1) * (1 - z.2) * q.p0.2 + z.1 * (1 - z.2) * q.p1.2 + z.1 * z.2 * q.p2.2 +
        (1 - z.1) * z.2 * q.p3.2 = A1 * z.1 * z.2 + B1 * z.1 + C1 * z.2 + q.p0.2 := by
      rw [hA1, hB1, hC1]; ring
    rw [e1, e2]
  clear_value A0 A1 B0 B1 C0 C1
  generalize hdd : A0 * C1 - A1 * C0 = d at hd
  unfold roots
  simp only [hdd, if_neg hd]
  generalize g0 : C1 / d * (-B0) + -C0 / d * (-B1) = Q0
  generalize g1 : C1 / d * (-q.p0.1) + -C0 / d * (-q.p0.2) = Q1
  generalize g2 : -A1 / d * (-B0) + A0 / d * (-B1) = Q2
  generalize g3 : -A1 / d * (-q.p0.1) + A0 / d * (-q.p0.2) = Q3
  have e0 : Q0 * d = C0 * B1 - C1 * B0 := by rw [← g0]; field_simp; ring
  have e1 : Q1 * d = C0 * q.p0.2 - C1 * q.p0.1 := by rw [← g1]; field_simp; ring
  have e2 : Q2 * d = A1 * B0 - A0 * B1 := by rw [← g2]; field_simp; ring
  have e3 : Q3 * d = A1 * q.p0.1 - A0 * q.p0.2 := by rw [← g3]; field_simp; ring
  have h2 : Q2 ≠ 0 := by
    rintro rfl
    rw [zero_mul] at e2
    exact hb e2.symm
  have key := zero_iff (x := z.1) (y := z.2) hdd.symm hd h2 e0 e1 e2 e3
  have hchar : (z.2 - Q0) * (z.2 - Q3) = Q1 * Q2 ↔
      z.2 * z.2 - (Q0 + Q3) * z.2 + (Q0 * Q3 - Q1 * Q2) = 0 := by
    constructor <;> intro h <;> linear_combination h
  rw [hchar, quad_roots] at key
  unfold Quad.IsZero
  rw [hval, key]
  by_cases hneg : (Q0 + Q3) * (Q0 + Q3) / 4 - (Q0 * Q3 - Q1 * Q2) < 0
  · simp only [hneg, if_true, List.not_mem_nil, false_iff]
    rintro ⟨-, -, -, -, ⟨h, -⟩, -⟩
    linarith
  · simp only [hneg, if_false, h2]
    have hnn := not_lt.1 hneg
    simp only [List.mem_filter, List.mem_cons, List.not_mem_nil, or_false, Bool.and_eq_true,
      decide_eq_true_eq]
    obtain ⟨x, y⟩ := z
    simp only [Prod.mk.injEq]
    constructor
    · rintro ⟨⟨hx, hy⟩ | ⟨hx, hy⟩, ⟨⟨hx0, hx1⟩, hy0⟩, hy1⟩
      · exact ⟨hx0, hx1, hy0, hy1, ⟨hnn, Or.inl hy⟩, by rw [hx, hy]⟩
      · exact ⟨hx0, hx1, hy0, hy1, ⟨hnn, Or.inr hy⟩, by rw [hx, hy]⟩
    · rintro ⟨hx0, hx1, hy0, hy1, ⟨-, hy | hy⟩, hx⟩
      · exact ⟨Or.inl ⟨by rw [hx, hy], hy⟩, ⟨⟨hx0, hx1⟩, hy0⟩, hy1⟩
      · exact ⟨Or.inr ⟨by rw [hx, hy], hy⟩, ⟨⟨hx0, hx1⟩, hy0⟩, hy1⟩

/-- A root reported twice is a degenerate critical point. -/
theorem rootsOf_nodup (q : Quad ℝ) (hq : q.Regular)
    (hJ : ∀ z, q.IsZero z → (q.jac z.1 z.2).det ≠ 0) : (rootsOf q).Nodup := by
  by_contra hnd
  have hmem := rootsOf_mem q hq
  unfold rootsOf at hmem hnd
  set A0 := q.p0.1 - q.p1.1 - q.p3.1 + q.p2.1 with hA0
  set A1 := q.p0.2 - q.p1.2 - q.p3.2 + q.p2.2 with hA1
  set B0 := q.p1.1 - q.p0.1 with hB0
  set B1 := q.p1.2 - q.p0.2 with hB1
  set C0 := q.p3.1 - q.p0.1 with hC0
  set C1 := q.p3.2 - q.p0.2 with hC1
  have hjac : ∀ z : ℝ × ℝ, (q.jac z.1 z.2).det =
      (A0 * z.2 + B0) * (A1 * z.1 + C1) - (A0 * z.1 + C0) * (A1 * z.2 + B1) := by
    intro z
    simp only [Quad.jac, Jac.det]
    rw [hA0, hA1, hB0, hB1, hC0, hC1]; ring
  have hval : ∀ z : ℝ × ℝ, q.IsZero z → (A0 * z.1 * z.2 + B0 * z.1 + C0 * z.2 + q.p0.1 = 0 ∧
      A1 * z.1 * z.2 + B1 * z.1 + C1 * z.2 + q.p0.2 = 0) := by
    rintro z ⟨-, -, -, -, h⟩
    rw [Prod.ext_iff] at h
    simp only [Quad.val] at h
    obtain ⟨h1, h2⟩ := h
    constructor
    · rw [hA0, hB0, hC0]; linear_combination h1
    · rw [hA1, hB1, hC1]; linear_combination h2
  clear_value A0 A1 B0 B1 C0 C1
  unfold roots at hnd hmem
  simp only at hnd hmem
  generalize hdd : A0 * C1 - A1 * C0 = d at *
  split_ifs at hnd with hd hneg h2
  · exact hnd List.nodup_nil
  · exact hnd List.nodup_nil
  · exact hnd List.nodup_nil
  · simp only [hd, hneg, h2, if_false] at hmem
    generalize g0 : C1 / d * (-B0) + -C0 / d * (-B1) = Q0 at *
    generalize g1 : C1 / d * (-q.p0.1) + -C0 / d * (-q.p0.2) = Q1 at *
    generalize g2 : -A1 / d * (-B0) + A0 / d * (-B1) = Q2 at *
    generalize g3 : -A1 / d * (-q.p0.1) + A0 / d * (-q.p0.2) = Q3 at *
    have e0 : Q0 * d = C0 * B1 - C1 * B0 := by rw [← g0]; field_simp; ring
    have e3 : Q3 * d = A1 * q.p0.1 - A0 * q.p0.2 := by rw [← g3]; field_simp; ring
    have hnn := not_lt.1 hneg
    generalize hl0 : (Q0 + Q3) / 2 + √((Q0 + Q3) * (Q0 + Q3) / 4 - (Q0 * Q3 - Q1 * Q2)) = l0 at *
    generalize hl1 : (Q0 + Q3) / 2 - √((Q0 + Q3) * (Q0 + Q3) / 4 - (Q0 * Q3 - Q1 * Q2)) = l1 at *
    have hsum : l0 + l1 = Q0 + Q3 := by rw [← hl0, ← hl1]; ring
    by_cases hne : l0 = l1
    · subst hne
      -- the root passes the test, otherwise the list is empty
      have hz : ((l0 - Q3) / Q2, l0) ∈ [((l0 - Q3) / Q2, l0), ((l0 - Q3) / Q2, l0)].filter fun z =>
          decide (0 ≤ z.1) && decide (z.1 < 1) && decide (0 ≤ z.2) && decide (z.2 < 1) := by
        by_contra hn
        apply hnd
        rw [List.mem_filter] at hn
        rw [List.filter_eq_nil_iff.2 (fun a ha hf => hn ?_)]
        · exact List.nodup_nil
        · have : a = ((l0 - Q3) / Q2, l0) := by simpa using ha
          subst this
          exact ⟨by simp, hf⟩
      have hZ := (hmem _).1 hz
      obtain ⟨v0, v1⟩ := hval _ hZ
      apply hJ _ hZ
      rw [hjac]
      simp only at v0 v1 ⊢
      generalize (l0 - Q3) / Q2 = x at *
      -- derivative of the characteristic polynomial
      have : d * (2 * l0 - (Q0 + Q3)) = 0 := by rw [← hsum]; ring
      rw [mul_sub, mul_add, mul_comm d Q0, mul_comm d Q3, e0, e3, ← hdd] at this
      linear_combination this + A1 * v0 - A0 * v1
    · apply hnd
      apply List.Nodup.filter
      rw [List.nodup_cons]
      refine ⟨fun h => ?_, List.nodup_singleton _⟩
      rw [List.mem_singleton, Prod.mk.injEq] at h
      exact hne h.2

theorem rootsOf_length (q : Quad ℝ) : (rootsOf q).length ≤ 2 := by
  unfold rootsOf roots
  simp only
  split_ifs <;> first | exact le_trans (List.length_filter_le _ _) (by simp) | simp

/-- Cells without regularity in which the extraction reports nothing. -/
theorem rootsOf_irregular (q : Quad ℝ) (hq : ¬ q.Regular) : rootsOf q = [] := by
  unfold rootsOf
  set A0 := q.p0.1 - q.p1.1 - q.p3.1 + q.p2.1 with hA0
  set A1 := q.p0.2 - q.p1.2 - q.p3.2 + q.p2.2 with hA1
  set B0 := q.p1.1 - q.p0.1 with hB0
  set B1 := q.p1.2 - q.p0.2 with hB1
  set C0 := q.p3.1 - q.p0.1 with hC0
  set C1 := q.p3.2 - q.p0.2 with hC1
  have hc : Quad.cross q.mixed (q.p3 - q.p0) = A0 * C1 - A1 * C0 := by
    simp only [Quad.cross, Quad.mixed, Prod.fst_sub, Prod.snd_sub, Prod.fst_add, Prod.snd_add]
    rw [hA0, hA1, hC0, hC1]; ring
  have hb : Quad.cross q.mixed (q.p1 - q.p0) = -(A1 * B0 - A0 * B1) := by
    simp only [Quad.cross, Quad.mixed, Prod.fst_sub, Prod.snd_sub, Prod.fst_add, Prod.snd_add]
    rw [hA0, hA1, hB0, hB1]; ring
  unfold Quad.Regular at hq
  rw [hc, hb] at hq
  clear_value A0 A1 B0 B1 C0 C1
  unfold roots
  simp only
  split_ifs with h1 h2 h3
  · rfl
  · rfl
  · rfl
  · exfalso
    apply hq
    refine ⟨fun h => h3 ?_, h1⟩
    have h : A1 * B0 - A0 * B1 = 0 := by linarith
    have : -A1 / (A0 * C1 - A1 * C0) * -B0 + A0 / (A0 * C1 - A1 * C0) * -B1 =
        (A1 * B0 - A0 * B1) / (A0 * C1 - A1 * C0) := by field_simp; ring
    rw [this, h, zero_div]

/-! ### Errors of a run -/

/-- `bound` never exceeds the user's bound. -/
theorem boundB_le (r1 r2 : Nat) (maxEb : ℝ) (derive : ℝ → ℝ → ℝ → ℝ → ℝ → ℝ → ℝ → ℝ → ℝ)
    (m : Online2D.Field ℝ) (p : Nat) (req : ℝ)
    (h : boundB r1 r2 maxEb min derive m p = some req) : req ≤ maxEb := by
  have key : ∀ (ks : List Nat) (r req : ℝ), boundLoop r1 r2 min derive m p ks r = some req →
      req ≤ r := by
    intro ks
    induction ks with
    | nil => intro r req h; simp only [boundLoop, Option.some.injEq] at h; exact h.ge
    | cons k ks ih =>
      intro r req h
      unfold boundLoop at h
      split at h
      · split at h
        · exact le_trans (ih _ _ h) (min_le_left _ _)
        · cases h
      · exact ih _ _ h
  exact key _ _ _ h

/-- One coded vertex in exact arithmetic. -/
theorem step_bil {r2 : Nat} {maxEb : ℝ} {bound : Online2D.Field ℝ → Nat → Option ℝ}
    (hbound : ∀ f p req, bound f p = some req → req ≤ maxEb)
    {verify : State ℝ → Nat → List ℝ → Option Bool} {m : Online2D.Field ℝ} {s s' : State ℝ}
    {p : Nat} {e : Int} {qs : List Int}
    (h : Coded (realMode2 r2) (planB realL (realMode2 r2) bound verify) s s' p e qs)
    (hl : ∀ c q, p ≤ q → s.cod c q = (realMode2 r2).fwd (arr2 m c q) ∧ s.val c q = arr2 m c q) :
    0 < maxEb ∧ ∀ c, c < 2 → |s'.val c p - s.val c p| < |s.val c p| * maxEb ∧
        0 < s.val c p * s'.val c p ∧
        abs (s'.cod c p - Real.logb 2 |s.val c p|) < Real.logb 2 (1 + maxEb) := by
  obtain ⟨a, id, h1, -, h2, h3⟩ := h.real rfl (by norm_num [realMode2, mode2])
    (by norm_num [realMode2, mode2]) (by norm_num [realMode2, mode2])
  rcases planB_cases realL _ _ _ s p _ h1 with h0 | ⟨req, hb, hpos, hu, hv, h0⟩
  · cases h0
  · simp only [Plan.try.injEq] at h0
    obtain ⟨ha, -⟩ := h0
    have hpos : 0 < req := by
      have : ((0 : Int) : ℝ) < req := of_decide_eq_true hpos
      simpa using this
    have ha : a = Real.logb 2 (1 + req) := by
      rw [ha]; simp only [realL, realOps, realD]; push_cast; rfl
    have hu : s.val 0 p ≠ 0 := of_decide_eq_false hu
    have hv : s.val 1 p ≠ 0 := of_decide_eq_false hv
    have hle : req ≤ maxEb := hbound _ _ _ hb
    refine ⟨lt_of_lt_of_le hpos hle, fun c hc => ?_⟩
    have hne : s.val c p ≠ 0 := by
      have : c = 0 ∨ c = 1 := by omega
      rcases this with rfl | rfl
      · exact hu
      · exact hv
    obtain ⟨k1, k2⟩ := h2 c hc
    have hcod : s.cod c p = Real.logb 2 |s.val c p| := by
      rw [(hl c p (le_refl p)).1, (hl c p (le_refl p)).2]
      apply logFwd_real
      rw [← (hl c p (le_refl p)).2]; exact hne
    rw [hcod, ha] at k1
    obtain ⟨b1, b2⟩ := logBack_real hne hpos k1
    have hk2 : s'.val c p = logBack realL (s.val c p) (s'.cod c p) := k2
    rw [hk2]
    exact ⟨lt_of_lt_of_le b1 (mul_le_mul_of_nonneg_left hle (abs_nonneg _)), b2,
      lt_of_lt_of_le k1 (Real.logb_le_logb_of_le (by norm_num) (by linarith) (by linarith))⟩

/-- What the sweep maintains. -/
structure BilInv (maxEb : ℝ) (m : Online2D.Field ℝ) (p : Nat) (s : State ℝ) : Prop where
  later : ∀ c q, p ≤ q → s.val c q = arr2 m c q
  err : ∀ c q, c < 2 → s.val c q = arr2 m c q ∨
    (|s.val c q - arr2 m c q| < |arr2 m c q| * maxEb ∧ 0 < arr2 m c q * s.val c q)
  cod : ∀ c q, c < 2 → arr2 m c q = 0 ∨
    abs (s.cod c q - Real.logb 2 |arr2 m c q|) < Real.logb 2 (1 + maxEb) ∨
    s.cod c q = Real.logb 2 |arr2 m c q|

theorem bilInv_final (r2 n : Nat) (maxEb : ℝ) (bound : Online2D.Field ℝ → Nat → Option ℝ)
    (hbound : ∀ f p req, bound f p = some req → req ≤ maxEb)
    (verify : State ℝ → Nat → List ℝ → Option Bool) (m : Online2D.Field ℝ) (s' : State ℝ)
    (str : Streams ℝ)
    (h : compressB realL (realMode2 r2) bound verify n (arr2 m) = some (s', str)) :
    BilInv maxEb m n s' := by
  rw [compressB_eq] at h
  refine compress_inv _ _ _ _ s' str h (BilInv maxEb m) ?_ ?_ ?_
  · refine ⟨fun _ _ _ => rfl, fun _ _ _ => Or.inl rfl, fun c q _ => ?_⟩
    by_cases h0 : arr2 m c q = 0
    · exact Or.inl h0
    · exact Or.inr (Or.inr (logFwd_real h0))
  · intro p s _ hI
    exact ⟨fun c q hq => hI.later c q (by omega), hI.err, hI.cod⟩
  · intro p s s1 e qs hp hI hc hl
    obtain ⟨-, hcomp⟩ := step_bil hbound hc hl
    obtain ⟨_, _, _, _, _, hother⟩ := hc.real rfl (by norm_num [realMode2, mode2])
      (by norm_num [realMode2, mode2]) (by norm_num [realMode2, mode2])
    refine ⟨fun c q hq => ?_, fun c q hc2 => ?_, fun c q hc2 => ?_⟩
    · rw [(hother c q (by omega)).2]; exact hI.later c q (by omega)
    · by_cases hq : q = p
      · subst hq
        obtain ⟨k1, k2, -⟩ := hcomp c hc2
        rw [hI.later c q (le_refl q)] at k1 k2
        exact Or.inr ⟨k1, k2⟩
      · rw [(hother c q hq).2]; exact hI.err c q hc2
    · by_cases hq : q = p
      · subst hq
        obtain ⟨-, -, k3⟩ := hcomp c hc2
        rw [hI.later c q (le_refl q)] at k3
        exact Or.inr (Or.inl k3)
      · rw [(hother c q hq).1]; exact hI.cod c q hc2

theorem cod_largeB {maxEb : ℝ} {m : Online2D.Field ℝ} {s' : State ℝ} {p : Nat}
    (h0 : 0 ≤ maxEb) (h1 : maxEb ≤ 1) (hI : BilInv maxEb m p s') (c q : Nat) (hc : c < 2)
    (hm : (2 : ℝ) ^ (-98 : ℤ) ≤ |arr2 m c q|) : realL.ltM99 (s'.cod c q) = false := by
  have hpos : (0 : ℝ) < 2 ^ (-98 : ℤ) := by positivity
  have hlog : (-98 : ℝ) ≤ Real.logb 2 |arr2 m c q| := by
    rw [Real.le_logb_iff_rpow_le (by norm_num) (by linarith)]
    have : (2 : ℝ) ^ (-98 : ℝ) = (2 : ℝ) ^ (-98 : ℤ) := by
      rw [← Real.rpow_intCast]; norm_num
    rw [this]; exact hm
  have hlog1 : Real.logb 2 (1 + maxEb) ≤ 1 := by
    rw [Real.logb_le_iff_le_rpow (by norm_num) (by linarith)]
    norm_num; linarith
  simp only [realL, decide_eq_false_iff_not, not_lt]
  rcases hI.cod c q hc with h | h | h
  · rw [h] at hm; simp only [abs_zero] at hm; linarith
  · rw [abs_lt] at h; linarith
  · rw [h]; linarith

end CpSZ.VMode.Bilinear
