import Verif.Arith
import Mathlib.Tactic.LinearCombination
import Mathlib.Algebra.BigOperators.Group.List.Basic
/-
Specification vocabulary for 3D critical points, independent of the compressors.
-/

namespace CpSZ.ThreeD

/-- A 3D vector. -/
structure V3 where
  u : ℝ
  v : ℝ
  w : ℝ

/-- The linear interpolant of the vectors at the corners of a simplex has a zero in the
(closed) simplex: some weights, not negative and of sum one, average the vectors to zero. -/
def HasCP (vs : List V3) : Prop :=
  ∃ ps : List (ℝ × V3), ps.map (·.2) = vs ∧ (∀ p ∈ ps, 0 ≤ p.1) ∧ (ps.map (·.1)).sum = 1 ∧
    (ps.map fun p => p.1 * p.2.u).sum = 0 ∧ (ps.map fun p => p.1 * p.2.v).sum = 0 ∧
    (ps.map fun p => p.1 * p.2.w).sum = 0

/-- A tetrahedron is a list of four vertex numbers; `f c q` is component `c` at vertex `q`. -/
def vec (f : Nat → Nat → ℝ) (q : Nat) : V3 := ⟨f 0 q, f 1 q, f 2 q⟩

/-- The interpolant of the field `f` has a zero in the cell. -/
def cellCP (f : Nat → Nat → ℝ) (cell : List Nat) : Prop := HasCP (cell.map (vec f))

/-! ### Basic facts -/

theorem lift_perm {α β : Type} (g : α → β) {vs vs' : List β} (h : vs.Perm vs') :
    ∀ ps : List α, ps.map g = vs → ∃ ps' : List α, ps'.Perm ps ∧ ps'.map g = vs' := by
  induction h with
  | nil => intro ps h; exact ⟨ps, List.Perm.refl _, h⟩
  | cons x _ ih =>
    intro ps h
    cases ps with
    | nil => simp at h
    | cons p ps =>
      simp only [List.map_cons, List.cons.injEq] at h
      obtain ⟨ps', h1, h2⟩ := ih ps h.2
      exact ⟨p :: ps', h1.cons p, by simp [h.1, h2]⟩
  | swap x y l =>
    intro ps h
    match ps, h with
    | p :: q :: ps, h =>
      simp only [List.map_cons, List.cons.injEq] at h
      exact ⟨q :: p :: ps, List.Perm.swap p q ps, by simp [h.1, h.2.1, h.2.2]⟩
  | trans _ _ ih1 ih2 =>
    intro ps h
    obtain ⟨ps1, a1, a2⟩ := ih1 ps h
    obtain ⟨ps2, b1, b2⟩ := ih2 ps1 a2
    exact ⟨ps2, b1.trans a1, b2⟩

theorem HasCP.perm {vs vs' : List V3} (h : vs.Perm vs') (hc : HasCP vs) : HasCP vs' := by
  obtain ⟨ps, h1, h2, h3, h4, h5, h6⟩ := hc
  obtain ⟨ps', p1, p2⟩ := lift_perm (·.2) h ps h1
  refine ⟨ps', p2, fun p hp => h2 p (p1.mem_iff.1 hp), ?_, ?_, ?_, ?_⟩
  · rw [(p1.map _).sum_eq]; exact h3
  · rw [(p1.map _).sum_eq]; exact h4
  · rw [(p1.map _).sum_eq]; exact h5
  · rw [(p1.map _).sum_eq]; exact h6

theorem hasCP_perm {vs vs' : List V3} (h : vs.Perm vs') : HasCP vs ↔ HasCP vs' :=
  ⟨HasCP.perm h, HasCP.perm h.symm⟩

/-- Weights of a critical point in a tetrahedron. -/
structure Weights (a b c d : V3) (x y z t : ℝ) : Prop where
  x0 : 0 ≤ x
  y0 : 0 ≤ y
  z0 : 0 ≤ z
  t0 : 0 ≤ t
  sum : x + y + z + t = 1
  hu : x * a.u + y * b.u + z * c.u + t * d.u = 0
  hv : x * a.v + y * b.v + z * c.v + t * d.v = 0
  hw : x * a.w + y * b.w + z * c.w + t * d.w = 0

theorem hasCP_four (a b c d : V3) : HasCP [a, b, c, d] ↔ ∃ x y z t, Weights a b c d x y z t := by
  constructor
  · rintro ⟨ps, h1, h2, h3, h4, h5, h6⟩
    match ps, h1 with
    | [p, q, r, s], h1 =>
      simp only [List.map_cons, List.map_nil, List.cons.injEq, and_true] at h1
      obtain ⟨rfl, rfl, rfl, rfl⟩ := h1
      simp only [List.map_cons, List.map_nil, List.sum_cons, List.sum_nil] at h3 h4 h5 h6
      exact ⟨p.1, q.1, r.1, s.1, h2 p (by simp), h2 q (by simp), h2 r (by simp), h2 s (by simp),
        by linarith, by linarith, by linarith, by linarith⟩
  · rintro ⟨x, y, z, t, W⟩
    refine ⟨[(x, a), (y, b), (z, c), (t, d)], rfl, ?_, ?_, ?_, ?_, ?_⟩
    · intro p hp
      simp only [List.mem_cons, List.not_mem_nil, or_false] at hp
      rcases hp with rfl | rfl | rfl | rfl
      · exact W.x0
      · exact W.y0
      · exact W.z0
      · exact W.t0
    · simp only [List.map_cons, List.map_nil, List.sum_cons, List.sum_nil]; linarith [W.sum]
    · simp only [List.map_cons, List.map_nil, List.sum_cons, List.sum_nil]; linarith [W.hu]
    · simp only [List.map_cons, List.map_nil, List.sum_cons, List.sum_nil]; linarith [W.hv]
    · simp only [List.map_cons, List.map_nil, List.sum_cons, List.sum_nil]; linarith [W.hw]

/-- Signed minors of the 3 by 4 matrix with columns `a b c d`. -/
def minor0 (_a b c d : V3) : ℝ :=
  (-d.u * b.v * c.w + d.u * c.v * b.w) + (b.u * d.v * c.w - c.u * d.v * b.w) +
    (-b.u * c.v * d.w + c.u * b.v * d.w)
def minor1 (a _b c d : V3) : ℝ :=
  (-d.u * c.v * a.w + d.u * a.v * c.w) + (c.u * d.v * a.w - a.u * d.v * c.w) +
    (a.u * c.v * d.w - c.u * a.v * d.w)
def minor2 (a b _c d : V3) : ℝ :=
  (-d.u * a.v * b.w + d.u * b.v * a.w) + (a.u * d.v * b.w - b.u * d.v * a.w) +
    (-a.u * b.v * d.w + b.u * a.v * d.w)
def minor3 (a b c _d : V3) : ℝ :=
  a.u * b.v * c.w - a.u * c.v * b.w + b.u * c.v * a.w - b.u * a.v * c.w + c.u * a.v * b.w -
    c.u * b.v * a.w

def minorSum (a b c d : V3) : ℝ := minor0 a b c d + minor1 a b c d + minor2 a b c d + minor3 a b c d

/-- The minors are in the kernel (Cramer). -/
theorem minors_kernel (a b c d : V3) :
    minor0 a b c d * a.u + minor1 a b c d * b.u + minor2 a b c d * c.u + minor3 a b c d * d.u = 0 ∧
    minor0 a b c d * a.v + minor1 a b c d * b.v + minor2 a b c d * c.v + minor3 a b c d * d.v = 0 ∧
    minor0 a b c d * a.w + minor1 a b c d * b.w + minor2 a b c d * c.w + minor3 a b c d * d.w = 0 := by
  unfold minor0 minor1 minor2 minor3
  refine ⟨by ring, by ring, by ring⟩

/-- The weights of a critical point are proportional to the minors. -/
theorem Weights.minors {a b c d : V3} {x y z t : ℝ} (W : Weights a b c d x y z t) :
    minor0 a b c d = x * minorSum a b c d ∧ minor1 a b c d = y * minorSum a b c d ∧
    minor2 a b c d = z * minorSum a b c d ∧ minor3 a b c d = t * minorSum a b c d := by
  obtain ⟨-, -, -, -, hs, hu, hv, hw⟩ := W
  have h01 : y * minor0 a b c d = x * minor1 a b c d := by
    unfold minor0 minor1
    linear_combination (c.v * d.w - d.v * c.w) * (-1) * hu + (c.w * d.u - d.w * c.u) * (-1) * hv +
      (c.u * d.v - d.u * c.v) * (-1) * hw
  have h02 : z * minor0 a b c d = x * minor2 a b c d := by
    unfold minor0 minor2
    linear_combination (b.v * d.w - d.v * b.w) * hu + (b.w * d.u - d.w * b.u) * hv +
      (b.u * d.v - d.u * b.v) * hw
  have h03 : t * minor0 a b c d = x * minor3 a b c d := by
    unfold minor0 minor3
    linear_combination (b.v * c.w - c.v * b.w) * (-1) * hu + (b.w * c.u - c.w * b.u) * (-1) * hv +
      (b.u * c.v - c.u * b.v) * (-1) * hw
  have h12 : z * minor1 a b c d = y * minor2 a b c d := by
    unfold minor1 minor2
    linear_combination (a.v * d.w - d.v * a.w) * (-1) * hu + (a.w * d.u - d.w * a.u) * (-1) * hv +
      (a.u * d.v - d.u * a.v) * (-1) * hw
  have h13 : t * minor1 a b c d = y * minor3 a b c d := by
    unfold minor1 minor3
    linear_combination (a.v * c.w - c.v * a.w) * hu + (a.w * c.u - c.w * a.u) * hv +
      (a.u * c.v - c.u * a.v) * hw
  have h23 : t * minor2 a b c d = z * minor3 a b c d := by
    unfold minor2 minor3
    linear_combination (a.v * b.w - b.v * a.w) * (-1) * hu + (a.w * b.u - b.w * a.u) * (-1) * hv +
      (a.u * b.v - b.u * a.v) * (-1) * hw
  unfold minorSum
  refine ⟨?_, ?_, ?_, ?_⟩
  · linear_combination (-(minor0 a b c d)) * hs + h01 + h02 + h03
  · linear_combination (-(minor1 a b c d)) * hs - h01 + h12 + h13
  · linear_combination (-(minor2 a b c d)) * hs - h02 - h12 + h23
  · linear_combination (-(minor3 a b c d)) * hs - h03 - h13 - h23

end CpSZ.ThreeD
