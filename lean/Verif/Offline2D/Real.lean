import Verif.Offline2D.Bound
import Verif.Offline2D.Codec
import Verif.Online2D.Real
import Verif.Pwr
import Mathlib.Tactic.IntervalCases
/-
The 2D offline modes in exact arithmetic: triangles, bounds of all vertices, and whole runs.
-/

namespace CpSZ.Offline2D

open CpSZ.Block CpSZ.Online2D

/-! ### Model -/

noncomputable def realO : OOps ℝ ℝ where
  d := realD
  absMul x e := |x| * e
  log1p e := Real.logb 2 (1 + e)
  zero := 0
  isZero x := decide (x = 0)
  pos x := decide (0 < x)
  neg x := -x
  log2f := Real.logb 2
  exp2 x := (2 : ℝ) ^ x
  low := -100
  isLow x := decide (x < -99)

/-- `get_adjugate_matrix_for_position` (src/sz_compress_cp_preserve_2d.cpp L52-61). -/
noncomputable def adjC (x0 x1 x2 y0 y1 y2 : ℝ) : ℝ × ℝ × ℝ × ℝ :=
  let det := (x0 - x2) * (y1 - y2) - (x1 - x2) * (y0 - y2)
  ((y1 - y2) / det, -(y0 - y2) / det, -(x1 - x2) / det, (x0 - x2) / det)

/-- `X_upper` (`false`) and `X_lower` (`true`) (src/sz_compress_cp_preserve_2d.cpp L184-185). -/
def cellX (k : Bool) : List (ℝ × ℝ) :=
  if k then [(0, 0), (0, 1), (1, 1)] else [(0, 0), (1, 0), (1, 1)]

/-- The coefficients for the arguments of src/sz_compress_cp_preserve_2d.cpp L198-200: `x` are the
second, `y` the first components of `X`. -/
noncomputable def coefC (k : Bool) : ℝ × ℝ × ℝ × ℝ :=
  adjC ((cellX k).getD 0 (0, 0)).2 ((cellX k).getD 1 (0, 0)).2 ((cellX k).getD 2 (0, 0)).2
    ((cellX k).getD 0 (0, 0)).1 ((cellX k).getD 1 (0, 0)).1 ((cellX k).getD 2 (0, 0)).1

/-- `max_cur_eb` (src/sz_compress_cp_preserve_2d.cpp L198-200): bound of triangle `k` of the cell
with first vertex `p`.  `z` gives the outcomes of `det / ±0 >= 1`, see `flag`. -/
noncomputable def triBound (z : Nat → Bool → Bool × Bool × Bool) (u v : Nat → ℝ) (r2 p : Nat)
    (k : Bool) : ℝ :=
  let o := cellOff r2 k
  let c := coefC k
  offlineEb (z p k).1 (z p k).2.1 (z p k).2.2 c.1 c.2.1 c.2.2.1 c.2.2.2
    (u (p + o.getD 0 0)) (u (p + o.getD 1 0)) (u (p + o.getD 2 0))
    (v (p + o.getD 0 0)) (v (p + o.getD 1 0)) (v (p + o.getD 2 0))

/-- `eb` after src/sz_compress_cp_preserve_2d.cpp L189-212. -/
noncomputable def vertexEb (z : Nat → Bool → Bool × Bool × Bool) (u v : Nat → ℝ) (r1 r2 : Nat)
    (maxEb : ℝ) : Nat → ℝ :=
  ebSweep realD.lt (triBound z u v r2) r1 r2 maxEb

/-! ### Triangles -/

/-- The interpolant of three vectors has a zero with positive weights. -/
def InnerCP (p0 p1 p2 : ℝ × ℝ) : Prop :=
  ∃ a b c : ℝ, 0 < a ∧ 0 < b ∧ 0 < c ∧ a + b + c = 1 ∧
    a * p0.1 + b * p1.1 + c * p2.1 = 0 ∧ a * p0.2 + b * p1.2 + c * p2.2 = 0

section
variable {c0 c1 c2 c3 u0 v0 u1 v1 u2 v2 u0' v0' u1' v1' u2' v2' : ℝ} {z1 z2 z3 : Bool}

theorem cp_kept
    (hu0 : Near (offlineEb z1 z2 z3 c0 c1 c2 c3 u0 u1 u2 v0 v1 v2) u0 u0')
    (hu1 : Near (offlineEb z1 z2 z3 c0 c1 c2 c3 u0 u1 u2 v0 v1 v2) u1 u1')
    (hu2 : Near (offlineEb z1 z2 z3 c0 c1 c2 c3 u0 u1 u2 v0 v1 v2) u2 u2')
    (hv0 : Near (offlineEb z1 z2 z3 c0 c1 c2 c3 u0 u1 u2 v0 v1 v2) v0 v0')
    (hv1 : Near (offlineEb z1 z2 z3 c0 c1 c2 c3 u0 u1 u2 v0 v1 v2) v1 v1')
    (hv2 : Near (offlineEb z1 z2 z3 c0 c1 c2 c3 u0 u1 u2 v0 v1 v2) v2 v2') :
    HasCP (u0, v0) (u1, v1) (u2, v2) ↔ HasCP (u0', v0') (u1', v1') (u2', v2') := by
  rcases le_or_gt (offlineEb z1 z2 z3 c0 c1 c2 c3 u0 u1 u2 v0 v1 v2) 0 with h | h
  · rw [near_nonpos hu0 h, near_nonpos hu1 h, near_nonpos hu2 h, near_nonpos hv0 h,
      near_nonpos hv1 h, near_nonpos hv2 h]
  · obtain ⟨e, h0, h1, h2⟩ := near_common
      (l := [(u0, u0'), (u1, u1'), (u2, u2'), (v0, v0'), (v1, v1'), (v2, v2')])
      (by simp [hu0, hu1, hu2, hv0, hv1, hv2]) h
    exact (position_kept h0 h1 (h2 (u0, u0') (by simp)) (h2 (u1, u1') (by simp))
      (h2 (u2, u2') (by simp)) (h2 (v0, v0') (by simp)) (h2 (v1, v1') (by simp))
      (h2 (v2, v2') (by simp))).symm

theorem flag_of_weight {z : Bool} {det m a : ℝ} (ha : 0 < a) (ha1 : a ≤ 1) (hd : det ≠ 0)
    (h : m = a * det) : flag z det m = true := by
  unfold flag
  have hm : m ≠ 0 := by rw [h]; exact mul_ne_zero ha.ne' hd
  rw [if_neg hm, decide_eq_true_eq, h]
  have : det / (a * det) = 1 / a := by field_simp
  rw [this, le_div_iff₀ ha]
  linarith

/-- With a zero of positive weights all three tests succeed, so the bound is at most that of
the type. -/
theorem inner_le (h : InnerCP (u0, v0) (u1, v1) (u2, v2))
    (hp : 0 < offlineEb z1 z2 z3 c0 c1 c2 c3 u0 u1 u2 v0 v1 v2) :
    offlineEb z1 z2 z3 c0 c1 c2 c3 u0 u1 u2 v0 v1 v2 ≤ keepDelta c0 c1 c2 c3 u0 u1 u2 v0 v1 v2 := by
  obtain ⟨a, b, c, ha, hb, hc, hs, e1, e2⟩ := h
  simp only at e1 e2
  unfold offlineEb at hp ⊢
  simp only at hp ⊢
  by_cases hd : u0 * v1 - u1 * v0 + u1 * v2 - u2 * v1 + u2 * v0 - u0 * v2 = 0
  · rw [if_pos hd] at hp; exact absurd hp (lt_irrefl 0)
  rw [if_neg hd]
  have f1 := flag_of_weight (z := z1) (m := u2 * v0 - u0 * v2) hb (by linarith) hd (by
    have : c = 1 - a - b := by linarith
    subst this
    linear_combination (u2 - u0) * e2 - (v2 - v0) * e1)
  have f2 := flag_of_weight (z := z2) (m := u1 * v2 - u2 * v1) ha (by linarith) hd (by
    have : c = 1 - a - b := by linarith
    subst this
    linear_combination (u1 - u2) * e2 - (v1 - v2) * e1)
  have f3 := flag_of_weight (z := z3) (m := u0 * v1 - u1 * v0) hc (by linarith) hd (by
    have : c = 1 - a - b := by linarith
    subst this
    linear_combination (u0 - u1) * e2 - (v0 - v1) * e1)
  rw [f1, f2, f3]
  simp only [Bool.and_self, if_true]
  exact (minf_le_right _ _).trans (minf_le_right _ _)

end

/-! ### Bounds of all vertices -/

theorem foldl_le {α : Type} (F : (Nat → ℝ) → α → Nat → ℝ) (p : Nat)
    (h : ∀ eb x, F eb x p ≤ eb p) (l : List α) (eb : Nat → ℝ) : l.foldl F eb p ≤ eb p := by
  induction l generalizing eb with
  | nil => exact le_rfl
  | cons x l ih => exact (ih _).trans (h _ _)

theorem foldl_mem_le {α : Type} (F : (Nat → ℝ) → α → Nat → ℝ) (p : Nat) (c : ℝ)
    (h : ∀ eb x, F eb x p ≤ eb p) (l : List α) (x : α) (hx : x ∈ l) (hc : ∀ eb, F eb x p ≤ c)
    (eb : Nat → ℝ) : l.foldl F eb p ≤ c := by
  induction l generalizing eb with
  | nil => simp at hx
  | cons y l ih =>
    rcases List.mem_cons.1 hx with rfl | hx
    · exact (foldl_le F p h l _).trans (hc eb)
    · exact ih hx _

theorem lower_le (cur : ℝ) (eb : Nat → ℝ) (ps : List Nat) (p : Nat) :
    lower realD.lt cur eb ps p ≤ eb p := by
  unfold lower
  refine foldl_le _ p (fun eb x => ?_) ps eb
  split
  · rename_i h
    subst h
    simp only [realD, decide_eq_true_eq]
    split
    · exact le_rfl
    · rename_i h; exact not_lt.1 h
  · exact le_rfl

theorem lower_mem (cur : ℝ) (eb : Nat → ℝ) (ps : List Nat) (p : Nat) (h : p ∈ ps) :
    lower realD.lt cur eb ps p ≤ cur := by
  unfold lower
  refine foldl_mem_le _ p cur (fun eb x => ?_) ps p h (fun eb => ?_) eb
  · have := lower_le cur eb [x] p
    simpa [lower] using this
  · rw [if_pos rfl]
    simp only [realD, decide_eq_true_eq]
    split
    · rename_i h; exact h.le
    · exact le_rfl

theorem ebSweep_le (cur : Nat → Bool → ℝ) (r1 r2 : Nat) (eb0 : ℝ) (p : Nat) :
    ebSweep realD.lt cur r1 r2 eb0 p ≤ eb0 := by
  unfold ebSweep
  exact foldl_le _ p (fun eb i => foldl_le _ p (fun eb j => foldl_le _ p
    (fun eb k => lower_le _ _ _ _) _ _) _ _) _ (fun _ => eb0)

theorem ebSweep_tri (cur : Nat → Bool → ℝ) (r1 r2 : Nat) (eb0 : ℝ) (i j : Nat) (k : Bool)
    (hi : i + 1 < r1) (hj : j + 1 < r2) (o : Nat) (ho : o ∈ cellOff r2 k) :
    ebSweep realD.lt cur r1 r2 eb0 (i * r2 + j + o) ≤ cur (i * r2 + j) k := by
  unfold ebSweep
  refine foldl_mem_le _ _ _ (fun eb i => foldl_le _ _ (fun eb j => foldl_le _ _
    (fun eb k => lower_le _ _ _ _) _ _) _ _) _ i (List.mem_range.2 (by omega)) (fun eb => ?_) _
  refine foldl_mem_le _ _ _ (fun eb j => foldl_le _ _
    (fun eb k => lower_le _ _ _ _) _ _) _ j (List.mem_range.2 (by omega)) (fun eb => ?_) _
  refine foldl_mem_le _ _ _ (fun eb k => lower_le _ _ _ _) _ k (by cases k <;> simp)
    (fun eb => ?_) _
  exact lower_mem _ _ _ _ (List.mem_map.2 ⟨o, ho, rfl⟩)

/-! ### Grid -/

theorem coefC_false : coefC false = (0, -1, -1, 1) := by
  unfold coefC adjC cellX
  norm_num

theorem coefC_true : coefC true = (-1, 1, 0, -1) := by
  unfold coefC adjC cellX
  norm_num

/-- Trace and determinant of the Jacobian are those used in the bound. -/
theorem jac_coef {r2 : Nat} {f : Online2D.Field ℝ} {t : Tri} {J : Jac} (h : t.isJac r2 f J) :
    J.tr = trC (coefC t.up).1 (coefC t.up).2.1 (coefC t.up).2.2.1 (coefC t.up).2.2.2
      (t.vec r2 f 0).1 (t.vec r2 f 1).1 (t.vec r2 f 2).1
      (t.vec r2 f 0).2 (t.vec r2 f 1).2 (t.vec r2 f 2).2 ∧
    J.det = detC (coefC t.up).1 (coefC t.up).2.1 (coefC t.up).2.2.1 (coefC t.up).2.2.2
      (t.vec r2 f 0).1 (t.vec r2 f 1).1 (t.vec r2 f 2).1
      (t.vec r2 f 0).2 (t.vec r2 f 1).2 (t.vec r2 f 2).2 := by
  obtain ⟨a, b, up⟩ := t
  unfold Tri.isJac IsJac at h
  cases up
  · rw [coefC_false]
    simp only [Tri.verts, Bool.false_eq_true, if_false] at h
    have e1 := h (a + 1, b + 1) (by simp) (a + 1, b) (by simp)
    have e2 := h (a + 1, b) (by simp) (a, b) (by simp)
    push_cast at e1 e2
    simp only [Tri.vec, Tri.verts, Bool.false_eq_true, if_false, List.getD_cons_zero,
      List.getD_cons_succ, trC, detC, Jac.tr, Jac.det]
    have a1 : J.ux = gridVal r2 f.u (a + 1, b + 1) - gridVal r2 f.u (a + 1, b) := by linarith [e1.1]
    have a2 : J.uy = gridVal r2 f.u (a + 1, b) - gridVal r2 f.u (a, b) := by linarith [e2.1]
    have a3 : J.vx = gridVal r2 f.v (a + 1, b + 1) - gridVal r2 f.v (a + 1, b) := by linarith [e1.2]
    have a4 : J.vy = gridVal r2 f.v (a + 1, b) - gridVal r2 f.v (a, b) := by linarith [e2.2]
    rw [a1, a2, a3, a4]
    constructor <;> ring
  · rw [coefC_true]
    simp only [Tri.verts, if_true] at h
    have e1 := h (a, b + 1) (by simp) (a, b) (by simp)
    have e2 := h (a + 1, b + 1) (by simp) (a, b + 1) (by simp)
    push_cast at e1 e2
    simp only [Tri.vec, Tri.verts, if_true, List.getD_cons_zero,
      List.getD_cons_succ, trC, detC, Jac.tr, Jac.det]
    have a1 : J.ux = gridVal r2 f.u (a, b + 1) - gridVal r2 f.u (a, b) := by linarith [e1.1]
    have a2 : J.uy = gridVal r2 f.u (a + 1, b + 1) - gridVal r2 f.u (a, b + 1) := by linarith [e2.1]
    have a3 : J.vx = gridVal r2 f.v (a, b + 1) - gridVal r2 f.v (a, b) := by linarith [e1.2]
    have a4 : J.vy = gridVal r2 f.v (a + 1, b + 1) - gridVal r2 f.v (a, b + 1) := by linarith [e2.2]
    rw [a1, a2, a3, a4]
    constructor <;> ring

/-- The field after compression is within the bounds of all vertices. -/
def NearField (r1 r2 : Nat) (eb : Nat → ℝ) (f f' : Online2D.Field ℝ) : Prop :=
  ∀ p < r1 * r2, Near (eb p) (f.u p) (f'.u p) ∧ Near (eb p) (f.v p) (f'.v p)

theorem Near.mono {e e' x x' : ℝ} (h : Near e x x') (he : e ≤ e') : Near e' x x' := by
  rcases h with h | h
  · exact Or.inl h
  · exact Or.inr (h.trans_le (mul_le_mul_of_nonneg_right he (abs_nonneg x)))

theorem tri_near {z : Nat → Bool → Bool × Bool × Bool} {r1 r2 : Nat} {maxEb : ℝ}
    {f f' : Online2D.Field ℝ} (h : NearField r1 r2 (vertexEb z f.u f.v r1 r2 maxEb) f f')
    (t : Tri) (ht : t.inGrid r1 r2) (q : Nat) (hq : q < 3) :
    Near (triBound z f.u f.v r2 (t.a * r2 + t.b) t.up) (t.vec r2 f q).1 (t.vec r2 f' q).1 ∧
    Near (triBound z f.u f.v r2 (t.a * r2 + t.b) t.up) (t.vec r2 f q).2 (t.vec r2 f' q).2 ∧
    (t.vec r2 f q) = (f.u (t.a * r2 + t.b + (cellOff r2 t.up).getD q 0),
      f.v (t.a * r2 + t.b + (cellOff r2 t.up).getD q 0)) := by
  obtain ⟨a, b, up⟩ := t
  obtain ⟨ha, hb⟩ := ht
  simp only at ha hb ⊢
  have hr : (a + 1 + 1) * r2 ≤ r1 * r2 := Nat.mul_le_mul_right r2 (by omega)
  have hr' : (a + 1 + 1) * r2 = a * r2 + r2 + r2 := by ring
  have hr'' : (a + 1) * r2 = a * r2 + r2 := by ring
  have key : ∀ o, o ∈ cellOff r2 up → o ≤ r2 + 1 →
      Near (triBound z f.u f.v r2 (a * r2 + b) up) (f.u (a * r2 + b + o)) (f'.u (a * r2 + b + o)) ∧
      Near (triBound z f.u f.v r2 (a * r2 + b) up) (f.v (a * r2 + b + o))
        (f'.v (a * r2 + b + o)) := by
    intro o ho ho'
    obtain ⟨n1, n2⟩ := h (a * r2 + b + o) (by omega)
    have := ebSweep_tri (triBound z f.u f.v r2) r1 r2 maxEb a b up ha hb o ho
    exact ⟨n1.mono this, n2.mono this⟩
  have hix : ∀ g : Nat → ℝ, (gridVal r2 g (((⟨a, b, up⟩ : Tri).verts).getD q (0, 0))) =
      g (a * r2 + b + (cellOff r2 up).getD q 0) := by
    intro g
    unfold gridVal Tri.verts cellOff
    interval_cases q <;> cases up <;> simp only [Bool.false_eq_true, if_false, if_true,
      List.getD_cons_zero, List.getD_cons_succ] <;> congr 1 <;> ring
  have hmem : (cellOff r2 up).getD q 0 ∈ cellOff r2 up ∧ (cellOff r2 up).getD q 0 ≤ r2 + 1 := by
    unfold cellOff
    interval_cases q <;> cases up <;> simp
  obtain ⟨k1, k2⟩ := key _ hmem.1 hmem.2
  simp only [Tri.vec]
  rw [hix, hix, hix, hix]
  exact ⟨k1, k2, rfl⟩

/-- Exact arithmetic: a field within the bounds of all vertices has critical points in the same
triangles; those inside their triangle keep their type. -/
theorem grid_kept {z : Nat → Bool → Bool × Bool × Bool} {r1 r2 : Nat} {maxEb : ℝ}
    {f f' : Online2D.Field ℝ} (h : NearField r1 r2 (vertexEb z f.u f.v r1 r2 maxEb) f f')
    (t : Tri) (ht : t.inGrid r1 r2) :
    (t.hasCP r2 f ↔ t.hasCP r2 f') ∧
    (InnerCP (t.vec r2 f 0) (t.vec r2 f 1) (t.vec r2 f 2) →
      ∀ J J', t.isJac r2 f J → t.isJac r2 f' J' → SameType J J') := by
  obtain ⟨p0, q0, e0⟩ := tri_near h t ht 0 (by omega)
  obtain ⟨p1, q1, e1⟩ := tri_near h t ht 1 (by omega)
  obtain ⟨p2, q2, e2⟩ := tri_near h t ht 2 (by omega)
  set B := triBound z f.u f.v r2 (t.a * r2 + t.b) t.up with hB
  have hBe : B = offlineEb (z (t.a * r2 + t.b) t.up).1 (z (t.a * r2 + t.b) t.up).2.1
      (z (t.a * r2 + t.b) t.up).2.2 (coefC t.up).1 (coefC t.up).2.1 (coefC t.up).2.2.1
      (coefC t.up).2.2.2 (t.vec r2 f 0).1 (t.vec r2 f 1).1 (t.vec r2 f 2).1
      (t.vec r2 f 0).2 (t.vec r2 f 1).2 (t.vec r2 f 2).2 := by
    rw [hB, e0, e1, e2]
    rfl
  refine ⟨?_, fun hin J J' hJ hJ' => ?_⟩
  · rw [hBe] at p0 p1 p2 q0 q1 q2
    exact cp_kept p0 p1 p2 q0 q1 q2
  · obtain ⟨t1, d1⟩ := jac_coef hJ
    obtain ⟨t2, d2⟩ := jac_coef hJ'
    rcases le_or_gt B 0 with hb | hb
    · have same : J.tr = J'.tr ∧ J.det = J'.det := by
        rw [t1, t2, d1, d2, near_nonpos p0 hb, near_nonpos p1 hb, near_nonpos p2 hb,
          near_nonpos q0 hb, near_nonpos q1 hb, near_nonpos q2 hb]
        exact ⟨rfl, rfl⟩
      have hdisc : J.disc = J'.disc := by unfold Jac.disc; rw [same.1, same.2]
      refine ⟨by rw [same.2], by rw [hdisc], fun _ => by rw [same.1], ?_⟩
      unfold cpType
      rw [hdisc, same.1]
    · obtain ⟨e, h0, h1, h2⟩ := near_common
        (l := [((t.vec r2 f 0).1, (t.vec r2 f' 0).1), ((t.vec r2 f 1).1, (t.vec r2 f' 1).1),
          ((t.vec r2 f 2).1, (t.vec r2 f' 2).1), ((t.vec r2 f 0).2, (t.vec r2 f' 0).2),
          ((t.vec r2 f 1).2, (t.vec r2 f' 1).2), ((t.vec r2 f 2).2, (t.vec r2 f' 2).2)])
        (by simp [p0, p1, p2, q0, q1, q2]) hb
      have hle := inner_le (z1 := (z (t.a * r2 + t.b) t.up).1)
        (z2 := (z (t.a * r2 + t.b) t.up).2.1) (z3 := (z (t.a * r2 + t.b) t.up).2.2)
        (c0 := (coefC t.up).1) (c1 := (coefC t.up).2.1) (c2 := (coefC t.up).2.2.1)
        (c3 := (coefC t.up).2.2.2) (u0 := (t.vec r2 f 0).1) (u1 := (t.vec r2 f 1).1)
        (u2 := (t.vec r2 f 2).1) (v0 := (t.vec r2 f 0).2) (v1 := (t.vec r2 f 1).2)
        (v2 := (t.vec r2 f 2).2) hin (by rw [← hBe]; exact hb)
      rw [← hBe] at hle
      obtain ⟨k1, k2, k3⟩ := type_kept h0 (h1.trans_le hle)
        (h2 ((t.vec r2 f 0).1, (t.vec r2 f' 0).1) (by simp))
        (h2 ((t.vec r2 f 1).1, (t.vec r2 f' 1).1) (by simp))
        (h2 ((t.vec r2 f 2).1, (t.vec r2 f' 2).1) (by simp))
        (h2 ((t.vec r2 f 0).2, (t.vec r2 f' 0).2) (by simp))
        (h2 ((t.vec r2 f 1).2, (t.vec r2 f' 1).2) (by simp))
        (h2 ((t.vec r2 f 2).2, (t.vec r2 f' 2).2) (by simp))
      rw [← d1, ← d2] at k1
      rw [← t1, ← t2] at k2
      rw [← t1, ← t2, ← d1, ← d2] at k3
      exact ⟨sign_eq_of_mul_pos k1, sign_eq_of_mul_pos k3, fun _ => k2.symm,
        cpType_eq k1 k3 (fun _ => k2.symm)⟩

/-! ### Quantised bounds -/

section
variable {base : Nat} {thr : ℝ}

/-- Settings over ℝ. -/
noncomputable def parR (base : Nat) (thr : ℝ) : QPar ℝ := ⟨base, Real.logb 2 base, thr⟩

theorem quantRel_fst (hb : 2 ≤ base) (ht : 0 < thr) (x e : ℝ) :
    quantRel realO (parR base thr) x e =
      ebQuant realD base (Real.logb 2 base) thr (|x| * e) := by
  have hs := ebQuant_spec base (by exact_mod_cast hb) thr (|x| * e) ht
  unfold quantRel parR
  simp only [realO, Int.cast_natCast] at hs ⊢
  obtain ⟨s1, -, s3, s4⟩ := hs
  set r := ebQuant realD base (Real.logb 2 base) thr (|x| * e) with hr
  refine Prod.ext ?_ rfl
  show (if decide (r.1 < thr) = true then ((0 : ℤ) : ℝ) else r.1) = r.1
  simp only [decide_eq_true_eq, Int.cast_zero]
  split
  · rename_i hlt
    rcases le_or_gt (|x| * e) thr with h | h
    · rw [s4 h]
    · obtain ⟨a, b, c⟩ := s3 h
      have : (1 : ℝ) ≤ (base : ℝ) ^ r.2 := one_le_zpow₀ (by
        have : (2 : ℝ) ≤ base := by exact_mod_cast hb
        linarith) s1
      nlinarith
  · rfl

/-- Compressor and decompressor use the same bound unless it is between the threshold and
`base` times the threshold. -/
theorem agree_iff (hb : 2 ≤ base) (ht : 0 < thr) (x : ℝ) :
    decBound realD (parR base thr) (ebQuant realD base (Real.logb 2 base) thr x).2 =
      (ebQuant realD base (Real.logb 2 base) thr x).1 ↔ ¬ (thr < x ∧ x < base * thr) := by
  have hs := ebQuant_spec base (by exact_mod_cast hb) thr x ht
  simp only [Int.cast_natCast] at hs
  obtain ⟨s1, s2, s3, s4⟩ := hs
  set r := ebQuant realD base (Real.logb 2 base) thr x with hr
  unfold decBound parR
  rcases le_or_gt x thr with h | h
  · rw [s4 h]
    simp only [realD, if_true, Int.cast_zero, true_iff, not_and]
    intro h'; linarith
  · obtain ⟨a, b, c⟩ := s3 h
    by_cases h0 : r.2 = 0
    · rw [if_pos h0]
      have hx := s2.1 h0
      simp only [realD, Int.cast_zero, h, hx, true_and, not_true, iff_false]
      rw [a, h0, zpow_zero, one_mul]
      exact ht.ne
    · rw [if_neg h0]
      have : ¬ x < base * thr := fun h' => h0 (s2.2 h')
      simp only [realD, a, Int.cast_natCast, true_iff, not_and]
      exact fun _ => this

/-- The bound is below its unquantised value unless that is the threshold times a power. -/
theorem quant_lt (hb : 2 ≤ base) (ht : 0 < thr) {x : ℝ} (hx : thr < x)
    (hne : ∀ k : Nat, x ≠ (base : ℝ) ^ k * thr) :
    0 < (ebQuant realD base (Real.logb 2 base) thr x).1 ∧
      (ebQuant realD base (Real.logb 2 base) thr x).1 < x := by
  have hs := ebQuant_spec base (by exact_mod_cast hb) thr x ht
  simp only [Int.cast_natCast] at hs
  obtain ⟨s1, -, s3, -⟩ := hs
  obtain ⟨a, b, -⟩ := s3 hx
  have hb0 : (0 : ℝ) < base := by
    have : (2 : ℝ) ≤ base := by exact_mod_cast hb
    linarith
  refine ⟨by rw [a]; positivity, lt_of_le_of_ne b fun h => ?_⟩
  obtain ⟨k, hk⟩ := Int.eq_ofNat_of_zero_le s1
  rw [a, hk, zpow_natCast] at h
  exact hne k h.symm

theorem quant_zero (hb : 2 ≤ base) (ht : 0 < thr) {x : ℝ} (hx : x ≤ thr) :
    ebQuant realD base (Real.logb 2 base) thr x = (0, 0) := by
  have hs := ebQuant_spec base (by exact_mod_cast hb) thr x ht
  simp only [Int.cast_natCast] at hs
  exact hs.2.2.2 hx

/-- A bound that the quantiser treats without trouble: lossless, or at least `base` times the
threshold and not exactly a power. -/
def Clear (base : Nat) (thr x : ℝ) : Prop :=
  x ≤ thr ∨ (base * thr ≤ x ∧ ∀ k : Nat, x ≠ (base : ℝ) ^ k * thr)

end

/-! ### Runs -/

/-- The block codec with equal bounds on both sides. -/
theorem runEb_exact (data precC precD : Nat → ℝ) (r1 r2 bs : Nat) (h1 : 0 < r1) (h2 : 0 < r2)
    (hb : 0 < bs) (h : ∀ p < r1 * r2, precD p = precC p) (hp : ∀ p < r1 * r2, 0 ≤ precC p)
    (out0 : Nat → ℝ) :
    ∃ out, runEb realB data precC precD r1 r2 bs out0 = some out ∧
      ∀ p < r1 * r2, |out p - data p| ≤ precC p := by
  obtain ⟨d, hd, ha⟩ := C31_exact data precD r1 r2 bs h1 h2 hb
    (fun p hp' => by rw [h p hp']; exact hp p hp') out0
  refine ⟨d.out, ?_, fun p hp' => by rw [← h p hp']; exact ha p hp'⟩
  unfold runEb
  rw [← outEb2_congr realB data precC precD r1 r2 bs h1 h2 hb h]
  have hz : realB.zeroT = 0 := rfl
  have ht : realB.tenth = 1 / 10 := rfl
  rw [hz, ht, hd]
  rfl

theorem runRel_near {base : Nat} {thr : ℝ} (hb : 2 ≤ base) (ht : 0 < thr) (data eb : Nat → ℝ)
    (r1 r2 bs : Nat) (h1 : 0 < r1) (h2 : 0 < r2) (hbs : 0 < bs)
    (hc : ∀ p < r1 * r2, Clear base thr (|data p| * eb p)) (out0 : Nat → ℝ) :
    ∃ out, runRel realO (parR base thr) realB data eb r1 r2 bs out0 = some out ∧
      ∀ p < r1 * r2, Near (eb p) (data p) (out p) := by
  obtain ⟨out, ho, ha⟩ := runEb_exact data
    (fun i => (quantRel realO (parR base thr) (data i) (eb i)).1)
    (fun i => decBound realO.d (parR base thr)
      (quantRel realO (parR base thr) (data i) (eb i)).2) r1 r2 bs h1 h2 hbs
    (fun p hp => by
      rw [quantRel_fst hb ht]
      refine (agree_iff hb ht _).2 ?_
      rintro ⟨a, b⟩
      rcases hc p hp with h | h
      · linarith
      · linarith [h.1])
    (fun p hp => by
      rw [quantRel_fst hb ht]
      rcases hc p hp with h | h
      · rw [quant_zero hb ht h]
      · have hb2 : (2 : ℝ) ≤ base := by exact_mod_cast hb
        exact (quant_lt hb ht (by nlinarith [h.1]) h.2).1.le)
    out0
  refine ⟨out, ho, fun p hp => ?_⟩
  have hp' := ha p hp
  beta_reduce at hp'
  rw [quantRel_fst hb ht] at hp'
  rcases hc p hp with h | h
  · rw [quant_zero hb ht h] at hp'
    exact Or.inl (sub_eq_zero.1 (abs_eq_zero.1 (le_antisymm hp' (abs_nonneg _))))
  · have hb2 : (2 : ℝ) ≤ base := by exact_mod_cast hb
    refine Or.inr ?_
    rw [mul_comm]
    exact hp'.trans_lt (quant_lt hb ht (by nlinarith [h.1]) h.2).2

theorem runLog_near {base : Nat} {thr : ℝ} (hb : 2 ≤ base) (ht : 0 < thr) (data eb : Nat → ℝ)
    (r1 r2 bs : Nat) (h1 : 0 < r1) (h2 : 0 < r2) (hbs : 0 < bs)
    (heb : ∀ p < r1 * r2, 0 ≤ eb p ∧ eb p < 1)
    (hc : ∀ p < r1 * r2, Clear base thr (Real.logb 2 (1 + eb p)))
    (hmin : ∀ p < r1 * r2, data p = 0 ∨ (2 : ℝ) ^ (-98 : ℤ) ≤ |data p|) (out0 : Nat → ℝ) :
    ∃ out, runLog realO (parR base thr) realB data eb r1 r2 bs out0 = some out ∧
      ∀ p < r1 * r2, Near (eb p) (data p) (out p) := by
  obtain ⟨out, ho, ha⟩ := runEb_exact (fun i => logOf realO (data i))
    (fun i => (quantLog realO (parR base thr) (eb i)).1)
    (fun i => decBound realO.d (parR base thr)
      (quantLog realO (parR base thr) (eb i)).2) r1 r2 bs h1 h2 hbs
    (fun p hp => by
      refine (agree_iff hb ht _).2 ?_
      rintro ⟨a, b⟩
      simp only [realO] at a b
      rcases hc p hp with h | h
      · linarith
      · linarith [h.1])
    (fun p hp => by
      show 0 ≤ (ebQuant realD base (Real.logb 2 base) thr (Real.logb 2 (1 + eb p))).1
      rcases hc p hp with h | h
      · rw [quant_zero hb ht h]
      · have hb2 : (2 : ℝ) ≤ base := by exact_mod_cast hb
        exact (quant_lt hb ht (by nlinarith [h.1]) h.2).1.le)
    out0
  refine ⟨_, by unfold runLog; rw [ho]; rfl, fun p hp => ?_⟩
  have hp' : |out p - logOf realO (data p)| ≤
    (ebQuant realD base (Real.logb 2 base) thr (Real.logb 2 (1 + eb p))).1 := ha p hp
  beta_reduce
  set b := (ebQuant realD base (Real.logb 2 base) thr (Real.logb 2 (1 + eb p))).1 with hbd
  have hb2 : (2 : ℝ) ≤ base := by exact_mod_cast hb
  -- `b = 0` or `0 < b < log2 (1 + eb)`
  have hcase : b = 0 ∨ (0 < b ∧ b < Real.logb 2 (1 + eb p)) := by
    rcases hc p hp with h | h
    · left; rw [hbd, quant_zero hb ht h]
    · right; exact quant_lt hb ht (by nlinarith [h.1]) h.2
  have hpos : 0 < 1 + eb p := by linarith [(heb p hp).1]
  have hb1 : b < 1 := by
    rcases hcase with h | ⟨h, h'⟩
    · rw [h]; norm_num
    · refine h'.trans_le ?_
      have := Real.logb_le_logb_of_le (b := 2) (by norm_num) hpos
        (show 1 + eb p ≤ 2 by linarith [(heb p hp).2])
      rwa [Real.logb_self_eq_one (by norm_num)] at this
  obtain ⟨l1, l2⟩ := abs_le.1 hp'
  by_cases hx : data p = 0
  · left
    have hl : logOf realO (data p) = -100 := by simp [logOf, realO, hx]
    rw [hl] at l2
    have : out p < -99 := by linarith
    simp [post, realO, this, hx]
  · have hl : logOf realO (data p) = Real.logb 2 |data p| := by
      unfold logOf
      simp only [realO, hx, decide_false, Bool.false_eq_true, if_false, decide_eq_true_eq]
      split
      · rename_i h; rw [abs_of_pos h]
      · rename_i h; rw [abs_of_nonpos (not_lt.1 h)]
    rw [hl] at l1 l2 hp'
    have h98 : (-98 : ℝ) ≤ Real.logb 2 |data p| := by
      rw [Real.le_logb_iff_rpow_le (by norm_num) (abs_pos.2 hx)]
      have := (hmin p hp).resolve_left hx
      have e : ((2 : ℝ) ^ (-98 : ℝ)) = (2 : ℝ) ^ (-98 : ℤ) := by
        rw [← Real.rpow_intCast]; norm_num
      rw [e]; exact this
    have hlow : ¬ out p < -99 := by linarith
    have hpw : (1 : ℝ) ≤ (2 : ℝ) ^ b := by
      apply Real.one_le_rpow (by norm_num)
      rcases hcase with h | h
      · rw [h]
      · exact h.1.le
    have key := Pwr.rel_of_log (data p) (out p) b ((2 : ℝ) ^ b - 1) hx (by linarith) hp' (by
      rw [add_sub_cancel, Real.logb_rpow (by norm_num) (by norm_num)])
    have hval : post realO (signOf realO (data p)) (out p) - data p = (2 : ℝ) ^ (out p) - |data p| ∨
        post realO (signOf realO (data p)) (out p) - data p = -((2 : ℝ) ^ (out p) - |data p|) := by
      rcases lt_or_gt_of_ne hx with h | h
      · right
        have hs : signOf realO (data p) = false := by simp [signOf, realO, not_lt.2 h.le]
        rw [hs]
        simp only [post, realO, hlow, decide_false, Bool.false_eq_true, if_false]
        rw [abs_of_neg h]; ring
      · left
        have hs : signOf realO (data p) = true := by simp [signOf, realO, h, hx]
        rw [hs]
        simp only [post, realO, hlow, decide_false, Bool.false_eq_true, if_false, if_true]
        rw [abs_of_pos h]
    have habs : |post realO (signOf realO (data p)) (out p) - data p| ≤
        ((2 : ℝ) ^ b - 1) * |data p| := by
      rcases hval with h | h
      · rw [h]; exact key
      · rw [h, abs_neg]; exact key
    rcases hcase with h | ⟨-, h⟩
    · left
      rw [h, Real.rpow_zero, sub_self, zero_mul] at habs
      exact sub_eq_zero.1 (abs_eq_zero.1 (le_antisymm habs (abs_nonneg _)))
    · right
      refine habs.trans_lt (mul_lt_mul_of_pos_right ?_ (abs_pos.2 hx))
      have := (Real.lt_logb_iff_rpow_lt (by norm_num) hpos).1 h
      linarith

/-! ### Signs of the bounds -/

theorem keepSgn_nonneg (d : ℕ) (l : List ℝ) : 0 ≤ keepSgn d l := by
  unfold keepSgn
  split
  · norm_num
  · have h1 : 0 ≤ root d (posSum l) := Real.rpow_nonneg (posSum_nonneg l) _
    have h2 : 0 ≤ root d (negSum l) := Real.rpow_nonneg (negSum_nonneg l) _
    positivity

theorem minf_nonneg {a b : ℝ} (ha : 0 ≤ a) (hb : 0 ≤ b) : 0 ≤ minf a b := by
  unfold minf; split <;> assumption

theorem maxf_nonneg {a b : ℝ} (ha : 0 ≤ a) (hb : 0 ≤ b) : 0 ≤ maxf a b := by
  unfold maxf; split <;> assumption

theorem offlineEb_nonneg (z1 z2 z3 : Bool) (c0 c1 c2 c3 u0 u1 u2 v0 v1 v2 : ℝ) :
    0 ≤ offlineEb z1 z2 z3 c0 c1 c2 c3 u0 u1 u2 v0 v1 v2 := by
  have k := @keepSgn_nonneg
  have m := @minf_nonneg
  have x := @maxf_nonneg
  have kd : 0 ≤ keepDelta c0 c1 c2 c3 u0 u1 u2 v0 v1 v2 := by
    unfold keepDelta keepDet
    dsimp only
    split
    · exact le_rfl
    · split
      · exact m (k _ _) (k _ _)
      · exact m (m (k _ _) (k _ _)) (k _ _)
  unfold offlineEb
  dsimp only
  split
  · exact le_rfl
  split
  · exact m (m (m (k _ _) (k _ _)) (m (k _ _) (k _ _))) (m (m (k _ _) (k _ _)) kd)
  · have y : ∀ {b : Bool} {p q : ℝ}, 0 ≤ p → 0 ≤ q → 0 ≤ (if b then p else maxf p q) := by
      intro b p q hp hq
      split
      · exact hp
      · exact x hp hq
    exact y (y (y le_rfl (m (k _ _) (k _ _))) (m (k _ _) (k _ _))) (m (k _ _) (k _ _))

theorem foldl_nonneg {α : Type} (F : (Nat → ℝ) → α → Nat → ℝ)
    (h : ∀ eb x, (∀ p, 0 ≤ eb p) → ∀ p, 0 ≤ F eb x p) (l : List α) (eb : Nat → ℝ)
    (h0 : ∀ p, 0 ≤ eb p) : ∀ p, 0 ≤ l.foldl F eb p := by
  induction l generalizing eb with
  | nil => exact h0
  | cons x l ih => exact ih _ (h _ _ h0)

theorem vertexEb_nonneg (z : Nat → Bool → Bool × Bool × Bool) (u v : Nat → ℝ) (r1 r2 : Nat)
    (maxEb : ℝ) (h : 0 ≤ maxEb) (p : Nat) : 0 ≤ vertexEb z u v r1 r2 maxEb p := by
  unfold vertexEb ebSweep
  refine foldl_nonneg _ (fun eb i h => ?_) _ _ (fun _ => h) p
  refine foldl_nonneg _ (fun eb j h => ?_) _ _ h
  refine foldl_nonneg _ (fun eb k h => ?_) _ _ h
  unfold lower
  refine foldl_nonneg _ (fun eb o h => ?_) _ _ h
  intro q
  split
  · split
    · exact h _
    · exact offlineEb_nonneg ..
  · exact h q

end CpSZ.Offline2D
