import Verif.Props.Lattice
import Verif.Props.Sz3
import Verif.ThreeD.Grid
import Verif.Props.Affine
import Mathlib.Algebra.Polynomial.Eval.Degree
/-
C74: the predictors are exact on smooth data, and exact predictions give the middle code.
-/

namespace CpSZ

/-! ### Interpolation (SZ3 mode) -/

namespace Sz3

/-- Specification: the degree of the polynomials for which a stencil should be exact: one less
than the number of points it reads. -/
def Interp.order (k : Interp) : Nat := k.reads.length - 1

theorem eval_small {P : Polynomial ℝ} {n : Nat} (h : P.natDegree ≤ n) (x : ℝ) :
    P.eval x = ∑ i ∈ Finset.range (n + 1), P.coeff i * x ^ i :=
  Polynomial.eval_eq_sum_range' (by omega) x

/-- **C74** In exact arithmetic each interpolation formula reproduces every polynomial of the
degree that its number of points allows. -/
theorem C74_interpolation_exact (k : Interp) (hk : k ≠ .zero) (P : Polynomial ℝ)
    (h : P.natDegree ≤ k.order) :
    interp realD k (k.reads.map fun o : Int => P.eval (o : ℝ)) = some (P.eval 0) := by
  cases k with
  | zero => exact absurd rfl hk
  | left =>
    simp only [Interp.reads, interp, eval_small (n := 0) h]
    norm_num
  | linear =>
    simp only [Interp.reads, interp, realD, eval_small (n := 1) h,
      Finset.sum_range_succ, Finset.sum_range_zero]
    norm_num
    ring
  | quad1 =>
    simp only [Interp.reads, interp, realD, eval_small (n := 2) h,
      Finset.sum_range_succ, Finset.sum_range_zero]
    norm_num
    ring
  | quad2 =>
    simp only [Interp.reads, interp, realD, eval_small (n := 2) h,
      Finset.sum_range_succ, Finset.sum_range_zero]
    norm_num
    ring
  | cubic =>
    simp only [Interp.reads, interp, realD, eval_small (n := 3) h,
      Finset.sum_range_succ, Finset.sum_range_zero]
    norm_num
    ring

/-- **C74** and of no higher degree, which shows that the previous theorem is sharp. -/
theorem C74_interpolation_sharp (k : Interp) (hk : k ≠ .zero) :
    ∃ P : Polynomial ℝ, P.natDegree = k.order + 1 ∧
      interp realD k (k.reads.map fun o : Int => P.eval (o : ℝ)) ≠ some (P.eval 0) := by
  refine ⟨Polynomial.X ^ (k.order + 1), Polynomial.natDegree_X_pow _, ?_⟩
  simp only [Polynomial.eval_pow, Polynomial.eval_X]
  cases k with
  | zero => exact absurd rfl hk
  | left => norm_num [Interp.order, Interp.reads, interp]
  | linear => norm_num [Interp.order, Interp.reads, interp, realD]
  | quad1 => norm_num [Interp.order, Interp.reads, interp, realD]
  | quad2 => norm_num [Interp.order, Interp.reads, interp, realD]
  | cubic => norm_num [Interp.order, Interp.reads, interp, realD]

-- A cubic through the four points of the widest stencil.
example : interp realD .cubic [(-27 : ℝ) + 2, -1 + 2, 1 + 2, 27 + 2] = some 2 := by
  have := C74_interpolation_exact .cubic (by decide) (Polynomial.X ^ 3 + Polynomial.C 2)
    (by rw [Polynomial.natDegree_X_pow_add_C]; decide)
  norm_num [Interp.reads] at this ⊢
  exact this

/-- Prediction errors below the bound give the middle code and the prediction itself. -/
theorem quantT_middle (radius : Int) (hr : 0 < radius) (cur pred eb : ℝ)
    (h : |cur - pred| < eb) : quantT realD radius cur pred eb = (radius, pred, []) := by
  have he : 0 < eb := (abs_nonneg _).trans_lt h
  have hz : isZero realD eb = false := by
    unfold isZero realD
    simp only [Int.cast_zero, Bool.and_eq_false_iff, decide_eq_false_iff_not, not_le]
    exact Or.inl he
  have htr : realD.trunc (realD.div (realD.abs (realD.sub cur pred)) eb) = 0 := by
    show truncR (|cur - pred| / eb) = 0
    rw [truncR_nonneg (div_nonneg (abs_nonneg _) he.le)]
    rw [Int.floor_eq_zero_iff]
    exact ⟨div_nonneg (abs_nonneg _) he.le, (div_lt_one he).2 h⟩
  unfold quantT
  simp only [hz, Bool.false_eq_true, if_false, htr]
  rw [if_pos (by omega)]
  have hd : ¬ eb < |pred - cur| := by rw [abs_sub_comm]; linarith
  split_ifs with h1 h2 h3
  · exfalso
    simp only [realD] at h2
    norm_num at h2
    linarith
  · simp [realD]
  · exfalso
    simp only [realD] at h3
    norm_num at h3
    linarith
  · simp [realD]

theorem ebQuant_nonneg (base : Int) (lb thr eb : ℝ) (ht : 0 ≤ thr) (hb : 0 ≤ base) :
    0 ≤ (ebQuant realD base lb thr eb).1 := by
  unfold ebQuant
  split
  · simp [realD]
  · exact mul_nonneg (zpow_nonneg (by exact_mod_cast hb) _) ht

theorem readAll_poly (n : Nat) (f : Nat → ℝ) (pos stride : Nat) (P : Polynomial ℝ) (l : List Int)
    (h : ∀ o ∈ l, 0 ≤ (pos : Int) + o * stride ∧ (pos : Int) + o * stride < n ∧
      f ((pos : Int) + o * stride).toNat = P.eval (o : ℝ)) :
    readAll n f (l.map fun o => (pos : Int) + o * stride) =
      some (l.map fun o : Int => P.eval (o : ℝ)) := by
  induction l with
  | nil => rfl
  | cons o l ih =>
    obtain ⟨h0, h1, h2⟩ := h o (by simp)
    simp only [List.map_cons, readAll]
    rw [ih (fun o ho => h o (by simp [ho]))]
    unfold Mesh2D.rd
    rw [if_pos ⟨h0, by omega⟩, h2]

/-- **C74** A vertex of the SZ3 mode, exact arithmetic: where the two components lie, along the
direction of interpolation, on polynomials of the degree of the stencil, the values are kept as
they are.  Both get the middle code unless the bound is zero, in which case both are stored. -/
theorem C74_vertex_exact (P : Par ℝ) (hr : 0 < P.radius) (n : Nat)
    (bound : Fld ℝ → Ev → ℝ → Option ℝ) (f : Fld ℝ) (e : Ev) (hk : e.kind ≠ .zero)
    (pu pv : Polynomial ℝ) (hu : pu.natDegree ≤ e.kind.order) (hv : pv.natDegree ≤ e.kind.order)
    (hb : ∀ o ∈ e.kind.reads, 0 ≤ (e.pos : Int) + o * e.stride ∧
      (e.pos : Int) + o * e.stride < n)
    (hfu : ∀ o ∈ 0 :: e.kind.reads, f.u ((e.pos : Int) + o * e.stride).toNat = pu.eval (o : ℝ))
    (hfv : ∀ o ∈ 0 :: e.kind.reads, f.v ((e.pos : Int) + o * e.stride).toNat = pv.eval (o : ℝ))
    (f' : Fld ℝ) (c : Code ℝ) (h : encEv realS P n bound f e = some (f', c))
    (ht : 0 ≤ P.thr) (hbase : 0 ≤ P.base) :
    f'.u e.pos = f.u e.pos ∧ f'.v e.pos = f.v e.pos ∧
      ((c.qu = P.radius ∧ c.qv = P.radius ∧ c.un = []) ∨
        (c.qu = 0 ∧ c.qv = 0 ∧ c.un = [f.u e.pos, f.v e.pos])) := by
  have hu0 : f.u e.pos = pu.eval 0 := by have := hfu 0 (by simp); simpa using this
  have hv0 : f.v e.pos = pv.eval 0 := by have := hfv 0 (by simp); simpa using this
  have predU : predict realD n f.u e.toD = some (f.u e.pos) := by
    unfold predict DEv.reads Ev.toD
    simp only
    rw [readAll_poly n f.u e.pos e.stride pu _ (fun o ho => ⟨(hb o ho).1, (hb o ho).2,
      hfu o (by simp [ho])⟩)]
    simp only
    rw [C74_interpolation_exact e.kind hk pu hu, hu0]
  have predV : predict realD n f.v e.toD = some (f.v e.pos) := by
    unfold predict DEv.reads Ev.toD
    simp only
    rw [readAll_poly n f.v e.pos e.stride pv _ (fun o ho => ⟨(hb o ho).1, (hb o ho).2,
      hfv o (by simp [ho])⟩)]
    simp only
    rw [C74_interpolation_exact e.kind hk pv hv, hv0]
  unfold encEv at h
  cases hbd : bound f e (if e.half then P.ebHalf else P.ebFull) with
  | none => rw [hbd] at h; cases h
  | some b =>
    rw [hbd] at h
    simp only [realS, predU, predV, Option.some.injEq, Prod.mk.injEq] at h
    obtain ⟨rfl, rfl⟩ := h
    have h0 := ebQuant_nonneg P.base P.logBase P.thr b ht hbase
    generalize hE : ebQuant realD P.base P.logBase P.thr b = E at h0 ⊢
    rcases h0.eq_or_lt with h0 | h0
    · have hz : ∀ cur, quantT realD P.radius cur cur E.1 = (0, cur, [cur]) := by
        intro cur
        unfold quantT
        rw [if_pos]
        rw [← h0]
        simp [isZero, realD]
      simp [hz, Online2D.Field.set, Online2D.setAt]
    · have hz : ∀ cur, quantT realD P.radius cur cur E.1 = (P.radius, cur, []) :=
        fun cur => quantT_middle _ hr _ _ _ (by simpa using h0)
      simp [hz, Online2D.Field.set, Online2D.setAt]

-- A vertex in the middle of a row of seven on which the components are a cubic and a parabola.
example (bound : Fld ℝ → Ev → ℝ → Option ℝ) (f' : Fld ℝ) (c : Code ℝ)
    (h : encEv realS (parSz3 1) 49 bound ⟨fun p => ((p : ℝ) - 24) ^ 3, fun p => ((p : ℝ) - 24) ^ 2⟩
      ⟨24, 3, 3, 1, .cubic, false⟩ = some (f', c)) : f'.u 24 = 0 ∧ f'.v 24 = 0 := by
  have := C74_vertex_exact (parSz3 1) (by decide) 49 bound _ ⟨24, 3, 3, 1, .cubic, false⟩
    (by decide) (Polynomial.X ^ 3) (Polynomial.X ^ 2) (by rw [Polynomial.natDegree_X_pow]; decide)
    (by rw [Polynomial.natDegree_X_pow]; decide) (by decide)
    (by
      intro o ho
      simp only [Interp.reads, List.mem_cons, List.not_mem_nil, or_false] at ho
      rcases ho with rfl | rfl | rfl | rfl | rfl <;>
      norm_num [show Int.toNat 21 = 21 from rfl, show Int.toNat 23 = 23 from rfl,
        show Int.toNat 24 = 24 from rfl, show Int.toNat 25 = 25 from rfl,
        show Int.toNat 27 = 27 from rfl])
    (by
      intro o ho
      simp only [Interp.reads, List.mem_cons, List.not_mem_nil, or_false] at ho
      rcases ho with rfl | rfl | rfl | rfl | rfl <;>
      norm_num [show Int.toNat 21 = 21 from rfl, show Int.toNat 23 = 23 from rfl,
        show Int.toNat 24 = 24 from rfl, show Int.toNat 25 = 25 from rfl,
        show Int.toNat 27 = 27 from rfl])
    f' c h (by norm_num [parSz3]) (by norm_num [parSz3])
  simpa using And.intro this.1 this.2.1

end Sz3

/-! ### Lorenzo prediction -/

theorem lorenzo_interior (r2 : Nat) (f : Nat → ℝ) (i j : Nat) (hj : j + 1 < r2) :
    Online2D.lorenzo realOps r2 f ((i + 1) * r2 + (j + 1)) =
      f (i * r2 + (j + 1)) + f ((i + 1) * r2 + j) - f (i * r2 + j) := by
  have hd := Block.grid_div (X := i + 1) (d2 := r2) hj
  unfold Online2D.lorenzo
  rw [hd.1, hd.2]
  have e : (i + 1) * r2 = i * r2 + r2 := by ring
  simp only [ne_eq, Nat.succ_ne_zero, not_false_eq_true, and_self, if_true, realOps]
  rw [show (i + 1) * r2 + (j + 1) - 1 - r2 = i * r2 + j by omega,
    show (i + 1) * r2 + (j + 1) - r2 = i * r2 + (j + 1) by omega,
    show (i + 1) * r2 + (j + 1) - 1 = (i + 1) * r2 + j by omega]

/-- **C74** The 2D Lorenzo prediction is exact at all vertices off the first row and column
precisely for the fields that are a function of the row plus a function of the column. -/
theorem C74_lorenzo_2d (r1 r2 : Nat) (f : Nat → ℝ) :
    (∀ i < r1, ∀ j < r2, 0 < i → 0 < j →
      Online2D.lorenzo realOps r2 f (i * r2 + j) = f (i * r2 + j)) ↔
    ∃ a b : Nat → ℝ, ∀ i < r1, ∀ j < r2, f (i * r2 + j) = a i + b j := by
  constructor
  · intro h
    refine ⟨fun i => f (i * r2), fun j => f j - f 0, ?_⟩
    intro i
    induction i with
    | zero => intro _ j _; simp
    | succ i ih =>
      intro hi j
      induction j with
      | zero => intro _; simp
      | succ j ihj =>
        intro hj
        have := h (i + 1) hi (j + 1) hj (by omega) (by omega)
        rw [lorenzo_interior r2 f i j hj, ih (by omega) (j + 1) hj, ih (by omega) j (by omega),
          ihj (by omega)] at this
        linarith
  · rintro ⟨a, b, h⟩ i hi j hj i0 j0
    obtain ⟨i, rfl⟩ : ∃ k, i = k + 1 := ⟨i - 1, by omega⟩
    obtain ⟨j, rfl⟩ : ∃ k, j = k + 1 := ⟨j - 1, by omega⟩
    rw [lorenzo_interior r2 f i j hj, h _ (by omega) _ hj, h _ hi _ (by omega),
      h _ (by omega) _ (by omega), h _ hi _ hj]
    ring

open Block.Buf3 (idx3 idx3_div) in
theorem lorenzo3_interior (r2 r3 : Nat) (f : Nat → ℝ) (i j k : Nat) (hj : j + 1 < r2)
    (hk : k + 1 < r3) :
    ThreeD.lorenzo3 realOps r2 r3 f (idx3 r2 r3 (i + 1) (j + 1) (k + 1)) =
      f (idx3 r2 r3 (i + 1) (j + 1) k) + f (idx3 r2 r3 (i + 1) j (k + 1)) +
      f (idx3 r2 r3 i (j + 1) (k + 1)) - f (idx3 r2 r3 (i + 1) j k) -
      f (idx3 r2 r3 i (j + 1) k) - f (idx3 r2 r3 i j (k + 1)) + f (idx3 r2 r3 i j k) := by
  obtain ⟨e1, e2, e3⟩ := idx3_div (X := i + 1) hj hk
  have e1' : idx3 r2 r3 (i + 1) (j + 1) (k + 1) / (r2 * r3) = i + 1 := by
    rw [Nat.mul_comm, ← Nat.div_div_eq_div_mul, e1]
  unfold ThreeD.lorenzo3
  rw [e1', e2, e3]
  simp only [ne_eq, Nat.succ_ne_zero, not_false_eq_true, and_self, if_true, realOps]
  have a : (i + 1) * (r2 * r3) = i * (r2 * r3) + r2 * r3 := by ring
  have b : (j + 1) * r3 = j * r3 + r3 := by ring
  unfold idx3
  rw [a, b]
  generalize i * (r2 * r3) = x
  generalize j * r3 = y
  generalize r2 * r3 = m
  rw [show x + m + (y + r3) + (k + 1) - m - r3 - 1 = x + y + k by omega,
    show x + m + (y + r3) + (k + 1) - m - r3 = x + y + (k + 1) by omega,
    show x + m + (y + r3) + (k + 1) - m - 1 = x + (y + r3) + k by omega,
    show x + m + (y + r3) + (k + 1) - m = x + (y + r3) + (k + 1) by omega,
    show x + m + (y + r3) + (k + 1) - r3 - 1 = x + m + y + k by omega,
    show x + m + (y + r3) + (k + 1) - r3 = x + m + y + (k + 1) by omega,
    show x + m + (y + r3) + (k + 1) - 1 = x + m + (y + r3) + k by omega]
  ring

open Block.Buf3 (idx3) in
/-- **C74** The 3D Lorenzo prediction is exact at all vertices off the three first planes
precisely for the fields that are a sum of three functions of two coordinates each. -/
theorem C74_lorenzo_3d (r1 r2 r3 : Nat) (f : Nat → ℝ) :
    (∀ i < r1, ∀ j < r2, ∀ k < r3, 0 < i → 0 < j → 0 < k →
      ThreeD.lorenzo3 realOps r2 r3 f (idx3 r2 r3 i j k) = f (idx3 r2 r3 i j k)) ↔
    ∃ a b c : Nat → Nat → ℝ, ∀ i < r1, ∀ j < r2, ∀ k < r3,
      f (idx3 r2 r3 i j k) = a j k + b i k + c i j := by
  constructor
  · intro h
    refine ⟨fun j k => f (idx3 r2 r3 0 j k),
      fun i k => f (idx3 r2 r3 i 0 k) - f (idx3 r2 r3 0 0 k),
      fun i j => f (idx3 r2 r3 i j 0) - f (idx3 r2 r3 0 j 0) - f (idx3 r2 r3 i 0 0) +
        f (idx3 r2 r3 0 0 0), ?_⟩
    intro i
    induction i with
    | zero => intro _ j _ k _; ring
    | succ i ihi =>
      intro hi j
      induction j with
      | zero => intro _ k _; ring
      | succ j ihj =>
        intro hj k
        induction k with
        | zero => intro _; ring
        | succ k ihk =>
          intro hk
          have := h (i + 1) hi (j + 1) hj (k + 1) hk (by omega) (by omega) (by omega)
          rw [lorenzo3_interior r2 r3 f i j k hj hk] at this
          have h1 := ihk (by omega)
          have h2 := ihj (by omega) (k + 1) hk
          have h3 := ihi (by omega) (j + 1) hj (k + 1) hk
          have h4 := ihj (by omega) k (by omega)
          have h5 := ihi (by omega) (j + 1) hj k (by omega)
          have h6 := ihi (by omega) j (by omega) (k + 1) hk
          have h7 := ihi (by omega) j (by omega) k (by omega)
          dsimp only at h1 h2 h3 h4 h5 h6 h7 ⊢
          linarith
  · rintro ⟨a, b, c, h⟩ i hi j hj k hk i0 j0 k0
    obtain ⟨i, rfl⟩ : ∃ x, i = x + 1 := ⟨i - 1, by omega⟩
    obtain ⟨j, rfl⟩ : ∃ x, j = x + 1 := ⟨j - 1, by omega⟩
    obtain ⟨k, rfl⟩ : ∃ x, k = x + 1 := ⟨k - 1, by omega⟩
    rw [lorenzo3_interior r2 r3 f i j k hj hk, h _ hi _ hj _ (by omega),
      h _ hi _ (by omega) _ hk, h _ (by omega) _ hj _ hk, h _ hi _ (by omega) _ (by omega),
      h _ (by omega) _ hj _ (by omega), h _ (by omega) _ (by omega) _ hk,
      h _ (by omega) _ (by omega) _ (by omega), h _ hi _ hj _ hk]
    ring

-- A quadratic field of two coordinates each is predicted exactly in 3D.
example : ∀ i < 4, ∀ j < 5, ∀ k < 6, 0 < i → 0 < j → 0 < k →
    ThreeD.lorenzo3 realOps 5 6 (fun p => (p / 30 : ℕ) * (p / 6 % 5 : ℕ) + (p % 6 : ℕ) ^ 2)
      (Block.Buf3.idx3 5 6 i j k) = (i * j + k ^ 2 : ℝ) := by
  intro i hi j hj k hk i0 j0 k0
  have e : ∀ i j k, j < 5 → k < 6 → (fun p : ℕ => ((p / 30 : ℕ) * (p / 6 % 5 : ℕ) +
      (p % 6 : ℕ) ^ 2 : ℝ)) (Block.Buf3.idx3 5 6 i j k) = (i * j + k ^ 2 : ℝ) := by
    intro i j k hj hk
    obtain ⟨e1, e2, e3⟩ := Block.Buf3.idx3_div (X := i) hj hk
    have e1' : Block.Buf3.idx3 5 6 i j k / 30 = i := by
      rw [show 30 = 6 * 5 from rfl, ← Nat.div_div_eq_div_mul, e1]
    simp only [e1', e2, e3]
  rw [(C74_lorenzo_3d 4 5 6 _).2 ⟨fun _ k => k ^ 2, fun _ _ => 0, fun i j => i * j,
    fun i _ j hj k hk => (e i j k hj hk).trans (by ring)⟩ i hi j hj k hk i0 j0 k0]
  exact e i j k hj hk

/-! ### The middle code -/

theorem linQuant_middle (diff prec : ℝ) (cap R : Int) (hc : 2 ≤ cap) (h : |diff| < prec) :
    linQuant realD diff prec cap R = some R := by
  have hp : 0 < prec := (abs_nonneg _).trans_lt h
  have hy : |diff| / prec < 1 := (div_lt_one hp).2 h
  have hy0 : 0 ≤ |diff| / prec := by positivity
  have hc' : (2 : ℝ) ≤ cap := by exact_mod_cast hc
  have ht : truncR ((|diff| / prec + 1) / 2) = 0 := by
    rw [truncR_nonneg (by linarith), Int.floor_eq_zero_iff]
    constructor <;> linarith
  unfold linQuant
  simp only [realD, decide_eq_true_eq]
  rw [if_pos (by push_cast; linarith)]
  congr 1
  split
  · push_cast; rw [ht]; ring
  · push_cast
    rw [neg_div, truncR_neg, ht]; ring

/-- **C74** In all modes with one bound per vertex (2D and 3D offline, online and absolute; exact
arithmetic) a component that its prediction meets within the bound gets the middle code, and is
replaced by the prediction. -/
theorem C74_middle_code (M : VMode.Mode ℝ ℝ) (hO : M.O = realOps) (hc : 2 ≤ M.capacity)
    (f : Nat → ℝ) (p : Nat) (eb : ℝ) (h : |f p - M.pred f p| < eb) :
    VMode.encComp M f p eb = some (M.radius, M.pred f p) := by
  unfold VMode.encComp
  simp only [hO]
  have := linQuant_middle (f p - M.pred f p) eb M.capacity M.radius hc h
  change linQuant realOps.toDOps (realOps.toD (realOps.subT (f p) (M.pred f p))) eb M.capacity
    M.radius = _ at this
  rw [this]
  simp only [linOffset, sub_self, mul_zero]
  have e : realOps.ofD (realOps.add (realOps.toD (M.pred f p))
      (realOps.mul (realOps.ofInt 0) eb)) = M.pred f p := by
    simp [realOps, realD]
  rw [e, if_neg]
  simp only [realOps, realD, decide_eq_true_eq, id]
  rw [abs_sub_comm]
  linarith

/-- **C74** The same for the 2D online mode, when the bound is worth a code at all. -/
theorem C74_middle_code_online (P : Online2D.Par ℝ) (hc : 2 ≤ P.capacity) (r2 : Nat)
    (f : Nat → ℝ) (p : Nat) (absEb : ℝ)
    (hid : 0 < (ebQuant realD P.base P.logBase P.thr absEb).2)
    (h : |f p - Online2D.lorenzo realOps r2 f p| <
      (ebQuant realD P.base P.logBase P.thr absEb).1) :
    Online2D.encComp realOps P r2 f p absEb =
      some ((ebQuant realD P.base P.logBase P.thr absEb).2, P.radius,
        Online2D.lorenzo realOps r2 f p) := by
  unfold Online2D.encComp
  change 0 < (ebQuant realOps.toDOps P.base P.logBase P.thr absEb).2 at hid
  change _ < (ebQuant realOps.toDOps P.base P.logBase P.thr absEb).1 at h
  change _ = some ((ebQuant realOps.toDOps P.base P.logBase P.thr absEb).2, _)
  generalize ebQuant realOps.toDOps P.base P.logBase P.thr absEb = E at *
  obtain ⟨eb, id⟩ := E
  simp only at hid h ⊢
  rw [if_pos hid]
  have := linQuant_middle (f p - Online2D.lorenzo realOps r2 f p) eb P.capacity P.radius hc h
  change linQuant realOps.toDOps (realOps.toD (realOps.subT (f p) _)) eb P.capacity
    P.radius = _ at this
  rw [this]
  simp only [linOffset, sub_self, mul_zero]
  have e : realOps.ofD (realOps.add (realOps.toD (Online2D.lorenzo realOps r2 f p))
      (realOps.mul (realOps.ofInt 0) eb)) = Online2D.lorenzo realOps r2 f p := by
    simp [realOps, realD]
  rw [e, if_neg]
  generalize Online2D.lorenzo realOps r2 f p = L at *
  rw [abs_sub_comm] at h
  simpa [realOps, realD] using h

-- The absolute mode in 3D at an interior vertex of a field with exact predictions.
example (f : Nat → ℝ) (h : ∃ a b c : Nat → Nat → ℝ, ∀ i < 4, ∀ j < 5, ∀ k < 6,
    f (Block.Buf3.idx3 5 6 i j k) = a j k + b i k + c i j) :
    VMode.encComp (ThreeD.realAbs3 5 6) f (Block.Buf3.idx3 5 6 2 3 4) (1 / 1000) =
      some ((ThreeD.realAbs3 5 6).radius, f (Block.Buf3.idx3 5 6 2 3 4)) := by
  have e : (ThreeD.realAbs3 5 6).pred f (Block.Buf3.idx3 5 6 2 3 4) =
      f (Block.Buf3.idx3 5 6 2 3 4) :=
    (C74_lorenzo_3d 4 5 6 f).2 h 2 (by decide) 3 (by decide) 4 (by decide) (by decide) (by decide)
      (by decide)
  rw [C74_middle_code (ThreeD.realAbs3 5 6) rfl (by decide) f _ _ (by rw [e]; norm_num), e]

/-! ### Codes of whole runs -/

namespace Block

/-- **C74** The 2D codec, exact arithmetic, the same bound at all points: for fields that are a
function of the row plus a function of the column, the code of every point off the first row and
column is one of the five around the middle, so nothing there is stored verbatim.  This holds
although the predictions are made from reconstructed values. -/
theorem C74_run_codes_2d (a b : Nat → ℝ) (data : Nat → ℝ) (prec : Nat → ℝ) (P : ℝ) (hP : 0 < P)
    (r1 r2 bs : Nat) (h1 : 0 < r1) (h2 : 0 < r2) (hb : 0 < bs)
    (hp : ∀ p < r1 * r2, prec p = P)
    (hd : ∀ i < r1, ∀ j < r2, data (i * r2 + j) = a i + b j) :
    List.Forall₂ (fun (w : Nat × ℝ) t => w.1 / r2 ≠ 0 → w.1 % r2 ≠ 0 →
        |t - 32768| ≤ 2)
      (outEb2 realB data prec r1 r2 bs).recon (outEb2 realB data prec r1 r2 bs).ty := by
  obtain ⟨hrec, hall⟩ := plan_recon realB r1 r2 bs h1 h2 hb (cfg2 realB r2 bs
    (false, realB.zeroT) 32768 prec true realB.tenth (fun _ _ _ _ => none)) rfl rfl
    (regAt2_buf realB) (fun _ _ _ _ => rfl) data (List.replicate 3 realB.zeroF) (fun _ => 0)
  change List.Forall₂ _ (outEb2 realB data prec r1 r2 bs).recon
    (outEb2 realB data prec r1 r2 bs).ty at hall
  have hpos : ∀ w ∈ (outEb2 realB data prec r1 r2 bs).recon, w.1 < r1 * r2 := by
    intro w hw
    have : w.1 ∈ (outEb2 realB data prec r1 r2 bs).recon.map Prod.fst := List.mem_map_of_mem hw
    rw [outEb2, runEnc_recon_pos] at this
    exact List.mem_range.1 ((tiling2 r1 r2 bs h1 h2 hb).mem_iff.1 this)
  change IsRecon realB _ r2 (r1 * r2) _ (writes (fun _ => 0) (outEb2 realB data prec r1 r2
    bs).recon) at hrec
  change List.Forall₂ (fun (w : Nat × ℝ) t => ∃ un, lorStep _ (lorGrid2 realB r2
    (writes (fun _ => 0) (outEb2 realB data prec r1 r2 bs).recon) _ _) _ _ = _) _ _ at hall
  generalize writes (fun _ => 0) (outEb2 realB data prec r1 r2 bs).recon = R at hrec hall
  have hz : realB.isZero P = false := by
    simp only [realB, roundedB, decide_eq_false_iff_not]
    exact hP.ne'
  have herr : ∀ p < r1 * r2, |R p - data p| ≤ P := by
    intro p hlt
    rw [hrec p hlt]
    unfold lorStep
    simp only [cfg2, Bool.true_and, Bool.false_eq_true, if_false, hp p hlt, hz]
    exact quantize_near _ _ _ hP.le _ _
  obtain ⟨hlen, hget⟩ := List.forall₂_iff_get.1 hall
  refine List.forall₂_iff_get.2 ⟨hlen, fun i hi hi' hX hY => ?_⟩
  obtain ⟨un, hs⟩ := hget i hi hi'
  have hlt := hpos _ (List.get_mem _ ⟨i, hi⟩)
  generalize (outEb2 realB data prec r1 r2 bs).recon.get ⟨i, hi⟩ = w at *
  generalize (outEb2 realB data prec r1 r2 bs).ty.get ⟨i, hi'⟩ = t at *
  obtain ⟨p, v⟩ := w
  simp only at hX hY hs hlt
  unfold lorStep at hs
  simp only [cfg2, Bool.true_and, Bool.false_eq_true, if_false, hp p hlt, hz] at hs
  have hpe : p = (p / r2) * r2 + p % r2 := by
    rw [Nat.mul_comm]; exact (Nat.div_add_mod p r2).symm
  have hYlt := Nat.mod_lt p h2
  have hXlt : p / r2 < r1 := by rw [Nat.div_lt_iff_lt_mul h2]; exact hlt
  have hdiff : |data p - lorGrid2 realB r2 R (p / r2) (p % r2)| ≤ 3 * P := by
    obtain ⟨X, hX⟩ : ∃ k, p / r2 = k + 1 := Nat.exists_eq_succ_of_ne_zero hX
    obtain ⟨Y, hY⟩ : ∃ k, p % r2 = k + 1 := Nat.exists_eq_succ_of_ne_zero hY
    rw [hX, hY] at hpe
    rw [hX] at hXlt
    rw [hY] at hYlt
    rw [hX, hY]
    have hl : lorGrid2 realB r2 R (X + 1) (Y + 1) =
        R ((X + 1) * r2 + Y) + R (X * r2 + (Y + 1)) - R (X * r2 + Y) := by
      unfold lorGrid2
      simp [realB, roundedB]
    have hin : ∀ i < r1, ∀ j < r2, i * r2 + j < r1 * r2 := by
      intro i hi j hj
      have : (i + 1) * r2 ≤ r1 * r2 := Nat.mul_le_mul_right _ hi
      rw [Nat.add_mul] at this
      omega
    have e1 := herr _ (hin (X + 1) hXlt Y (by omega))
    have e2 := herr _ (hin X (by omega) (Y + 1) hYlt)
    have e3 := herr _ (hin X (by omega) Y (by omega))
    rw [hl, hpe, hd _ hXlt _ hYlt]
    rw [hd _ hXlt _ (by omega)] at e1
    rw [hd _ (by omega) _ hYlt] at e2
    rw [hd _ (by omega) _ (by omega)] at e3
    rw [abs_le] at e1 e2 e3 ⊢
    constructor <;> linarith [e1.1, e1.2, e2.1, e2.2, e3.1, e3.2]
  generalize lorGrid2 realB r2 R (p / r2) (p % r2) = pred at *
  obtain ⟨q, hq, hq'⟩ := linQuant_exact (data p - pred) P 32768 hP
    (hdiff.trans_lt (by push_cast; linarith))
  have hq2 : quantize realB.O pred (data p) P 65536 32768 =
      (q, pred + linOffset realD P 32768 q, []) := by
    unfold quantize
    have : linQuant realB.O.toDOps (realB.O.diff (data p) pred) P 65536 32768 = some q := hq
    rw [this]
    show (if realB.O.le (realB.O.dist (pred + linOffset realD P 32768 q) (data p)) P = true then
      (q, pred + linOffset realD P 32768 q, []) else _) = _
    rw [if_pos]
    simp only [realB, roundedB, roundedQ, roundedOps, id, decide_eq_true_eq]
    rw [show pred + linOffset realD P 32768 q - data p =
      linOffset realD P 32768 q - (data p - pred) by ring]
    exact hq'
  have ht : t = q := by
    have h3 := congrArg Prod.fst hs
    simp only at h3
    rw [← h3]
    exact congrArg Prod.fst hq2
  rw [ht]
  have hoff : linOffset realD P 32768 q = 2 * ((q - 32768 : ℤ) : ℝ) * P := by
    simp [linOffset, realD]
  rw [hoff] at hq'
  rw [abs_le] at hq' hdiff
  have u1 : (2 * ((q - 32768 : ℤ) : ℝ)) * P ≤ 4 * P := by linarith [hq'.2, hdiff.2]
  have u2 : (-4) * P ≤ (2 * ((q - 32768 : ℤ) : ℝ)) * P := by linarith [hq'.1, hdiff.1]
  have v1 := le_of_mul_le_mul_right u1 hP
  have v2 := le_of_mul_le_mul_right u2 hP
  have w1 : ((q - 32768 : ℤ) : ℝ) ≤ ((2 : ℤ) : ℝ) := by push_cast at v1 ⊢; linarith
  have w2 : ((-2 : ℤ) : ℝ) ≤ ((q - 32768 : ℤ) : ℝ) := by push_cast at v2 ⊢; linarith
  exact abs_le.2 ⟨by exact_mod_cast w2, by exact_mod_cast w1⟩

/-- Specification: mixed second difference of an integer field at `(X, Y)`, with zeros outside. -/
def mixedDiff (n : Nat → ℤ) (r2 X Y : Nat) : ℤ :=
  n (X * r2 + Y) - (if Y = 0 then 0 else n (X * r2 + (Y - 1))) -
    (if X = 0 then 0 else n ((X - 1) * r2 + Y)) +
    (if X = 0 ∨ Y = 0 then 0 else n ((X - 1) * r2 + (Y - 1)))

/-- **C74** Fields of integers with the bound one half, in floating point with any rounding: the
code of a point is the middle code plus the mixed second difference of the input, when that is in
the range of the codes. -/
theorem C74_integer_codes_2d {rT rF rD lg : ℝ → ℝ} {u : ℝ} (hT : IsRounding rT)
    (hF : IsRounding rF) (hD : IsFloat rD u) (hu : u ≤ 1 / 2 ^ 40) (n : Nat → ℤ)
    (r1 r2 bs : Nat) (h1 : 0 < r1) (h2 : 0 < r2) (hb : 0 < bs)
    (hn : ∀ p < r1 * r2, |n p| ≤ 2 ^ 21) :
    List.Forall₂ (fun (w : Nat × ℝ) t => |mixedDiff n r2 (w.1 / r2) (w.1 % r2)| ≤ 32767 →
        t = 32768 + mixedDiff n r2 (w.1 / r2) (w.1 % r2))
      (outEb2 (roundedB rT rF rD lg) (fun p => (n p : ℝ)) (fun _ => 1 / 2) r1 r2 bs).recon
      (outEb2 (roundedB rT rF rD lg) (fun p => (n p : ℝ)) (fun _ => 1 / 2) r1 r2 bs).ty := by
  have hval := C73_integers_2d (lg := lg) hT hF hD.toIsRounding n (fun _ => 1 / 2) r1 r2 bs h1 h2
    hb hn (fun _ _ => Or.inl rfl) (fun _ => 0)
  set B := roundedB rT rF rD lg with hB
  obtain ⟨-, hall⟩ := plan_recon B r1 r2 bs h1 h2 hb (cfg2 B r2 bs
    (false, B.zeroT) 32768 (fun _ => 1 / 2) true B.tenth (fun _ _ _ _ => none)) rfl rfl
    (regAt2_buf B) (fun _ _ _ _ => rfl) (fun p => (n p : ℝ)) (List.replicate 3 B.zeroF)
    (fun _ => 0)
  change List.Forall₂ (fun (w : Nat × ℝ) t => ∃ un, lorStep _ (lorGrid2 B r2
    (writes (fun _ => 0) (outEb2 B (fun p => (n p : ℝ)) (fun _ => 1 / 2) r1 r2 bs).recon) _ _) _ _
      = _) (outEb2 B (fun p => (n p : ℝ)) (fun _ => 1 / 2) r1 r2 bs).recon
    (outEb2 B (fun p => (n p : ℝ)) (fun _ => 1 / 2) r1 r2 bs).ty at hall
  have hpos : ∀ w ∈ (outEb2 B (fun p => (n p : ℝ)) (fun _ => 1 / 2) r1 r2 bs).recon,
      w.1 < r1 * r2 := by
    intro w hw
    have : w.1 ∈ (outEb2 B (fun p => (n p : ℝ)) (fun _ => 1 / 2) r1 r2 bs).recon.map Prod.fst :=
      List.mem_map_of_mem hw
    rw [outEb2, runEnc_recon_pos] at this
    exact List.mem_range.1 ((tiling2 r1 r2 bs h1 h2 hb).mem_iff.1 this)
  generalize writes (fun _ => 0) (outEb2 B (fun p => (n p : ℝ)) (fun _ => 1 / 2) r1 r2 bs).recon
    = R at hval hall
  obtain ⟨hlen, hget⟩ := List.forall₂_iff_get.1 hall
  refine List.forall₂_iff_get.2 ⟨hlen, fun i hi hi' hm => ?_⟩
  obtain ⟨un, hs⟩ := hget i hi hi'
  have hlt := hpos _ (List.get_mem _ ⟨i, hi⟩)
  generalize (outEb2 B (fun p => (n p : ℝ)) (fun _ => 1 / 2) r1 r2 bs).recon.get ⟨i, hi⟩ = w at *
  generalize (outEb2 B (fun p => (n p : ℝ)) (fun _ => 1 / 2) r1 r2 bs).ty.get ⟨i, hi'⟩ = t at *
  obtain ⟨p, v⟩ := w
  simp only at hm hs hlt ⊢
  unfold lorStep at hs
  have hz : B.isZero (1 / 2) = false := by
    simp only [hB, roundedB, decide_eq_false_iff_not]
    norm_num
  simp only [cfg2, Bool.true_and, Bool.false_eq_true, if_false, hz] at hs
  have hpe : p = (p / r2) * r2 + p % r2 := by
    rw [Nat.mul_comm]; exact (Nat.div_add_mod p r2).symm
  have hY := Nat.mod_lt p h2
  have hpred : lorGrid2 B r2 R (p / r2) (p % r2) =
      ((n p - mixedDiff n r2 (p / r2) (p % r2) : ℤ) : ℝ) := by
    generalize p / r2 = X at *
    generalize p % r2 = Y at *
    have key : ∀ (c : Prop) [Decidable c] (q : Nat), (¬ c → q < p) →
        (if c then B.zeroT else R q) = (((if c then 0 else n q) : ℤ) : ℝ) ∧
          |(if c then 0 else n q)| ≤ 2 ^ 21 := by
      intro c _ q hq
      by_cases hc : c
      · rw [if_pos hc, if_pos hc]
        exact ⟨by simp [hB, roundedB], by norm_num⟩
      · rw [if_neg hc, if_neg hc]
        have := hq hc
        exact ⟨hval q (by omega), hn q (by omega)⟩
    have hrow : ∀ h : X ≠ 0, (X - 1) * r2 + r2 = X * r2 := by
      intro h
      obtain ⟨X, rfl⟩ : ∃ k, X = k + 1 := ⟨X - 1, by omega⟩
      rw [Nat.add_sub_cancel, Nat.add_mul, Nat.one_mul]
    obtain ⟨ea, ba⟩ := key (Y = 0) (X * r2 + (Y - 1)) (fun h => by omega)
    obtain ⟨eb, bb⟩ := key (X = 0) ((X - 1) * r2 + Y)
      (fun h => by have := hrow h; omega)
    obtain ⟨ec, bc⟩ := key (X = 0 ∨ Y = 0) ((X - 1) * r2 + (Y - 1))
      (fun h => by have := hrow (fun h' => h (Or.inl h')); omega)
    unfold lorGrid2 mixedDiff
    rw [ea, eb, ec, ← hpe, hB, lor2_int hT hF _ _ _ ba bb bc]
    congr 1
    ring
  rw [hpred] at hs
  generalize mixedDiff n r2 (p / r2) (p % r2) = d at *
  have hd := abs_le.1 hm
  have hnp := abs_le.1 (hn p hlt)
  have hlq : linQuant B.O.toDOps (B.O.diff (n p) ((n p - d : ℤ) : ℝ)) (1 / 2) 65536 32768 =
      some (d + 32768) := by
    have hdiff : B.O.diff (n p) ((n p - d : ℤ) : ℝ) = d := by
      show rT ((n p : ℝ) - ((n p - d : ℤ) : ℝ)) = d
      rw [← Int.cast_sub, show n p - (n p - d) = d by ring]
      exact hT.int _ (by omega)
    rw [hdiff]
    refine linQuant_near (rT := rT) (lg := lg) hD hu (R := 32768) (by norm_num) (by norm_num)
      (by omega) ?_
    rw [show (d : ℝ) - 2 * d * (1 / 2) = 0 by ring, abs_zero]
    norm_num
  have hv := quantize_int hT hD.toIsRounding (lg := lg) (n p - d) (n p)
    (abs_le.2 ⟨by omega, by omega⟩) (hn p hlt) (R := 32768) (by norm_num)
  have hv' : (quantize B.O ((n p - d : ℤ) : ℝ) (n p) (1 / 2) 65536 32768).1 = 32768 + d := by
    unfold quantize
    rw [hlq]
    have hoff : linOffset B.O.toDOps (1 / 2) 32768 (d + 32768) = d := by
      show rD (rD ((2 * (d + 32768 - 32768) : ℤ) : ℝ) * (1 / 2)) = d
      rw [show 2 * (d + 32768 - 32768) = 2 * d by ring,
        hD.int _ (abs_le.2 ⟨by omega, by omega⟩),
        show ((2 * d : ℤ) : ℝ) * (1 / 2) = (d : ℝ) by push_cast; ring]
      exact hD.int _ (by omega)
    have hdec : B.O.addTo ((n p - d : ℤ) : ℝ) (linOffset B.O.toDOps (1 / 2) 32768
        (d + 32768)) = ((n p : ℤ) : ℝ) := by
      rw [hoff]
      show rT (rD (((n p - d : ℤ) : ℝ) + d)) = _
      have hb : |n p| ≤ 2 ^ 24 := (hn p hlt).trans (by norm_num)
      rw [← Int.cast_add, show n p - d + d = n p by ring, hD.int _ hb, hT.int _ hb]
    simp only [hdec]
    rw [if_pos]
    · simp only; ring
    · show decide (|rT ((n p : ℝ) - n p)| ≤ 1 / 2) = true
      rw [sub_self, show rT 0 = 0 by simpa using hT.int 0 (by norm_num)]
      norm_num
  have h3 := congrArg Prod.fst hs
  simp only at h3
  rw [← h3]
  exact hv'

-- An affine field of integers: all codes off the first row and column are the middle code.
example : mixedDiff (fun p => 3 * (p / 500 : ℕ) + 5 * (p % 500 : ℕ)) 500 7 8 = 0 := by
  norm_num [mixedDiff]

example :
    List.Forall₂ (fun (w : Nat × ℝ) t => |mixedDiff (fun p => p ^ 2) 500 (w.1 / 500) (w.1 % 500)| ≤
        32767 → t = 32768 + mixedDiff (fun p => p ^ 2) 500 (w.1 / 500) (w.1 % 500))
      (outEb2 (roundedB (fl nearest 24) (fl nearest 24) (fl nearest 53) (Real.logb 2))
        (fun p => (((p : ℤ) ^ 2 : ℤ) : ℝ)) (fun _ => 1 / 2) 2 500 12).recon
      (outEb2 (roundedB (fl nearest 24) (fl nearest 24) (fl nearest 53) (Real.logb 2))
        (fun p => (((p : ℤ) ^ 2 : ℤ) : ℝ)) (fun _ => 1 / 2) 2 500 12).ty :=
  C74_integer_codes_2d (fl_isFloat nearest_rounding (by norm_num)).toIsRounding
    (fl_isFloat nearest_rounding (by norm_num)).toIsRounding
    (fl_isFloat nearest_rounding (by norm_num)) (by norm_num) (fun p => (p : ℤ) ^ 2) 2 500 12
    (by norm_num) (by norm_num) (by norm_num) (fun p hp => by
      have : (p : ℤ) < 1000 := by omega
      rw [abs_of_nonneg (by positivity)]
      nlinarith)

-- A field with steps much larger than the bound.
example : List.Forall₂ (fun (w : Nat × ℝ) t => w.1 / 30 ≠ 0 → w.1 % 30 ≠ 0 → |t - 32768| ≤ 2)
    (outEb2 realB (fun p => Real.exp (p / 30 : ℕ) + Real.sqrt (p % 30 : ℕ)) (fun _ => 1 / 1000)
      20 30 12).recon
    (outEb2 realB (fun p => Real.exp (p / 30 : ℕ) + Real.sqrt (p % 30 : ℕ)) (fun _ => 1 / 1000)
      20 30 12).ty :=
  C74_run_codes_2d (fun i => Real.exp i) (fun j => Real.sqrt j) _ _ (1 / 1000) (by norm_num) 20 30
    12 (by norm_num) (by norm_num) (by norm_num) (fun _ _ => rfl) (fun i _ j hj => by
      obtain ⟨e1, e2⟩ := grid_div (X := i) hj
      rw [e1, e2])

end Block

end CpSZ
