import Verif.Props.Extract3D
import Verif.Props.Extract
import Mathlib.Analysis.Complex.Polynomial.Basic
import Mathlib.LinearAlgebra.Matrix.ToLinearEquiv
import Mathlib.LinearAlgebra.Matrix.Charpoly.Coeff
/-
The classification of the 3D extraction tool (test/cp_extraction_3d.cpp L30-38, L99-116).  The
function `solve_cubic` of FTK is not part of the repository: it is taken to return the roots with
their multiplicities and the number `q^3 + r^2` of Cardano's formula, positive if there are complex
roots.  Rounding is not modelled.
-/

namespace CpSZ.Extract
open Polynomial

/-- Types of critical points (test/cp_extraction_3d.cpp L30-38). -/
inductive CPType3 where
  | singular | stableSource | unstableSource | stableRepellingSaddle | unstableRepellingSaddle
  | stableAttractingSaddle | unstableAttractingSaddle | stableSink | unstableSink
  deriving DecidableEq

/-- The number returned by `solve_cubic(b, c, d, root)` for `x^3 + b x^2 + c x + d`. -/
noncomputable def cubicDisc (b c d : ℝ) : ℝ :=
  ((3 * c - b ^ 2) / 9) ^ 3 + ((-(27 * d) + b * (9 * c - 2 * b ^ 2)) / 54) ^ 2

/-- The roots computed by `solve_cubic`. -/
noncomputable def croots (P : ℝ[X]) : Multiset ℂ := (P.map Complex.ofRealHom).roots

open Classical in
/-- `get_cp_type` from the characteristic polynomial on (test/cp_extraction_3d.cpp L99-116); `eps`
is `std::numeric_limits<T>::epsilon()`. -/
noncomputable def type3 (eps : ℝ) (P : ℝ[X]) : CPType3 :=
  let disc := cubicDisc (P.coeff 2) (P.coeff 1) (P.coeff 0)
  if |disc| < eps then .singular
  else
    match (croots P).countP (fun z => z.re < 0) with
    | 0 => if 0 < disc then .unstableSource else .stableSource
    | 1 => if 0 < disc then .unstableRepellingSaddle else .stableRepellingSaddle
    | 2 => if 0 < disc then .unstableAttractingSaddle else .stableAttractingSaddle
    | 3 => if 0 < disc then .unstableSink else .stableSink
    | _ => .singular

/-! ### Specification -/

/-- `μ` is an eigenvalue of the real matrix `J`, possibly complex. -/
def IsEig {n : Type} [Fintype n] (J : Matrix n n ℝ) (μ : ℂ) : Prop :=
  ∃ v : n → ℂ, v ≠ 0 ∧ (J.map Complex.ofReal).mulVec v = μ • v

/-- How many directions a type says are attracting. -/
def CPType3.attracting : CPType3 → Nat
  | .singular => 0
  | .stableSource | .unstableSource => 0
  | .stableRepellingSaddle | .unstableRepellingSaddle => 1
  | .stableAttractingSaddle | .unstableAttractingSaddle => 2
  | .stableSink | .unstableSink => 3

/-- Whether a type says that the field spirals around the point. -/
def CPType3.spiral : CPType3 → Bool
  | .unstableSource | .unstableRepellingSaddle | .unstableAttractingSaddle | .unstableSink => true
  | _ => false

/-! ### Facts -/

theorem isEig_iff {n : Type} [Fintype n] [DecidableEq n] (J : Matrix n n ℝ) (μ : ℂ) :
    IsEig J μ ↔ μ ∈ croots J.charpoly := by
  have hm : J.charpoly.map Complex.ofRealHom = (J.map Complex.ofReal).charpoly :=
    (Matrix.charpoly_map J Complex.ofRealHom).symm
  have hne : (J.map Complex.ofReal).charpoly ≠ 0 := (Matrix.charpoly_monic _).ne_zero
  unfold croots
  rw [hm, mem_roots hne, IsRoot.def, Matrix.eval_charpoly, ← Matrix.exists_mulVec_eq_zero_iff]
  unfold IsEig
  constructor
  · rintro ⟨v, hv, h⟩
    refine ⟨v, hv, ?_⟩
    rw [Matrix.sub_mulVec, h]
    ext i
    simp
  · rintro ⟨v, hv, h⟩
    refine ⟨v, hv, ?_⟩
    rw [Matrix.sub_mulVec] at h
    rw [sub_eq_zero.1 h |>.symm]
    ext i
    simp

theorem croots_three (P : ℝ[X]) (hP : P.Monic) (hd : P.natDegree = 3) :
    ∃ x y z : ℂ, croots P = {x, y, z} ∧ (P.coeff 2 : ℂ) = -(x + y + z) ∧
      (P.coeff 1 : ℂ) = x * y + y * z + z * x ∧ (P.coeff 0 : ℂ) = -(x * y * z) := by
  have hs : (P.map Complex.ofRealHom).Splits := IsAlgClosed.splits _
  have hm : (P.map Complex.ofRealHom).Monic := hP.map _
  have hc : (croots P).card = 3 := by
    have := hs.natDegree_eq_card_roots
    rw [natDegree_map, hd] at this
    exact this.symm
  obtain ⟨x, y, z, hxyz⟩ := Multiset.card_eq_three.1 hc
  have hp := hs.eq_prod_roots_of_monic hm
  change _ = (Multiset.map _ (croots P)).prod at hp
  rw [hxyz] at hp
  have hp' : P.map Complex.ofRealHom = X ^ 3 - C (x + y + z) * X ^ 2 +
      C (x * y + y * z + z * x) * X - C (x * y * z) := by
    rw [hp]
    simp only [Multiset.insert_eq_cons, Multiset.map_cons, Multiset.map_singleton,
      Multiset.prod_cons, Multiset.prod_singleton, map_add, map_mul]
    ring
  have hco : ∀ s p q : ℂ, (X ^ 3 - C s * X ^ 2 + C p * X - C q : ℂ[X]).coeff 2 = -s ∧
      (X ^ 3 - C s * X ^ 2 + C p * X - C q : ℂ[X]).coeff 1 = p ∧
      (X ^ 3 - C s * X ^ 2 + C p * X - C q : ℂ[X]).coeff 0 = -q := by
    intro s p q
    simp [coeff_X_pow, coeff_X, coeff_C]
  obtain ⟨h2, h1, h0⟩ := hco (x + y + z) (x * y + y * z + z * x) (x * y * z)
  rw [← hp', coeff_map] at h2 h1 h0
  exact ⟨x, y, z, hxyz, h2, h1, h0⟩

/-- The number returned by `solve_cubic` is the discriminant up to a negative factor. -/
theorem cubicDisc_roots {b c d : ℝ} {x y z : ℂ} (hb : (b : ℂ) = -(x + y + z))
    (hc : (c : ℂ) = x * y + y * z + z * x) (hd : (d : ℂ) = -(x * y * z)) :
    (cubicDisc b c d : ℂ) = -((x - y) * (y - z) * (z - x)) ^ 2 / 108 := by
  unfold cubicDisc
  push_cast
  rw [hb, hc, hd]
  ring

theorem croots_conj (P : ℝ[X]) {x : ℂ} (h : x ∈ croots P) : (starRingEnd ℂ) x ∈ croots P := by
  unfold croots at *
  by_cases h0 : P.map Complex.ofRealHom = 0
  · rw [h0] at h; simp at h
  rw [mem_roots h0, IsRoot.def, eval_map] at *
  have := congrArg (starRingEnd ℂ) h
  rw [hom_eval₂, map_zero] at this
  have hc : (starRingEnd ℂ).comp Complex.ofRealHom = Complex.ofRealHom := by
    ext r; simp
  rwa [hc] at this

theorem real_of_im {z : ℂ} (h : z.im = 0) : z = (z.re : ℂ) := Complex.ext rfl (by simpa using h)

/-- A cubic has complex roots if and only if the number is positive. -/
theorem cubicDisc_pos (P : ℝ[X]) (hP : P.Monic) (hd : P.natDegree = 3) :
    0 < cubicDisc (P.coeff 2) (P.coeff 1) (P.coeff 0) ↔ ∃ x ∈ croots P, x.im ≠ 0 := by
  obtain ⟨x, y, z, hr, hb, hc, hdd⟩ := croots_three P hP hd
  have hD := cubicDisc_roots hb hc hdd
  generalize cubicDisc (P.coeff 2) (P.coeff 1) (P.coeff 0) = D at *
  have hsum : x.im + y.im + z.im = 0 := by
    have := congrArg Complex.im hb
    simp at this
    linarith
  -- a conjugate pair and a real root
  have pair : ∀ x y z : ℂ, y = (starRingEnd ℂ) x → x.im ≠ 0 → z.im = 0 →
      (D : ℂ) = -((x - y) * (y - z) * (z - x)) ^ 2 / 108 → 0 < D := by
    intro x y z hy hx hz h
    subst hy
    obtain ⟨a, b⟩ := x
    obtain ⟨e, f⟩ := z
    simp only at hx hz
    subst hz
    have hre : D = 4 * b ^ 2 * ((a - e) ^ 2 + b ^ 2) ^ 2 / 108 := by
      have e1 : ((⟨a, b⟩ : ℂ) - (starRingEnd ℂ) ⟨a, b⟩) * ((starRingEnd ℂ) ⟨a, b⟩ - ⟨e, 0⟩) *
          (⟨e, 0⟩ - ⟨a, b⟩) = ((-2 * b * ((a - e) ^ 2 + b ^ 2) : ℝ) : ℂ) * Complex.I := by
        obtain ⟨r, hr⟩ : ∃ r : ℝ, r = -2 * b * ((a - e) ^ 2 + b ^ 2) := ⟨_, rfl⟩
        rw [← hr]
        apply Complex.ext
        · simp
          ring
        · simp
          rw [hr]
          ring
      rw [e1, mul_pow, Complex.I_sq] at h
      have : (D : ℂ) = ((4 * b ^ 2 * ((a - e) ^ 2 + b ^ 2) ^ 2 / 108 : ℝ) : ℂ) := by
        rw [h]; push_cast; ring
      exact_mod_cast this
    rw [hre]
    have : 0 < b ^ 2 := by positivity
    have : 0 < (a - e) ^ 2 + b ^ 2 := by nlinarith [sq_nonneg (a - e)]
    positivity
  constructor
  · intro hpos
    by_contra hcon
    push Not at hcon
    have ix := hcon x (by rw [hr]; simp)
    have iy := hcon y (by rw [hr]; simp)
    have iz := hcon z (by rw [hr]; simp)
    rw [real_of_im ix, real_of_im iy, real_of_im iz] at hD
    have : D = -((x.re - y.re) * (y.re - z.re) * (z.re - x.re)) ^ 2 / 108 := by exact_mod_cast hD
    have := sq_nonneg ((x.re - y.re) * (y.re - z.re) * (z.re - x.re))
    linarith
  · rintro ⟨w, hw, hwi⟩
    have hne : (starRingEnd ℂ) w ≠ w := by
      intro h
      have := congrArg Complex.im h
      simp at this
      apply hwi
      linarith
    have hcw := croots_conj P hw
    rw [hr] at hw hcw
    simp only [Multiset.insert_eq_cons, Multiset.mem_cons, Multiset.mem_singleton] at hw hcw
    rcases hw with rfl | rfl | rfl
    · rcases hcw with h | h | h
      · exact absurd h hne
      · refine pair w y z h.symm hwi ?_ hD
        rw [← h] at hsum; simp at hsum; exact hsum
      · refine pair w z y h.symm hwi ?_ (by rw [hD]; ring)
        rw [← h] at hsum; simp at hsum; linarith
    · rcases hcw with h | h | h
      · refine pair w x z h.symm hwi ?_ (by rw [hD]; ring)
        rw [← h] at hsum; simp at hsum; linarith
      · exact absurd h hne
      · refine pair w z x h.symm hwi ?_ (by rw [hD]; ring)
        rw [← h] at hsum; simp at hsum; linarith
    · rcases hcw with h | h | h
      · refine pair w x y h.symm hwi ?_ (by rw [hD]; ring)
        rw [← h] at hsum; simp at hsum; linarith
      · refine pair w y x h.symm hwi ?_ (by rw [hD]; ring)
        rw [← h] at hsum; simp at hsum; linarith
      · exact absurd h hne

/-- The number vanishes if and only if a root is not simple. -/
theorem cubicDisc_zero (P : ℝ[X]) (hP : P.Monic) (hd : P.natDegree = 3) :
    cubicDisc (P.coeff 2) (P.coeff 1) (P.coeff 0) = 0 ↔ ¬ (croots P).Nodup := by
  obtain ⟨x, y, z, hr, hb, hc, hdd⟩ := croots_three P hP hd
  have hD := cubicDisc_roots hb hc hdd
  rw [hr]
  have : cubicDisc (P.coeff 2) (P.coeff 1) (P.coeff 0) = 0 ↔ (x - y) * (y - z) * (z - x) = 0 := by
    rw [← Complex.ofReal_eq_zero, hD]
    simp
  rw [this]
  simp only [mul_eq_zero, sub_eq_zero, Multiset.insert_eq_cons, Multiset.nodup_cons,
    Multiset.mem_cons, Multiset.mem_singleton, Multiset.nodup_singleton, and_true]
  constructor
  · rintro ((h | h) | h) <;> simp [h]
  · intro h
    by_contra hcon
    push Not at hcon
    exact h ⟨by rintro (h | h); exacts [hcon.1.1 h, hcon.2 h.symm], hcon.1.2⟩

end CpSZ.Extract
