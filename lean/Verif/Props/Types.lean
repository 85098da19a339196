import Verif.Extract.Types
import Verif.Props.Units
/-
C79: what the types reported by the extraction tools say about the eigenvalues.
C80: the extraction tools and the unit of the data.
-/

namespace CpSZ.Extract
open Polynomial VMode Mesh3D Online2D.Relax

theorem charpoly_deg (J : Matrix (Fin 3) (Fin 3) ℝ) : J.charpoly.natDegree = 3 := by simp

/-! ### C79 -/

/-- **C79** The 3D types: `singular` means that the squared product of the differences of the
eigenvalues is below `108 * eps`.  Otherwise the eigenvalues are distinct, the type says how many of
them have a negative real part, and whether there are complex ones. -/
theorem C79_types_3d {eps : ℝ} (h0 : 0 < eps) (J : Matrix (Fin 3) (Fin 3) ℝ) :
    ∃ x y z : ℂ, J.charpoly.map Complex.ofRealHom = (X - C x) * (X - C y) * (X - C z) ∧
      (∀ μ, IsEig J μ ↔ μ = x ∨ μ = y ∨ μ = z) ∧
      (type3 eps J.charpoly = .singular ↔ ‖(x - y) * (y - z) * (z - x)‖ ^ 2 < 108 * eps) ∧
      (type3 eps J.charpoly ≠ .singular → x ≠ y ∧ y ≠ z ∧ z ≠ x ∧
        (type3 eps J.charpoly).attracting = {μ : ℂ | IsEig J μ ∧ μ.re < 0}.ncard ∧
        ((type3 eps J.charpoly).spiral = true ↔ ∃ μ, IsEig J μ ∧ μ.im ≠ 0)) := by
  have hm := Matrix.charpoly_monic J
  have hd := charpoly_deg J
  obtain ⟨x, y, z, hr, hb, hc, hdd⟩ := croots_three _ hm hd
  have hD := cubicDisc_roots hb hc hdd
  have hpos := cubicDisc_pos _ hm hd
  have hzero := cubicDisc_zero _ hm hd
  have heig : ∀ μ, IsEig J μ ↔ μ ∈ croots J.charpoly := isEig_iff J
  have hcard : (croots J.charpoly).card = 3 := by rw [hr]; rfl
  have hprod : J.charpoly.map Complex.ofRealHom = (X - C x) * (X - C y) * (X - C z) := by
    have hp := (IsAlgClosed.splits (J.charpoly.map Complex.ofRealHom)).eq_prod_roots_of_monic
      (hm.map _)
    change _ = (Multiset.map _ (croots J.charpoly)).prod at hp
    rw [hr] at hp
    rw [hp]
    simp [mul_assoc]
  have hsing : type3 eps J.charpoly = .singular ↔
      |cubicDisc (J.charpoly.coeff 2) (J.charpoly.coeff 1) (J.charpoly.coeff 0)| < eps := by
    unfold type3
    have hle : (croots J.charpoly).countP (fun z => z.re < 0) ≤ 3 := by
      exact (Multiset.countP_le_card _ _).trans_eq hcard
    generalize (croots J.charpoly).countP (fun z => z.re < 0) = n at hle
    generalize cubicDisc (J.charpoly.coeff 2) (J.charpoly.coeff 1) (J.charpoly.coeff 0) = D
    dsimp only
    by_cases hlt : |D| < eps
    · simp [hlt]
    · rw [if_neg hlt]
      refine ⟨fun h => ?_, fun h => absurd h hlt⟩
      exfalso
      interval_cases n <;> simp only [] at h <;> split at h <;> cases h
  refine ⟨x, y, z, hprod, fun μ => ?_, ?_, ?_⟩
  · rw [heig, hr]
    simp
  · rw [hsing]
    have : |cubicDisc (J.charpoly.coeff 2) (J.charpoly.coeff 1) (J.charpoly.coeff 0)| =
        ‖(x - y) * (y - z) * (z - x)‖ ^ 2 / 108 := by
      have := congrArg norm hD
      rw [Complex.norm_real, Real.norm_eq_abs] at this
      rw [this, norm_div, norm_neg, norm_pow]
      norm_num
    rw [this, div_lt_iff₀ (by norm_num), mul_comm eps]
  · intro hns
    have hlt : ¬ |cubicDisc (J.charpoly.coeff 2) (J.charpoly.coeff 1) (J.charpoly.coeff 0)| < eps :=
      fun h => hns (hsing.2 h)
    have hne : cubicDisc (J.charpoly.coeff 2) (J.charpoly.coeff 1) (J.charpoly.coeff 0) ≠ 0 := by
      intro h
      rw [h, abs_zero] at hlt
      exact hlt h0
    have hnd : (croots J.charpoly).Nodup := by
      by_contra h
      exact hne (hzero.2 h)
    have hxyz : x ≠ y ∧ y ≠ z ∧ z ≠ x := by
      rw [hr] at hnd
      simp only [Multiset.insert_eq_cons, Multiset.nodup_cons, Multiset.mem_cons,
        Multiset.mem_singleton, Multiset.nodup_singleton, and_true] at hnd
      push Not at hnd
      exact ⟨hnd.1.1, hnd.2, hnd.1.2.symm⟩
    have hcount : {μ : ℂ | IsEig J μ ∧ μ.re < 0}.ncard =
        (croots J.charpoly).countP (fun z => z.re < 0) := by
      classical
      rw [Multiset.countP_eq_card_filter, ← Multiset.toFinset_card_of_nodup (hnd.filter _),
        ← Set.ncard_coe_finset]
      congr 1
      ext μ
      simp only [Set.mem_ofPred_eq, heig, Finset.mem_coe, Multiset.mem_toFinset,
        Multiset.mem_filter]
    have hpos' : (∃ μ, IsEig J μ ∧ μ.im ≠ 0) ↔
        0 < cubicDisc (J.charpoly.coeff 2) (J.charpoly.coeff 1) (J.charpoly.coeff 0) := by
      rw [hpos]
      simp only [heig]
    refine ⟨hxyz.1, hxyz.2.1, hxyz.2.2, ?_, ?_⟩
    · rw [hcount]
      unfold type3
      have hle : (croots J.charpoly).countP (fun z => z.re < 0) ≤ 3 := by
        exact (Multiset.countP_le_card _ _).trans_eq hcard
      generalize (croots J.charpoly).countP (fun z => z.re < 0) = n at hle
      dsimp only
      rw [if_neg hlt]
      by_cases h : 0 < cubicDisc (J.charpoly.coeff 2) (J.charpoly.coeff 1) (J.charpoly.coeff 0) <;>
        simp only [h, if_true, if_false] <;> interval_cases n <;> rfl
    · rw [hpos']
      unfold type3
      have hle : (croots J.charpoly).countP (fun z => z.re < 0) ≤ 3 := by
        exact (Multiset.countP_le_card _ _).trans_eq hcard
      generalize (croots J.charpoly).countP (fun z => z.re < 0) = n at hle
      dsimp only
      rw [if_neg hlt]
      by_cases h : 0 < cubicDisc (J.charpoly.coeff 2) (J.charpoly.coeff 1) (J.charpoly.coeff 0) <;>
        simp only [h, if_true, if_false] <;> interval_cases n <;> simp [CPType3.spiral]

/-- **C79** Every entry of the 3D extraction: the Jacobian of the interpolant in the reported
tetrahedron has as many eigenvalues with negative real part as the type says, and complex ones if
and only if the type says so, unless the type is `singular`. -/
theorem C79_reported_3d_partial {eps : ℝ} (h0 : 0 < eps) (r1 r2 r3 : Nat)
    (hr : 6 * (r1 * r2 * r3) ≤ 2 ^ 32) (f : Nat → Nat → ℝ) (id : Nat) (c : CP3 CPType3)
    (h : (id, c) ∈ extract3 (type3 eps) r1 r2 r3 f) (hs : c.type ≠ .singular) :
    ∃ t : Tet, t.inGrid r1 r2 r3 ∧ id = tetNo r2 r3 t ∧ ∃ J : Matrix (Fin 3) (Fin 3) ℝ,
      (∀ P ∈ t.corners, ∀ Q ∈ t.corners,
        J.mulVec (xyz P - xyz Q) = vecAt3 r2 r3 f P - vecAt3 r2 r3 f Q) ∧
      c.type.attracting = {μ : ℂ | IsEig J μ ∧ μ.re < 0}.ncard ∧
      (c.type.spiral = true ↔ ∃ μ, IsEig J μ ∧ μ.im ≠ 0) := by
  obtain ⟨t, ht, hid, hp⟩ := ((C53_extract (type3 eps) r1 r2 r3 hr f).1 id c).1 h
  obtain ⟨J, hJ, -, hty⟩ := hp.jac
  obtain ⟨x, y, z, -, -, -, h4⟩ := C79_types_3d h0 J
  rw [hty] at hs ⊢
  exact ⟨t, ht, hid, J, hJ, (h4 hs).2.2.2⟩

/-- **C79** Without the exception the claim is false: a source around which the field grows at the
same rate in all directions is reported as singular, in double precision as in any other. -/
theorem C79_isotropic_source {eps : ℝ} (h0 : 0 < eps) :
    (5, (⟨![1 / 2, 1 / 4, 1 / 8], .singular⟩ : CP3 CPType3)) ∈ extract3 (type3 eps) 2 2 2 exCube ∧
    ∀ μ, IsEig (Matrix.diagonal fun _ : Fin 3 => (16 : ℝ)) μ ↔ μ = 16 := by
  have heig : ∀ μ, IsEig (Matrix.diagonal fun _ : Fin 3 => (16 : ℝ)) μ ↔ μ = 16 := by
    intro μ
    unfold IsEig
    have hd : (Matrix.diagonal fun _ : Fin 3 => (16 : ℝ)).map Complex.ofReal =
        Matrix.diagonal fun _ => (16 : ℂ) := by
      rw [Matrix.diagonal_map (by simp)]
      congr 1
    rw [hd]
    constructor
    · rintro ⟨v, hv, h⟩
      obtain ⟨i, hi⟩ := Function.ne_iff.1 hv
      have := congrFun h i
      rw [Matrix.mulVec_diagonal] at this
      exact (mul_right_cancel₀ hi this).symm
    · rintro rfl
      refine ⟨fun _ => 1, ?_, ?_⟩
      · intro h
        have := congrFun h 0
        simp at this
      · ext i
        rw [Matrix.mulVec_diagonal]
        simp
  refine ⟨?_, heig⟩
  have h := exCube_mem (type3 eps)
  obtain ⟨x, y, z, -, h2, h3, -⟩ := C79_types_3d h0 (Matrix.diagonal fun _ : Fin 3 => (16 : ℝ))
  have hx : x = 16 := (heig x).1 ((h2 x).2 (Or.inl rfl))
  have hy : y = 16 := (heig y).1 ((h2 y).2 (Or.inr (Or.inl rfl)))
  have ht : type3 eps (Matrix.diagonal fun _ : Fin 3 => (16 : ℝ)).charpoly = .singular := by
    rw [h3, hx, hy]
    simp [h0]
  rw [ht] at h
  exact h

/-- Specification: what a 2D type says about the eigenvalues. -/
def Means (t : CPType) (E : ℂ → Prop) : Prop :=
  match t with
  | .singular => False
  | .saddle => ∃ a b : ℝ, a < 0 ∧ 0 < b ∧ E a ∧ E b
  | .attracting => ∀ μ, E μ → μ.im = 0 ∧ μ.re < 0
  | .repelling => ∀ μ, E μ → μ.im = 0 ∧ 0 < μ.re
  | .attractingFocus => ∀ μ, E μ → μ.im ≠ 0 ∧ μ.re < 0
  | .repellingFocus => ∀ μ, E μ → μ.im ≠ 0 ∧ 0 < μ.re
  | .center => ∀ μ, E μ → μ.im ≠ 0 ∧ μ.re = 0

/-- The Jacobian as a matrix. -/
def Jmat (J : Jac) : Matrix (Fin 2) (Fin 2) ℝ := !![J.ux, J.uy; J.vx, J.vy]

theorem isEig_two (J : Jac) (μ : ℂ) :
    IsEig (Jmat J) μ ↔ μ ^ 2 - (J.tr : ℂ) * μ + (J.det : ℂ) = 0 := by
  rw [isEig_iff]
  have hm : (Jmat J).charpoly.map Complex.ofRealHom = ((Jmat J).map Complex.ofReal).charpoly :=
    (Matrix.charpoly_map (Jmat J) Complex.ofRealHom).symm
  have hne : ((Jmat J).map Complex.ofReal).charpoly ≠ 0 := (Matrix.charpoly_monic _).ne_zero
  unfold croots
  rw [hm, mem_roots hne, IsRoot.def, Matrix.eval_charpoly, Matrix.det_fin_two]
  simp only [Jmat, Jac.tr, Jac.det, Matrix.sub_apply, Matrix.scalar_apply, Matrix.map_apply]
  simp
  constructor <;> intro h <;> linear_combination h

/-- **C79** The 2D types, for every invertible Jacobian. -/
theorem C79_types_2d (J : Jac) (hJ : J.det ≠ 0) (t : CPType) :
    cpType J = t ↔ Means t (IsEig (Jmat J)) := by
  -- the eigenvalues
  have hreal : 0 ≤ J.disc → ∀ μ, IsEig (Jmat J) μ ↔
      μ = (((J.tr + √J.disc) / 2 : ℝ) : ℂ) ∨ μ = (((J.tr - √J.disc) / 2 : ℝ) : ℂ) := by
    intro h μ
    have hs : ((√J.disc : ℝ) : ℂ) ^ 2 = (J.tr : ℂ) ^ 2 - 4 * (J.det : ℂ) := by
      rw [← Complex.ofReal_pow, Real.sq_sqrt h]
      unfold Jac.disc
      push_cast
      ring
    rw [isEig_two, ← sub_eq_zero (a := μ), ← sub_eq_zero (a := μ), ← mul_eq_zero]
    push_cast
    constructor <;> intro h'
    · linear_combination h' - 1 / 4 * hs
    · linear_combination h' + 1 / 4 * hs
  have hcplx : J.disc < 0 → ∀ μ, IsEig (Jmat J) μ ↔
      μ = ⟨J.tr / 2, √(-J.disc) / 2⟩ ∨ μ = ⟨J.tr / 2, -(√(-J.disc) / 2)⟩ := by
    intro h μ
    have hs : ((√(-J.disc) : ℝ) : ℂ) ^ 2 = 4 * (J.det : ℂ) - (J.tr : ℂ) ^ 2 := by
      rw [← Complex.ofReal_pow, Real.sq_sqrt (by linarith)]
      unfold Jac.disc
      push_cast
      ring
    rw [isEig_two, ← sub_eq_zero (a := μ), ← sub_eq_zero (a := μ), ← mul_eq_zero, Complex.mk_eq_add_mul_I,
      Complex.mk_eq_add_mul_I]
    push_cast
    have hI := Complex.I_sq
    constructor <;> intro h'
    · linear_combination h' + 1 / 4 * hs - ((√(-J.disc) : ℝ) : ℂ) ^ 2 / 4 * hI
    · linear_combination h' - 1 / 4 * hs + ((√(-J.disc) : ℝ) : ℂ) ^ 2 / 4 * hI
  have hmul : 0 ≤ J.disc → (J.tr + √J.disc) / 2 * ((J.tr - √J.disc) / 2) = J.det := by
    intro h
    have := Real.sq_sqrt h
    unfold Jac.disc at *
    nlinarith
  have hM : Means (cpType J) (IsEig (Jmat J)) := by
    unfold cpType
    by_cases h : 0 ≤ J.disc
    · rw [if_pos h]
      have hE := hreal h
      have hm := hmul h
      have hle : (J.tr - √J.disc) / 2 ≤ (J.tr + √J.disc) / 2 := by
        have := Real.sqrt_nonneg J.disc
        linarith
      generalize (J.tr + √J.disc) / 2 = a at *
      generalize (J.tr - √J.disc) / 2 = b at *
      dsimp only
      by_cases h1 : a * b < 0
      · rw [if_pos h1]
        refine ⟨b, a, ?_, ?_, (hE _).2 (Or.inr rfl), (hE _).2 (Or.inl rfl)⟩
        · by_contra hb
          push Not at hb
          nlinarith
        · by_contra ha
          push Not at ha
          nlinarith
      · rw [if_neg h1]
        have h2 : 0 < a * b := by
          rcases lt_or_eq_of_le (not_lt.1 h1) with h | h
          · exact h
          · exact absurd (hm.symm.trans h.symm) hJ
        by_cases h3 : a < 0
        · rw [if_pos h3]
          intro μ hμ
          rcases (hE μ).1 hμ with rfl | rfl
          · exact ⟨Complex.ofReal_im _, h3⟩
          · exact ⟨Complex.ofReal_im _, hle.trans_lt h3⟩
        · have h4 : 0 < a := by
            rcases lt_or_eq_of_le (not_lt.1 h3) with h | h
            · exact h
            · rw [← h, zero_mul] at h2
              exact absurd h2 (lt_irrefl _)
          have h5 : 0 < b := by
            by_contra hb
            push Not at hb
            nlinarith
          rw [if_neg h3, if_pos h4]
          intro μ hμ
          rcases (hE μ).1 hμ with rfl | rfl
          · exact ⟨Complex.ofReal_im _, h4⟩
          · exact ⟨Complex.ofReal_im _, h5⟩
    · rw [if_neg h]
      have hE := hcplx (not_le.1 h)
      have hs : 0 < √(-J.disc) := Real.sqrt_pos.2 (by linarith [not_le.1 h])
      have him : ∀ μ, IsEig (Jmat J) μ → μ.im ≠ 0 ∧ μ.re = J.tr / 2 := by
        intro μ hμ
        rcases (hE μ).1 hμ with rfl | rfl
        · exact ⟨(half_pos hs).ne', rfl⟩
        · exact ⟨(neg_neg_of_pos (half_pos hs)).ne, rfl⟩
      by_cases h1 : J.tr < 0
      · rw [if_pos h1]
        intro μ hμ
        obtain ⟨a, b⟩ := him μ hμ
        exact ⟨a, by linarith⟩
      · rw [if_neg h1]
        by_cases h2 : 0 < J.tr
        · rw [if_pos h2]
          intro μ hμ
          obtain ⟨a, b⟩ := him μ hμ
          exact ⟨a, by linarith⟩
        · rw [if_neg h2]
          intro μ hμ
          obtain ⟨a, b⟩ := him μ hμ
          exact ⟨a, by linarith⟩
  have hex : ∃ μ, IsEig (Jmat J) μ := by
    rcases le_or_gt 0 J.disc with h | h
    · exact ⟨_, (hreal h _).2 (Or.inl rfl)⟩
    · exact ⟨_, (hcplx h _).2 (Or.inl rfl)⟩
  refine ⟨fun h => h ▸ hM, fun h => ?_⟩
  generalize cpType J = s at hM
  generalize IsEig (Jmat J) = E at *
  clear hreal hcplx
  obtain ⟨μ, hμ⟩ := hex
  have key : ∀ (a : ℝ), (a : ℂ).im = 0 ∧ (a : ℂ).re = a := fun a =>
    ⟨Complex.ofReal_im a, Complex.ofReal_re a⟩
  cases s <;> cases t <;> first
    | rfl
    | exact absurd hM id
    | exact absurd h id
    | (exfalso
       obtain ⟨a, b, ha, hb, hEa, hEb⟩ := h
       have h1 := hM _ hEa
       have h2 := hM _ hEb
       rw [(key a).1, (key a).2] at h1
       rw [(key b).1, (key b).2] at h2
       first | exact h1.1 rfl | linarith [h1.2, h2.2])
    | (exfalso
       obtain ⟨a, b, ha, hb, hEa, hEb⟩ := hM
       have h1 := h _ hEa
       have h2 := h _ hEb
       rw [(key a).1, (key a).2] at h1
       rw [(key b).1, (key b).2] at h2
       first | exact h1.1 rfl | linarith [h1.2, h2.2])
    | (exfalso
       have h1 := hM _ hμ
       have h2 := h _ hμ
       first | exact h1.1 h2.1 | exact h2.1 h1.1 | linarith [h1.2, h2.2])

/-- A rotation around the point is a center. -/
example : Means .center (IsEig (Jmat ⟨0, -1, 1, 0⟩)) := by
  refine (C79_types_2d ⟨0, -1, 1, 0⟩ (by norm_num [Jac.det]) .center).1 ?_
  norm_num [cpType, Jac.disc, Jac.tr, Jac.det]

/-- **C79** Every entry of the 2D extraction: the type says what the eigenvalues of the Jacobian of
the interpolant in the reported triangle are. -/
theorem C79_reported_2d (r1 r2 : Nat) (f : Online2D.Field ℝ) (id : Nat) (c : CP2)
    (h : (id, c) ∈ extract r1 r2 f) :
    ∃ t : Tri, interior r1 r2 t ∧ id = triNo r2 t ∧ ∃ J : Jac, t.isJac r2 f J ∧
      Means c.type (IsEig (Jmat J)) := by
  obtain ⟨t, ht, hid, hp⟩ := ((C51_extract r1 r2 f).1 id c).1 h
  obtain ⟨J, hJ, hd, hty⟩ := hp.jac
  exact ⟨t, ht, hid, J, hJ, (C79_types_2d J hd c.type).1 hty.symm⟩

/-- The hypotheses of C79 hold for the field `exInner`. -/
example : ∃ t : Tri, interior 4 4 t ∧ 8 = triNo 4 t ∧ ∃ J : Jac, t.isJac 4 exInner J ∧
    Means .repelling (IsEig (Jmat J)) := C79_reported_2d 4 4 exInner _ _ exInner_mem

/-- A field on a grid of eight vertices with a source, where the field grows at the rates 16, 32 and
64 along the axes. -/
noncomputable def exSource : Arr ℝ := fun c q =>
  if c = 0 then 16 * ((q % 2 : Nat) : ℝ) - 8 else
  if c = 1 then 32 * ((q / 2 % 2 : Nat) : ℝ) - 8 else 64 * ((q / 4 : Nat) : ℝ) - 8

/-- Its Jacobian. -/
noncomputable def exSourceJ : Matrix (Fin 3) (Fin 3) ℝ := Matrix.diagonal ![16, 32, 64]

theorem exSource_point {Ty : Type} (ty : ℝ[X] → Ty) : IsPoint3 ty 2 2 exSource ⟨0, 0, 0, 5⟩
    ⟨![1 / 2, 1 / 4, 1 / 8], ty exSourceJ.charpoly⟩ := by
  have hc : (⟨0, 0, 0, 5⟩ : Tet).corners = [(0, 0, 0), (0, 0, 1), (0, 1, 1), (1, 1, 1)] := by decide
  have h0 : vecAt3 2 2 exSource (0, 0, 0) = ![-8, -8, -8] := by
    ext r; fin_cases r <;> norm_num [vecAt3, exSource, flat3]
  have h1 : vecAt3 2 2 exSource (0, 0, 1) = ![8, -8, -8] := by
    ext r; fin_cases r <;> norm_num [vecAt3, exSource, flat3]
  have h2 : vecAt3 2 2 exSource (0, 1, 1) = ![8, 24, -8] := by
    ext r; fin_cases r <;> norm_num [vecAt3, exSource, flat3]
  have h3 : vecAt3 2 2 exSource (1, 1, 1) = ![8, 24, 56] := by
    ext r; fin_cases r <;> norm_num [vecAt3, exSource, flat3]
  refine ⟨⟨exSourceJ, ?_, ?_, rfl⟩, ?_,
    fun P => if P = (0, 0, 0) then 1 / 2 else if P = (0, 0, 1) then 1 / 4 else 1 / 8, ?_, ?_, ?_, ?_⟩
  · intro P hP Q hQ
    rw [hc] at hP hQ
    simp only [List.mem_cons, List.not_mem_nil, or_false] at hP hQ
    rcases hP with rfl | rfl | rfl | rfl <;> rcases hQ with rfl | rfl | rfl | rfl <;>
      simp only [h0, h1, h2, h3] <;> ext r <;> fin_cases r <;>
      norm_num [Matrix.mulVec_diagonal, xyz, exSourceJ]
  · rw [exSourceJ, Matrix.det_diagonal]
    simp [Fin.prod_univ_three]
  · intro P hP
    rw [hc] at hP
    simp only [List.mem_cons, List.not_mem_nil, or_false] at hP
    rcases hP with rfl | rfl | rfl | rfl <;> simp only [h0, h1, h2, h3] <;> intro h <;>
      have := congrFun h 0 <;> norm_num at this
  · intro P _
    simp only
    split <;> [norm_num; split <;> norm_num]
  · rw [hc]; norm_num
  · intro r
    rw [hc]
    simp only [List.map_cons, List.map_nil, h0, h1, h2, h3]
    fin_cases r <;> norm_num
  · intro r
    rw [hc]
    simp only [List.map_cons, List.map_nil, xyz]
    fin_cases r <;> norm_num

theorem exSource_mem {Ty : Type} (ty : ℝ[X] → Ty) :
    (5, (⟨![1 / 2, 1 / 4, 1 / 8], ty exSourceJ.charpoly⟩ : CP3 Ty)) ∈ extract3 ty 2 2 2 exSource :=
  ((C53_extract ty 2 2 2 (by norm_num) exSource).1 _ _).2
    ⟨⟨0, 0, 0, 5⟩, by simp [Tet.inGrid], rfl, exSource_point ty⟩

theorem isEig_diag (d : Fin 3 → ℝ) (μ : ℂ) :
    IsEig (Matrix.diagonal d) μ ↔ ∃ i, μ = (d i : ℂ) := by
  unfold IsEig
  have hd : (Matrix.diagonal d).map Complex.ofReal = Matrix.diagonal fun i => (d i : ℂ) := by
    rw [Matrix.diagonal_map (by simp)]
  rw [hd]
  constructor
  · rintro ⟨v, hv, h⟩
    obtain ⟨i, hi⟩ := Function.ne_iff.1 hv
    have := congrFun h i
    rw [Matrix.mulVec_diagonal] at this
    exact ⟨i, (mul_right_cancel₀ hi this).symm⟩
  · rintro ⟨i, rfl⟩
    refine ⟨Pi.single i 1, ?_, ?_⟩
    · intro h
      have := congrFun h i
      simp at this
    · ext j
      rw [Matrix.mulVec_diagonal]
      by_cases hj : j = i
      · subst hj; simp
      · simp [Pi.single_eq_of_ne hj]

theorem type3_diag (d : Fin 3 → ℝ) :
    cubicDisc ((Matrix.diagonal d).charpoly.coeff 2) ((Matrix.diagonal d).charpoly.coeff 1)
      ((Matrix.diagonal d).charpoly.coeff 0) =
      -((d 0 - d 1) * (d 1 - d 2) * (d 2 - d 0)) ^ 2 / 108 ∧
    croots (Matrix.diagonal d).charpoly = {(d 0 : ℂ), (d 1 : ℂ), (d 2 : ℂ)} := by
  have hp : (Matrix.diagonal d).charpoly = (X - C (d 0)) * (X - C (d 1)) * (X - C (d 2)) := by
    rw [Matrix.charpoly_diagonal, Fin.prod_univ_three]
  have hr : croots (Matrix.diagonal d).charpoly = {(d 0 : ℂ), (d 1 : ℂ), (d 2 : ℂ)} := by
    unfold croots
    have : (Matrix.diagonal d).charpoly.map Complex.ofRealHom =
        (Multiset.map (fun a => X - C a) {(d 0 : ℂ), (d 1 : ℂ), (d 2 : ℂ)}).prod := by
      rw [hp]
      simp [mul_assoc]
    rw [this, roots_multiset_prod_X_sub_C]
  refine ⟨?_, hr⟩
  obtain ⟨x, y, z, h, hb, hc, hd⟩ := croots_three _ (Matrix.charpoly_monic _)
    (charpoly_deg (Matrix.diagonal d))
  have hD := cubicDisc_roots hb hc hd
  have hco : ∀ s p q : ℝ, (X ^ 3 - C s * X ^ 2 + C p * X - C q : ℝ[X]).coeff 2 = -s ∧
      (X ^ 3 - C s * X ^ 2 + C p * X - C q : ℝ[X]).coeff 1 = p ∧
      (X ^ 3 - C s * X ^ 2 + C p * X - C q : ℝ[X]).coeff 0 = -q := by
    intro s p q
    simp [coeff_X_pow, coeff_X, coeff_C]
  obtain ⟨h2, h1, h0⟩ := hco (d 0 + d 1 + d 2) (d 0 * d 1 + d 1 * d 2 + d 2 * d 0)
    (d 0 * d 1 * d 2)
  have hp' : (Matrix.diagonal d).charpoly = X ^ 3 - C (d 0 + d 1 + d 2) * X ^ 2 +
      C (d 0 * d 1 + d 1 * d 2 + d 2 * d 0) * X - C (d 0 * d 1 * d 2) := by
    rw [hp]
    simp only [map_add, map_mul]
    ring
  rw [hp', h2, h1, h0]
  unfold cubicDisc
  ring

theorem exSource_disc : cubicDisc (exSourceJ.charpoly.coeff 2) (exSourceJ.charpoly.coeff 1)
    (exSourceJ.charpoly.coeff 0) = -(24576 : ℝ) ^ 2 / 108 := by
  unfold exSourceJ
  rw [(type3_diag ![16, 32, 64]).1, show (![16, 32, 64] : Fin 3 → ℝ) 0 = 16 from rfl,
    show (![16, 32, 64] : Fin 3 → ℝ) 1 = 32 from rfl,
    show (![16, 32, 64] : Fin 3 → ℝ) 2 = 64 from rfl]
  norm_num

theorem exSource_type {eps : ℝ} (h1 : eps ≤ 1) :
    type3 eps exSourceJ.charpoly = .stableSource := by
  obtain ⟨-, hr⟩ := type3_diag ![16, 32, 64]
  have hc : (croots exSourceJ.charpoly).countP (fun z => z.re < 0) = 0 := by
    unfold exSourceJ
    rw [hr, Multiset.countP_eq_zero]
    intro a ha
    simp at ha
    rcases ha with rfl | rfl | rfl <;> norm_num
  unfold type3
  rw [exSource_disc, hc, if_neg (by rw [abs_of_neg (by norm_num)]; norm_num; linarith)]
  norm_num

/-- The hypotheses of C79 hold for the field `exSource`. -/
example : ∃ t : Tet, t.inGrid 2 2 2 ∧ 5 = tetNo 2 2 t ∧ ∃ J : Matrix (Fin 3) (Fin 3) ℝ,
    (∀ P ∈ t.corners, ∀ Q ∈ t.corners,
      J.mulVec (xyz P - xyz Q) = vecAt3 2 2 exSource P - vecAt3 2 2 exSource Q) ∧
    0 = {μ : ℂ | IsEig J μ ∧ μ.re < 0}.ncard ∧ (false = true ↔ ∃ μ, IsEig J μ ∧ μ.im ≠ 0) := by
  have h := exSource_mem (type3 (1 / 2 ^ 52))
  rw [exSource_type (by norm_num)] at h
  exact C79_reported_3d_partial (by norm_num) 2 2 2 (by norm_num) _ _ _ h (by decide)

/-! ### C80 -/

/-- Specification: the type of the field with all vectors reversed. -/
def _root_.CpSZ.CPType.reverse : CPType → CPType
  | .attracting => .repelling
  | .repelling => .attracting
  | .attractingFocus => .repellingFocus
  | .repellingFocus => .attractingFocus
  | t => t

theorem cpType_scale {c : ℝ} (hc : c ≠ 0) (J : Jac) (hJ : J.det ≠ 0) :
    cpType ⟨c * J.ux, c * J.uy, c * J.vx, c * J.vy⟩ =
      if 0 < c then cpType J else (cpType J).reverse := by
  set K : Jac := ⟨c * J.ux, c * J.uy, c * J.vx, c * J.vy⟩ with hK
  have hd : K.det = c ^ 2 * J.det := by simp only [hK, Jac.det]; ring
  have ht : K.tr = c * J.tr := by simp only [hK, Jac.tr]; ring
  have hE : ∀ μ, IsEig (Jmat J) μ ↔ IsEig (Jmat K) (c * μ) := by
    intro μ
    have hc' : (c : ℂ) ≠ 0 := by exact_mod_cast hc
    rw [isEig_two, isEig_two, hd, ht]
    push_cast
    rw [show ((c : ℂ) * μ) ^ 2 - c * J.tr * (c * μ) + (c : ℂ) ^ 2 * J.det =
      (c : ℂ) ^ 2 * (μ ^ 2 - J.tr * μ + J.det) by ring, mul_eq_zero]
    simp [hc']
  have hE' : ∀ μ, IsEig (Jmat K) μ → ∃ ν, IsEig (Jmat J) ν ∧ μ = c * ν := by
    intro μ h
    have hc' : (c : ℂ) ≠ 0 := by exact_mod_cast hc
    refine ⟨μ / c, ?_, by field_simp⟩
    rw [hE, mul_div_cancel₀ _ hc']
    exact h
  have hM := (C79_types_2d J hJ _).1 rfl
  rw [C79_types_2d K (by rw [hd]; exact mul_ne_zero (pow_ne_zero _ hc) hJ)]
  have him : ∀ μ : ℂ, ((c : ℂ) * μ).im = c * μ.im := fun μ => by simp
  have hre : ∀ μ : ℂ, ((c : ℂ) * μ).re = c * μ.re := fun μ => by simp
  generalize cpType J = t at hM
  rcases lt_or_gt_of_ne hc with h | h
  · rw [if_neg (not_lt.2 h.le)]
    cases t
    case saddle =>
      obtain ⟨a, b, ha, hb, h1, h2⟩ := hM
      refine ⟨c * b, c * a, mul_neg_of_neg_of_pos h hb, mul_pos_of_neg_of_neg h ha, ?_, ?_⟩
      · push_cast; exact (hE _).1 h2
      · push_cast; exact (hE _).1 h1
    case singular => exact hM
    all_goals
      intro μ hμ
      obtain ⟨ν, hν, rfl⟩ := hE' μ hμ
      have := hM ν hν
      rw [him, hre]
    · exact ⟨by rw [this.1, mul_zero], mul_pos_of_neg_of_neg h this.2⟩
    · exact ⟨by rw [this.1, mul_zero], mul_neg_of_neg_of_pos h this.2⟩
    · exact ⟨mul_ne_zero hc this.1, mul_pos_of_neg_of_neg h this.2⟩
    · exact ⟨mul_ne_zero hc this.1, mul_neg_of_neg_of_pos h this.2⟩
    · exact ⟨mul_ne_zero hc this.1, by rw [this.2, mul_zero]⟩
  · rw [if_pos h]
    cases t
    case saddle =>
      obtain ⟨a, b, ha, hb, h1, h2⟩ := hM
      refine ⟨c * a, c * b, mul_neg_of_pos_of_neg h ha, mul_pos h hb, ?_, ?_⟩
      · push_cast; exact (hE _).1 h1
      · push_cast; exact (hE _).1 h2
    case singular => exact hM
    all_goals
      intro μ hμ
      obtain ⟨ν, hν, rfl⟩ := hE' μ hμ
      have := hM ν hν
      rw [him, hre]
    · exact ⟨by rw [this.1, mul_zero], mul_neg_of_pos_of_neg h this.2⟩
    · exact ⟨by rw [this.1, mul_zero], mul_pos h this.2⟩
    · exact ⟨mul_ne_zero hc this.1, mul_neg_of_pos_of_neg h this.2⟩
    · exact ⟨mul_ne_zero hc this.1, mul_pos h this.2⟩
    · exact ⟨mul_ne_zero hc this.1, by rw [this.2, mul_zero]⟩

/-- A vector in another unit. -/
def sc (c : ℝ) (p : ℝ × ℝ) : ℝ × ℝ := (c * p.1, c * p.2)

theorem checkCP_scale {c : ℝ} (hc : c ≠ 0) (p0 p1 p2 : ℝ × ℝ) :
    checkCP (sc c p0) (sc c p1) (sc c p2) = checkCP p0 p1 p2 := by
  rw [Bool.eq_iff_iff, checkCP_iff, checkCP_iff]
  apply and_congr
  · unfold Regular sc
    rw [show (c * p0.1 - c * p2.1) * (c * p1.2 - c * p2.2) -
      (c * p0.2 - c * p2.2) * (c * p1.1 - c * p2.1) =
      c ^ 2 * ((p0.1 - p2.1) * (p1.2 - p2.2) - (p0.2 - p2.2) * (p1.1 - p2.1)) by ring,
      mul_ne_zero_iff]
    exact and_iff_right (pow_ne_zero _ hc)
  · unfold HasCP sc
    have e : ∀ x : ℝ, c * x = 0 ↔ x = 0 := fun x => by simp [hc]
    refine exists_congr fun a => exists_congr fun b => exists_congr fun d => ?_
    refine and_congr_right fun _ => and_congr_right fun _ => and_congr_right fun _ =>
      and_congr_right fun _ => and_congr ?_ ?_
    · rw [← e (a * p0.1 + b * p1.1 + d * p2.1)]
      ring_nf
    · rw [← e (a * p0.2 + b * p1.2 + d * p2.2)]
      ring_nf

theorem mu_scale {c : ℝ} (hc : c ≠ 0) (p0 p1 p2 : ℝ × ℝ) (h : checkCP p0 p1 p2 = true) :
    mu (sc c p0) (sc c p1) (sc c p2) = mu p0 p1 p2 := by
  have hr := ((checkCP_iff _ _ _).1 ((checkCP_scale hc p0 p1 p2).trans h)).1
  obtain ⟨-, -, -, hs, e1, e2⟩ := mu_zero h
  rw [mu_unique hr hs]
  · simp only [sc]; linear_combination c * e1
  · simp only [sc]; linear_combination c * e2

theorem checkTri_scale {c : ℝ} (hc : c ≠ 0) (r2 : Nat) (f : Online2D.Field ℝ) (t : Tri) :
    checkTri r2 (f.scale c) t =
      (checkTri r2 f t).map fun p => ⟨p.x, if 0 < c then p.type else p.type.reverse⟩ := by
  have hv : ∀ q, t.vec r2 (f.scale c) q = sc c (t.vec r2 f q) := fun q => rfl
  have hz : ∀ p : ℝ × ℝ, sc c p = (0, 0) ↔ p = (0, 0) := by
    rintro ⟨a, b⟩
    simp [sc, hc]
  unfold checkTri checkSimplex
  rw [hv, hv, hv, checkCP_scale hc]
  simp only [hz]
  by_cases h0 : t.vec r2 f 0 = (0, 0) ∨ t.vec r2 f 1 = (0, 0) ∨ t.vec r2 f 2 = (0, 0)
  · rw [if_pos h0, if_pos h0]; rfl
  rw [if_neg h0, if_neg h0]
  by_cases h1 : checkCP (t.vec r2 f 0) (t.vec r2 f 1) (t.vec r2 f 2) = true
  · rw [if_pos h1, if_pos h1]
    have hJ := (jacobian_det r2 f t).2 ((checkCP_iff _ _ _).1 h1).1
    have := cpType_scale hc _ hJ
    simp only [Option.map_some, mu_scale hc _ _ _ h1, Option.some.injEq, CP2.mk.injEq, true_and]
    rw [← this]
    congr 1
    simp only [jacobian, sc, Jac.mk.injEq]
    refine ⟨?_, ?_, ?_, ?_⟩ <;> ring
  · rw [if_neg h1, if_neg h1]; rfl

/-- **C80** In 2D the unit of the data does not matter: the field in another unit has the same
critical points, at the same positions and of the same types.  If all vectors are reversed, then
attracting and repelling points change places. -/
theorem C80_units_2d {c : ℝ} (hc : c ≠ 0) (r1 r2 : Nat) (f : Online2D.Field ℝ) :
    extract r1 r2 (f.scale c) = (extract r1 r2 f).map fun e =>
      (e.1, ⟨e.2.x, if 0 < c then e.2.type else e.2.type.reverse⟩) := by
  rw [extract_eq, extract_eq, calls_eq, calls_eq]
  simp only [List.filterMap_map, List.map_filterMap]
  congr 1
  funext t
  simp only [Function.comp_apply, checkTri_scale hc, Option.map_map]
  rfl

theorem C80_units_2d_pos {c : ℝ} (hc : 0 < c) (r1 r2 : Nat) (f : Online2D.Field ℝ) :
    extract r1 r2 (f.scale c) = extract r1 r2 f := by
  rw [C80_units_2d hc.ne']
  simp [hc]

/-- A reversed field. -/
example : (8, (⟨(5 / 4, 11 / 8), .attracting⟩ : CP2)) ∈ extract 4 4 (exInner.scale (-2)) := by
  rw [C80_units_2d (by norm_num)]
  refine List.mem_map.2 ⟨_, exInner_mem, ?_⟩
  rw [if_neg (by norm_num)]
  rfl

theorem charpoly_scale {c : ℝ} (hc : c ≠ 0) (A : Matrix (Fin 3) (Fin 3) ℝ) :
    (c • A).charpoly = A.charpoly.scaleRoots c := by
  apply Polynomial.funext
  intro x
  obtain ⟨y, rfl⟩ : ∃ y, x = c * y := ⟨x / c, by field_simp⟩
  rw [scaleRoots_eval_mul, charpoly_deg, Matrix.eval_charpoly, Matrix.eval_charpoly]
  rw [show Matrix.scalar (Fin 3) (c * y) - c • A = c • (Matrix.scalar (Fin 3) y - A) by
    ext i j; simp [Matrix.scalar_apply, Matrix.diagonal_apply, mul_sub]]
  rw [Matrix.det_smul]
  simp

theorem diffs_scale (c : ℝ) (v : Fin 4 → Fin 3 → ℝ) :
    diffs (fun q r => c * v q r) = c • diffs v := by
  ext i j
  simp [diffs, mul_sub]

theorem checkSimplex3_scale {Ty : Type} {c : ℝ} (hc : c ≠ 0) (ty : ℝ[X] → Ty)
    (Y v : Fin 4 → Fin 3 → ℝ) (i j k : Nat) :
    checkSimplex3 ty Y (fun q r => c * v q r) i j k =
      checkSimplex3 (fun P => ty (P.scaleRoots c)) Y v i j k := by
  unfold checkSimplex3 cpType3
  have hz : (∃ q, (fun r => c * v q r) = 0) ↔ ∃ q, v q = 0 := by
    refine exists_congr fun q => ?_
    constructor
    · intro h
      ext r
      simpa [hc] using congrFun h r
    · intro h
      ext r
      simp [h]
  have hdet : (diffs fun q r => c * v q r).det ≠ 0 ↔ (diffs v).det ≠ 0 := by
    rw [diffs_scale, Matrix.det_smul, mul_ne_zero_iff]
    exact and_iff_right (pow_ne_zero _ hc)
  have hmu : (diffs v).det ≠ 0 → (mu3 fun q r => c * v q r) = mu3 v := by
    intro h
    unfold mu3
    have : (diffs fun q r => c * v q r)⁻¹.mulVec (fun r => -(c * v 3 r)) =
        (diffs v)⁻¹.mulVec fun r => -v 3 r := by
      let _ := invertibleOfNonzero hc
      rw [diffs_scale, Matrix.inv_smul _ c (isUnit_iff_ne_zero.2 h), Matrix.smul_mulVec]
      rw [show (fun r => -(c * v 3 r)) = c • fun r => -v 3 r by ext r; simp, Matrix.mulVec_smul,
        smul_smul, invOf_mul_self, one_smul]
    simp only [this]
  by_cases h0 : ∃ q, v q = 0
  · rw [if_pos h0, if_pos (hz.2 h0)]
  rw [if_neg h0, if_neg (fun h => h0 (hz.1 h))]
  by_cases h1 : (diffs v).det ≠ 0
  · rw [hmu h1, diffs_scale, Matrix.mul_smul, charpoly_scale hc]
    have h2 : (c • diffs v).det ≠ 0 := by rw [← diffs_scale]; exact hdet.2 h1
    by_cases h3 : ∀ q, 0 ≤ mu3 v q ∧ mu3 v q ≤ 1
    · rw [if_pos ⟨h2, h3⟩, if_pos ⟨h1, h3⟩]
    · rw [if_neg (fun h => h3 h.2), if_neg (fun h => h3 h.2)]
  · rw [if_neg (fun h => h1 (hdet.1 h.1)), if_neg (fun h => h1 h.1)]

theorem checkTet_scale {Ty : Type} {c : ℝ} (hc : c ≠ 0) (ty : ℝ[X] → Ty) (r2 r3 : Nat)
    (f : Nat → Nat → ℝ) (t : Tet) :
    checkTet ty r2 r3 (fun k q => c * f k q) t =
      checkTet (fun P => ty (P.scaleRoots c)) r2 r3 f t :=
  checkSimplex3_scale hc ty _ (fun q => vecAt3 r2 r3 f (corner t q)) _ _ _

theorem disc_scale (c b p q : ℝ) :
    cubicDisc (b * c) (p * c ^ 2) (q * c ^ 3) = c ^ 6 * cubicDisc b p q := by
  unfold cubicDisc
  ring

theorem type3_scale {c : ℝ} (hc : 0 < c) (eps : ℝ) (A : Matrix (Fin 3) (Fin 3) ℝ) :
    type3 eps (A.charpoly.scaleRoots c) = type3 (eps / c ^ 6) A.charpoly := by
  have hd := charpoly_deg A
  have hm : A.charpoly.Monic := Matrix.charpoly_monic A
  have hroots : croots (A.charpoly.scaleRoots c) = (croots A.charpoly).map fun z => (c : ℂ) * z := by
    unfold croots
    rw [map_scaleRoots _ _ _ (by rw [hm.leadingCoeff]; simp), roots_scaleRoots]
    · rfl
    · exact isUnit_iff_ne_zero.2 (by simpa using hc.ne')
  unfold type3
  rw [coeff_scaleRoots, coeff_scaleRoots, coeff_scaleRoots, hd, hroots, Multiset.countP_map]
  rw [show (3 : ℕ) - 2 = 1 from rfl, show (3 : ℕ) - 1 = 2 from rfl, pow_one, Nat.sub_zero,
    disc_scale]
  have hre : ∀ z : ℂ, ((c : ℂ) * z).re < 0 ↔ z.re < 0 := fun z => by
    simp [mul_neg_iff, hc, hc.not_gt]
  simp only [hre, ← Multiset.countP_eq_card_filter]
  generalize cubicDisc (A.charpoly.coeff 2) (A.charpoly.coeff 1) (A.charpoly.coeff 0) = D
  have h6 : 0 < c ^ 6 := by positivity
  have e1 : |c ^ 6 * D| < eps ↔ |D| < eps / c ^ 6 := by
    rw [abs_mul, abs_of_pos h6, lt_div_iff₀ h6, mul_comm]
  have e2 : 0 < c ^ 6 * D ↔ 0 < D := by simp [h6]
  simp only [e1, e2]

/-- **C80** In 3D the unit enters through the threshold of the test for singular points alone: the
field in another unit has the same critical points at the same positions, and their types are those
for the threshold divided by the sixth power of the unit. -/
theorem C80_units_3d_partial {c : ℝ} (hc : 0 < c) (eps : ℝ) (r1 r2 r3 : Nat) (f : Nat → Nat → ℝ) :
    extract3 (type3 eps) r1 r2 r3 (fun k q => c * f k q) =
      extract3 (type3 (eps / c ^ 6)) r1 r2 r3 f := by
  unfold extract3
  rw [calls3_eq, calls3_eq]
  congr 3
  funext t
  rw [checkTet_scale hc.ne']
  congr 1
  unfold checkTet checkSimplex3 cpType3
  simp only [type3_scale hc]

/-- **C80** Every field is reported to have singular points only, in a unit which is large enough. -/
theorem C80_all_singular {eps : ℝ} (h0 : 0 < eps) (r1 r2 r3 : Nat)
    (hr : 6 * (r1 * r2 * r3) ≤ 2 ^ 32) (f : Nat → Nat → ℝ) :
    ∃ c0 : ℝ, 0 < c0 ∧ ∀ c, 0 < c → c ≤ c0 →
      ∀ e ∈ extract3 (type3 eps) r1 r2 r3 (fun k q => c * f k q), e.2.type = .singular := by
  -- the discriminants which occur
  have key : ∃ M : ℝ, ∀ e ∈ extract3 id r1 r2 r3 f,
      |cubicDisc (e.2.type.coeff 2) (e.2.type.coeff 1) (e.2.type.coeff 0)| ≤ M := by
    induction extract3 id r1 r2 r3 f with
    | nil => exact ⟨0, by simp⟩
    | cons a l ih =>
      obtain ⟨M, h⟩ := ih
      refine ⟨max M |cubicDisc (a.2.type.coeff 2) (a.2.type.coeff 1) (a.2.type.coeff 0)|, ?_⟩
      intro e he
      rcases List.mem_cons.1 he with rfl | he
      · exact le_max_right _ _
      · exact (h e he).trans (le_max_left _ _)
  obtain ⟨M, hM⟩ := key
  have hM1 : 0 < |M| + 1 := by positivity
  refine ⟨min 1 (eps / (|M| + 1)), lt_min one_pos (div_pos h0 hM1), fun c hc hle e he => ?_⟩
  obtain ⟨n, p⟩ := e
  rw [C80_units_3d_partial hc] at he
  obtain ⟨t, ht, hid, hp⟩ := ((C53_extract _ r1 r2 r3 hr f).1 n p).1 he
  obtain ⟨J, hJ, hdet, hty⟩ := hp.jac
  have hin : (n, (⟨p.x, J.charpoly⟩ : CP3 ℝ[X])) ∈ extract3 id r1 r2 r3 f :=
    ((C53_extract id r1 r2 r3 hr f).1 _ _).2 ⟨t, ht, hid, ⟨J, hJ, hdet, rfl⟩, hp.vert, hp.pos⟩
  have hb := hM _ hin
  change p.type = _
  rw [hty]
  unfold type3
  rw [if_pos]
  have hc1 : c ≤ 1 := hle.trans (min_le_left _ _)
  have hc6 : c ^ 6 ≤ c := pow_le_of_le_one hc.le hc1 (by norm_num)
  rw [lt_div_iff₀ (by positivity)]
  calc _ ≤ |M| * c := by
        apply mul_le_mul (hb.trans (le_abs_self M)) hc6 (by positivity) (abs_nonneg M)
    _ < (|M| + 1) * c := by nlinarith
    _ ≤ (|M| + 1) * (eps / (|M| + 1)) := by
        apply mul_le_mul_of_nonneg_left (hle.trans (min_le_right _ _)) hM1.le
    _ = eps := by field_simp

/-- **C80** The claim is false in 3D: the source of `exSource` is found, but in another unit, with
values up to 0.0056, it is reported as singular, with the precision of `double`. -/
theorem C80_unit_matters :
    (5, (⟨![1 / 2, 1 / 4, 1 / 8], .stableSource⟩ : CP3 CPType3)) ∈
      extract3 (type3 (1 / 2 ^ 52)) 2 2 2 exSource ∧
    (5, (⟨![1 / 2, 1 / 4, 1 / 8], .singular⟩ : CP3 CPType3)) ∈
      extract3 (type3 (1 / 2 ^ 52)) 2 2 2 (fun k q => 1 / 10000 * exSource k q) := by
  have h1 := exSource_mem (type3 (1 / 2 ^ 52))
  rw [exSource_type (by norm_num)] at h1
  refine ⟨h1, ?_⟩
  rw [C80_units_3d_partial (by norm_num)]
  have h2 := exSource_mem (type3 (1 / 2 ^ 52 / (1 / 10000) ^ 6))
  have : type3 (1 / 2 ^ 52 / (1 / 10000) ^ 6) exSourceJ.charpoly = .singular := by
    unfold type3
    rw [exSource_disc, if_pos]
    rw [abs_of_neg (by norm_num)]
    norm_num
  rw [this] at h2
  exact h2

end CpSZ.Extract
