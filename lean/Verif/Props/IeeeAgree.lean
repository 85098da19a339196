import Verif.Props.IeeeRel
import Verif.Ieee.Log3
import Verif.AbsRounded
import Verif.Bound2DRounded
import Verif.ThreeD.Bound
/-
The formulas of the IEEE-754 layer (`deriveAbsT`, `deriveRelT`, `deriveAbs3T`, `deriveLog3T`,
written for any arithmetic) are the formulas of the rounded and of the exact layer when they are evaluated with
rounded or with exact operations on real numbers.  Quotients with divisor zero are excluded: they
are `none` there, and 0 in the real numbers of the proof assistant.
-/

namespace CpSZ.Ieee
open CpSZ.Online2D CpSZ.Mesh2D CpSZ.ThreeD

section
variable {rT rF rD lg : ℝ → ℝ}

theorem minfG_real (a b : ℝ) : minfG (roundedOps rT rD lg).toDOps a b = minf a b := by
  simp [minfG, minf, roundedOps]

theorem maxfG_real (a b : ℝ) : maxfG (roundedOps rT rD lg).toDOps a b = maxf a b := by
  simp [maxfG, maxf, roundedOps]

theorem eq0G_real (h0 : rD 0 = 0) (x : ℝ) :
    eq0G (roundedOps rT rD lg).toDOps x = decide (x = 0) := by
  simp only [eq0G, roundedOps, Int.cast_zero, h0, ← Bool.decide_and]
  exact decide_eq_decide.2 ⟨fun h => le_antisymm h.1 h.2, fun h => h ▸ ⟨le_refl _, le_refl _⟩⟩

/-- The operations of the absolute formula, rounded. -/
noncomputable def roundedE (rT rF : ℝ → ℝ) : EOps ℝ ℝ where
  mulT a b := rT (a * b)
  negT a := -a
  keep A B C := rF (|C| / rF (|A| + |B|))

/-- `o` is undefined or `x`. -/
def Ref (o : Option ℝ) (x : ℝ) : Prop := ∀ y, o = some y → x = y

theorem ref_some (x : ℝ) : Ref (some x) x := fun y h => by simpa using h

theorem ref_min {a b : Option ℝ} {x y : ℝ} (ha : Ref a x) (hb : Ref b y) :
    Ref (optMinf a b) (minf x y) := by
  intro z h
  cases a <;> cases b <;> simp only [optMinf, reduceCtorEq, Option.some.injEq] at h
  rw [ha _ rfl, hb _ rfl, h]

theorem ref_max {a b : Option ℝ} {x y : ℝ} (ha : Ref a x) (hb : Ref b y) :
    Ref (optMaxf a b) (maxf x y) := by
  intro z h
  cases a <;> cases b <;> simp only [optMaxf, reduceCtorEq, Option.some.injEq] at h
  rw [ha _ rfl, hb _ rfl, h]

theorem ref_keep (A B C : ℝ) : Ref (keepAbsR rF A B C) ((roundedE rT rF).keep A B C) := by
  intro y h
  unfold keepAbsR at h
  split at h
  · cases h
  · simpa [roundedE] using h

/-- 2D, absolute. -/
theorem agree_abs2 (h0 : rD 0 = 0) (h1 : rD 1 = 1) (u0 u1 u2 v0 v1 v2 : ℝ) :
    Ref (deriveAbsR rT rF rD u0 u1 u2 v0 v1 v2)
      (deriveAbsT (roundedOps rT rD lg) (roundedE rT rF) u0 u1 u2 v0 v1 v2) := by
  have o0 : (roundedOps rT rD lg).ofInt 0 = 0 := by simp [roundedOps, h0]
  have ole : ∀ x, (roundedOps rT rD lg).le ((roundedOps rT rD lg).ofInt 1) x = decide (1 ≤ x) := by
    intro x; simp [roundedOps, h1]
  unfold deriveAbsT deriveAbsR
  simp only [eq0G_real h0, minfG_real, maxfG_real, o0, ole]
  simp only [show ∀ a b, (roundedOps rT rD lg).subT a b = rT (a - b) from fun _ _ => rfl,
    show ∀ a b, (roundedOps rT rD lg).addT a b = rT (a + b) from fun _ _ => rfl,
    show ∀ a b, (roundedOps rT rD lg).add a b = rD (a + b) from fun _ _ => rfl,
    show ∀ a b, (roundedOps rT rD lg).div a b = rD (a / b) from fun _ _ => rfl,
    show ∀ a, (roundedOps rT rD lg).toD a = a from fun _ => rfl,
    show ∀ a b, (roundedE rT rF).mulT a b = rT (a * b) from fun _ _ => rfl,
    show ∀ a, (roundedE rT rF).negT a = -a from fun _ => rfl,
    Bool.and_eq_true, Bool.or_eq_true, decide_eq_true_eq, and_assoc]
  split
  · exact ref_some 0
  split
  · exact ref_some 0
  have ite : ∀ {p : Prop} [Decidable p] {q : Prop} [Decidable q] {a b : Option ℝ} {x y : ℝ},
      (p ↔ ¬ q) → Ref a x → Ref b y → Ref (if p then a else b) (if q then y else x) := by
    intro p _ q _ a b x y hpq ha hb
    by_cases hq : q
    · rw [if_neg (fun hp => hpq.1 hp hq), if_pos hq]; exact hb
    · rw [if_pos (hpq.2 hq), if_neg hq]; exact ha
  refine ite Iff.rfl (ref_max (ite Iff.rfl (ref_max ?_ (ref_min (ref_keep _ _ _)
    (ref_keep _ _ _))) ?_) (ref_keep _ _ _)) (ite Iff.rfl (ref_max ?_ (ref_min (ref_keep _ _ _)
    (ref_keep _ _ _))) ?_) <;>
  exact ite Iff.rfl (ref_max (ref_some 0) (ref_min (ref_keep _ _ _) (ref_keep _ _ _))) (ref_some 0)

/-- The operations of the relative formula, exact. -/
noncomputable def realR : ROps ℝ ℝ where
  mulT a b := a * b
  negT a := -a
  keep := keepSign
  coef := invC
  sqrt := Real.sqrt

theorem keepR_real (A B C : ℝ) : keepR realOps (|A| + |B|) A B C = keepSign A B C := by
  unfold keepR keepSign
  rw [← roundedOps_id, eq0G_real (by simp)]
  simp [roundedOps]

theorem agree_type (u0 u1 u2 v0 v1 v2 c0 c1 c2 c3 : ℝ) :
    Ref (keepType u0 u1 u2 v0 v1 v2 c0 c1 c2 c3)
      (keepTypeT realOps realR u0 u1 u2 v0 v1 v2 c0 c1 c2 c3) := by
  unfold keepTypeT keepType
  rw [← roundedOps_id]
  simp only [eq0G_real (show id (0:ℝ) = 0 from rfl), minfG_real]
  simp only [roundedOps, realR, id, Int.cast_zero, Int.cast_one, Int.cast_ofNat, decide_eq_true_eq]
  split
  · exact ref_some _
  split
  · exact ref_some _
  split
  · split <;> exact ref_some _
  split
  · intro y h; cases h
  · exact ref_some _

/-- 2D, relative. -/
theorem agree_rel2 (k : Nat) (u0 u1 u2 v0 v1 v2 : ℝ) :
    Ref (deriveOnline u0 u1 u2 v0 v1 v2 (invC k 0) (invC k 1) (invC k 2) (invC k 3))
      (deriveRelT realOps realR k u0 u1 u2 v0 v1 v2) := by
  have ht := agree_type u0 u1 u2 v0 v1 v2 (invC k 0) (invC k 1) (invC k 2) (invC k 3)
  unfold deriveRelT deriveOnline keepPosition
  rw [← roundedOps_id] at ht ⊢
  simp only [eq0G_real (show id (0:ℝ) = 0 from rfl), minfG_real, maxfG_real, Bool.and_eq_true,
    Bool.or_eq_true, decide_eq_true_eq, and_assoc]
  rw [show (realR.coef k 0) = invC k 0 from rfl, show (realR.coef k 1) = invC k 1 from rfl,
    show (realR.coef k 2) = invC k 2 from rfl, show (realR.coef k 3) = invC k 3 from rfl]
  revert ht
  generalize keepTypeT _ _ u0 u1 u2 v0 v1 v2 (invC k 0) (invC k 1) (invC k 2) (invC k 3) = x
  intro ht
  simp only [roundedOps, realR, id, Int.cast_zero, Int.cast_one, 
    decide_eq_true_eq]
  split
  · exact ref_some _
  split
  · intro y h
    revert h ht
    cases keepType u0 u1 u2 v0 v1 v2 (invC k 0) (invC k 1) (invC k 2) (invC k 3) with
    | none => intro _ h; cases h
    | some t =>
      intro ht h
      rw [ht t rfl]
      revert h
      generalize minf (keepSign _ _ _) (keepSign _ _ _) = z
      intro h
      simp only [minfX] at h
      unfold minf
      split at h <;> rename_i c <;> cases h
      · exact if_pos c
      · exact if_neg c
  · simp only [ite_not]
    exact ref_some _

theorem keepAbs3D_real (A B C E : ℝ) : keepAbs3D realOps.toDOps A B C E = keepAbs3 A B C E := by
  unfold keepAbs3D keepAbs3
  rw [← roundedOps_id]
  simp only [eq0G_real (show id (0:ℝ) = 0 from rfl), decide_eq_true_eq]
  simp only [roundedOps, id]
  norm_num

/-- 3D, absolute. -/
theorem agree_abs3 (a b c d : Nat → ℝ) :
    deriveAbs3T realOps (roundedE id id) a b c d =
      deriveAbs3 ⟨a 0, a 1, a 2⟩ ⟨b 0, b 1, b 2⟩ ⟨c 0, c 1, c 2⟩ ⟨d 0, d 1, d 2⟩ := by
  unfold deriveAbs3T deriveAbs3
  simp only [keepAbs3D_real]
  rw [← roundedOps_id]
  simp only [eq0G_real (show id (0:ℝ) = 0 from rfl), minfG_real, maxfG_real, Bool.and_eq_true,
    Bool.or_eq_true, decide_eq_true_eq, and_assoc]
  simp only [roundedOps, roundedE, id, Int.cast_zero, Int.cast_one,
    decide_eq_true_eq, ite_not]

theorem keepLog3D_real (A B C E : ℝ) : keepLog3D realOps.toDOps A B C E = keepSign3 A B C E := by
  unfold keepLog3D keepSign3
  rw [← roundedOps_id]
  simp only [eq0G_real (show id (0:ℝ) = 0 from rfl), Bool.and_eq_true, decide_eq_true_eq, and_assoc]
  simp only [roundedOps, id, Int.cast_one]

theorem sameDirT_real (a b c d : ℝ) : sameDirT realOps a b c d = sameDirection a b c d := by
  have h : ∀ x : ℝ, sgnT realOps x = ThreeD.sgn x := by
    intro x
    unfold sgnT ThreeD.sgn
    rw [← roundedOps_id]
    simp only [roundedOps, id, Int.cast_zero, decide_eq_true_eq]
  unfold sameDirT sameDirection
  simp only [h]
  by_cases h0 : ThreeD.sgn a = 0
  · simp [h0]
  · rw [if_neg h0, Bool.eq_iff_iff]
    simp [h0, and_assoc]

/-- 3D, log modes. -/
theorem agree_log3 (a b c d : Nat → ℝ) :
    deriveLog3T realOps (roundedE id id) a b c d =
      derive3 ⟨a 0, a 1, a 2⟩ ⟨b 0, b 1, b 2⟩ ⟨c 0, c 1, c 2⟩ ⟨d 0, d 1, d 2⟩ := by
  unfold deriveLog3T derive3
  simp only [keepLog3D_real, sameDirT_real]
  rw [← roundedOps_id]
  simp only [eq0G_real (show id (0:ℝ) = 0 from rfl), minfG_real, maxfG_real, Bool.and_eq_true,
    Bool.or_eq_true, decide_eq_true_eq, and_assoc]
  simp only [roundedOps, roundedE, id, Int.cast_zero, Int.cast_one,
    decide_eq_true_eq, ite_not]

theorem keepD_real (A B C : ℝ) : keepD realOps A B C = (roundedE id id).keep A B C := rfl

/-- A triangle with a critical point gets the bound zero. -/
example : deriveAbsT realOps (roundedE id id) 1 2 (-4) 3 (-5) 1 = 0 := by
  have h := agree_abs2 (rT := id) (rF := id) (rD := id) (lg := Real.logb 2) rfl rfl
    1 2 (-4) 3 (-5) 1
  rw [roundedOps_id] at h
  refine h 0 ?_
  unfold deriveAbsR
  norm_num

/-- The constants `inv_C` of the IEEE-754 layer are those of the exact layer. -/
theorem coefN_invC (k q : Nat) (hk : k < 6) (hq : q < 4) : (coefN k q : ℝ) = Mesh2D.invC k q := by
  have hk' : k = 0 ∨ k = 1 ∨ k = 2 ∨ k = 3 ∨ k = 4 ∨ k = 5 := by omega
  have hq' : q = 0 ∨ q = 1 ∨ q = 2 ∨ q = 3 := by omega
  rcases hk' with rfl | rfl | rfl | rfl | rfl | rfl <;> rcases hq' with rfl | rfl | rfl | rfl <;>
    norm_num [coefN, Mesh2D.invC, Mesh2D.dj, Mesh2D.di, Mesh2D.tab, Mesh2D.tx, Mesh2D.ty]

end
end CpSZ.Ieee
