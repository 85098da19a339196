import Verif.Bilinear.DeriveG
import Verif.Ieee.Rel
import Verif.Ieee.Bits
/-
The bound formula of the bilinear mode (`Verif.Bilinear.DeriveG`) in IEEE-754 arithmetic: for data
of moderate size it never returns a NaN.
-/

namespace CpSZ.Ieee
open CpSZ.VMode.Bilinear

variable {T D : Type} {O : Ops T D} {F : Fmt} {vT : T → Fp ℚ} {vD : D → Fp ℚ} {eps : ℚ}
variable (hO : IsIeee O F vT vD eps) {sq : D → D}
include hO

/-- `MAX(a, b)` is NaN only if `b` is. -/
theorem maxf_nan_right {a b : D} (hb : vD b ≠ .nan) : vD (maxfG O.toDOps a b) ≠ .nan := by
  unfold maxfG
  split
  · rename_i h
    rw [hO.lt] at h
    intro ha
    rw [ha] at h
    cases hd : vD b <;> rw [hd] at h <;> simp [Fp.lt] at h
  · exact hb

theorem rootMin_nan {plus : Bool} {a b c eb : D} (h : vD eb ≠ .nan) :
    vD (rootMinG O.toDOps sq plus a b c eb) ≠ .nan := by
  unfold rootMinG
  simp only
  generalize O.div (if plus = true then _ else _) _ = x
  split
  · rename_i hx
    refine minf_not_nan h ?_
    intro hn
    rw [hO.lt, hn, hO.zero] at hx
    simp [Fp.lt] at hx
  · exact h

theorem keepQuadratic_nan {a b c : D} : vD (keepQuadraticG O.toDOps sq a b c) ≠ .nan := by
  have h1 : vD (O.ofInt 1) ≠ .nan := by rw [hO.one]; simp
  unfold keepQuadraticG
  split <;> exact rootMin_nan hO h1

theorem corners_nan {a b c d e f : D} : vD (cornersLt0G O.toDOps sq a b c d e f) ≠ .nan := by
  have h1 : vD (O.ofInt 1) ≠ .nan := by rw [hO.one]; simp
  exact rootMin_nan hO (rootMin_nan hO (rootMin_nan hO (rootMin_nan hO h1)))

/-- The sum of the magnitudes of two bounded numbers. -/
theorem abs_sum {j : Int} (h0 : 0 ≤ j) (h1 : j + 1 ≤ 1023) {a b : D} (ha : Bd vD j a)
    (hb : Bd vD j b) : ∃ s, vD (O.add (O.abs a) (O.abs b)) = .fin s ∧ 0 ≤ s := by
  have ha' := bdD_abs hO ha
  have hb' := bdD_abs hO hb
  obtain ⟨s, hs, -⟩ := bdD_add hO (by omega) h1 ha' hb'
  refine ⟨s, hs, ?_⟩
  obtain ⟨x, x1, -⟩ := ha
  obtain ⟨y, y1, -⟩ := hb
  have := hs
  rw [hO.add, hO.abs, hO.abs, x1, y1, abs_fin, abs_fin] at this
  exact (round_fin this).2.2.1 (by positivity)

theorem keepSign_nan {j : Int} (h0 : 0 ≤ j) (h1 : j + 2 ≤ 1023) {a b c : D} (ha : Bd vD j a)
    (hb : Bd vD j b) (hc : Bd vD j c) : vD (keepSignG O.toDOps a b c) ≠ .nan := by
  obtain ⟨s, hs, -⟩ := abs_sum hO h0 (by omega) ha hb
  obtain ⟨x, hx, -⟩ := bdD_add hO (by omega) (by omega) (bdD_add hO (by omega) (by omega) ha hb)
    (hc.mono (show j ≤ j + 1 by omega))
  unfold keepSignG
  rw [hO.eq0_fin hs]
  split
  · rw [hO.zero]; simp
  · rename_i h
    have hs0 : s ≠ 0 := by simpa using h
    rw [hO.div _ _ (by rw [hs]; simpa using hs0), hs, hO.abs, hx, abs_fin]
    simp only [Fp.div, hs0, if_false]
    exact round_not_nan _

/-- A positive number divided by zero is not a NaN. -/
def DivZero (O : Ops T D) (vD : D → Fp ℚ) : Prop :=
  ∀ a b x, vD a = .fin x → 0 < x → vD b = .fin 0 → vD (O.div a b) ≠ .nan

omit hO in
theorem bits_divZero (F : Fmt) (tr : Pat binary64 → Int) (lg : Pat binary64 → Pat binary64) :
    DivZero (bitsOps F tr lg) (dec binary64) := by
  intro a b x ha hx hb
  change dec binary64 (bdiv binary64 a b) ≠ .nan
  unfold bdiv
  rw [ha, hb]
  simp only [if_true, hx.ne', if_false]
  rw [dec_enc ok64 _ (by trivial)]
  simp

theorem cylinder_nan (hz : DivZero O vD) {j : Int} (h0 : 0 ≤ j) (h1 : j + 1 ≤ 1023)
    {a b c d e f : D} (hd : Bd vD j d) (he : Bd vD j e) (hf : Bd vD j f) :
    vD (cylinderG O.toDOps sq a b c d e f) ≠ .nan := by
  have n1 : vD (O.ofInt 1) ≠ .nan := by rw [hO.one]; simp
  unfold cylinderG
  split
  · rename_i h
    refine minf_not_nan n1 ?_
    obtain ⟨s, hs, -⟩ := abs_sum hO h0 h1 hd he
    obtain ⟨x, hx, -⟩ := hf
    rw [hO.lt, hO.zero, hx] at h
    have hpos : 0 < x := by simpa [Fp.lt] using h
    by_cases hs0 : s = 0
    · exact hz _ _ x hx hpos (by rw [hs, hs0])
    · rw [hO.div _ _ (by rw [hs]; simpa using hs0), hs, hx]
      simp only [Fp.div, hs0, if_false]
      exact round_not_nan _
  · exact minf_not_nan n1 (corners_nan hO)

theorem general_nan (hz : DivZero O vD) {j : Int} (h0 : 0 ≤ j) (h1 : j + 1 ≤ 1023)
    {a b c d e f : D} (hd : Bd vD j d) (he : Bd vD j e) (hf : Bd vD j f) :
    vD (generalG O.toDOps sq a b c d e f) ≠ .nan := by
  have n0 : vD (O.ofInt 0) ≠ .nan := by rw [hO.zero]; simp
  have hcy := cylinder_nan hO (sq := sq) hz h0 h1 (a := a) (b := b) (c := c) hd he hf
  have kq : ∀ {x y z : D}, vD (keepQuadraticG O.toDOps sq x y z) ≠ .nan := keepQuadratic_nan hO
  have hite : ∀ {p : Bool} {x y : D}, vD x ≠ .nan → vD y ≠ .nan →
      vD (if p = true then x else y) ≠ .nan := by
    intro p x y hx hy; split <;> assumption
  unfold generalG
  simp only
  generalize cylinderG O.toDOps sq a b c d e f = eb at hcy ⊢
  split
  · exact hcy
  split
  · have hb : ∀ {p : Bool} {e1 e2 q1 q2 : D}, vD q1 ≠ .nan → vD q2 ≠ .nan →
      vD (if p = true then minfG O.toDOps (minfG O.toDOps eb (maxfG O.toDOps e1 q1))
        (maxfG O.toDOps e2 q2) else eb) ≠ .nan := fun hq1 hq2 =>
      hite (minf_not_nan (minf_not_nan hcy (maxf_nan_right hO hq1)) (maxf_nan_right hO hq2)) hcy
    have key := @hb
    refine hite (minf_not_nan (key (hite kq n0) (hite kq (hite kq n0)))
      (maxf_nan_right hO (hite kq n0))) (key (hite kq n0) (hite kq (hite kq n0)))
  · have key : ∀ {p : Bool} {x e1 e2 q1 q2 : D}, vD x ≠ .nan → vD q1 ≠ .nan → vD q2 ≠ .nan →
      vD (if p = true then minfG O.toDOps (minfG O.toDOps x (maxfG O.toDOps e1 q1))
        (maxfG O.toDOps e2 q2) else x) ≠ .nan := fun hx hq1 hq2 =>
      hite (minf_not_nan (minf_not_nan hx (maxf_nan_right hO hq1)) (maxf_nan_right hO hq2)) hx
    exact key (key hcy (hite kq n0) (hite kq (hite kq n0))) (hite kq n0) (hite kq (hite kq n0))

/-- The derived bound is a number (or infinite) when the data are of moderate size. -/
theorem deriveB_nan (hz : DivZero O vD) {k : Int} (h0 : 0 ≤ k) (h1 : 4 * k + 30 ≤ 1023)
    {u0 u1 u2 u3 v0 v1 v2 v3 : D} (bu0 : Bd vD k u0) (bu1 : Bd vD k u1) (bu2 : Bd vD k u2)
    (bu3 : Bd vD k u3) (bv0 : Bd vD k v0) (bv1 : Bd vD k v1) (bv2 : Bd vD k v2)
    (bv3 : Bd vD k v3) : vD (deriveBG O.toDOps sq u0 u1 u2 u3 v0 v1 v2 v3) ≠ .nan := by
  have n0 : vD (O.ofInt 0) ≠ .nan := by rw [hO.zero]; simp
  have n1 : vD (O.ofInt 1) ≠ .nan := by rw [hO.one]; simp
  have e4 : p2 2 = 4 := by rw [p2_eq]; norm_num
  have t2 : Bd vD 2 (O.ofInt 2) := bdD_int hO (by norm_num) (by rw [e4]; norm_num)
  have t2' : Bd vD 2 (O.ofInt (-2)) := bdD_int hO (by norm_num) (by rw [e4]; norm_num)
  have t4 : Bd vD 2 (O.ofInt 4) := bdD_int hO (by norm_num) (by rw [e4]; norm_num)
  have hneg : ∀ {x : D}, Bd vD k x → Bd vD k (O.neg x) := by
    rintro x ⟨y, y1, y2⟩
    exact ⟨-y, by rw [hO.neg, y1]; rfl, by rwa [abs_neg]⟩
  have m2 : ∀ {j : Nat} {a b : D}, Bd vD k a → Bd vD k b →
      Bd vD (4 * k + 2 + j) (O.mul a b) := fun ha hb =>
    (bdD_mul hO (by omega) (by omega) ha hb).mono (by omega)
  have m2c : ∀ {j : Nat} {c a b : D}, Bd vD 2 c → Bd vD k a → Bd vD k b →
      Bd vD (4 * k + 2 + j) (O.mul (O.mul c a) b) := fun hc ha hb =>
    (bdD_mul hO (by omega) (by omega) (bdD_mul hO (by omega) (by omega) hc ha) hb).mono (by omega)
  have m4 : ∀ {j : Nat} {a b c d : D}, Bd vD k a → Bd vD k b → Bd vD k c → Bd vD k d →
      Bd vD (4 * k + 2 + j) (O.mul (O.mul (O.mul a b) c) d) := fun ha hb hc hd =>
    (bdD_mul hO (by omega) (by omega) (bdD_mul hO (by omega) (by omega)
      (bdD_mul hO (by omega) (by omega) ha hb) hc) hd).mono (by omega)
  have m4c : ∀ {j : Nat} {x a b c d : D}, Bd vD 2 x → Bd vD k a → Bd vD k b → Bd vD k c →
      Bd vD k d → Bd vD (4 * k + 2 + j) (O.mul (O.mul (O.mul (O.mul x a) b) c) d) :=
    fun hx ha hb hc hd =>
    (bdD_mul hO (by omega) (by omega) (bdD_mul hO (by omega) (by omega)
      (bdD_mul hO (by omega) (by omega) (bdD_mul hO (by omega) (by omega) hx ha) hb) hc) hd).mono
        (by omega)
  have sa : ∀ {j : Nat} {a b : D}, j ≤ 20 → Bd vD (4 * k + 2 + j) a → Bd vD (4 * k + 2 + j) b →
      Bd vD (4 * k + 2 + (j + 1 : Nat)) (O.add a b) := fun hj ha hb =>
    (bdD_add hO (by omega) (by omega) ha hb).mono (by push_cast; omega)
  have ss : ∀ {j : Nat} {a b : D}, j ≤ 20 → Bd vD (4 * k + 2 + j) a → Bd vD (4 * k + 2 + j) b →
      Bd vD (4 * k + 2 + (j + 1 : Nat)) (O.sub a b) := fun hj ha hb =>
    (bdD_sub hO (by omega) (by omega) ha hb).mono (by push_cast; omega)
  have md : ∀ {j : Nat} {a : D}, j ≤ 20 → Bd vD (4 * k + 2 + j) a →
      Bd vD (4 * k + 2 + (j + 1 + 1 : Nat)) (O.mul (O.ofInt 2) a) := fun hj ha =>
    (bdD_mul hO (by omega) (by omega) t2 ha).mono (by push_cast; omega)
  have hJ : (0 : Int) ≤ 4 * k + 2 + (20 : Nat) := by omega
  have hJ2 : 4 * k + 2 + ((20 : Nat) : Int) + 2 ≤ 1023 := by push_cast; omega
  have hJ1 : 4 * k + 2 + ((20 : Nat) : Int) + 1 ≤ 1023 := by push_cast; omega
  have hDelta : vD (keepDeltaG O.toDOps sq u0 u1 u2 u3 v0 v1 v2 v3) ≠ .nan := by
    refine cylinder_nan hO hz hJ hJ1 ?_ ?_ ?_ <;>
    repeat' first
      | assumption
      | exact hneg (by assumption)
      | refine m4 ?_ ?_ ?_ ?_ <;> first | assumption | exact hneg (by assumption)
      | refine m4c ?_ ?_ ?_ ?_ ?_ <;> assumption
      | refine sa (by norm_num) ?_ ?_
      | refine ss (by norm_num) ?_ ?_
  have hF1 : vD (keepF1G O.toDOps sq u0 u1 u2 u3 v0 v1 v2 v3) ≠ .nan := by
    refine general_nan hO hz hJ hJ1 ?_ ?_ ?_ <;>
    repeat' first
      | refine m4 ?_ ?_ ?_ ?_ <;> first | assumption | exact hneg (by assumption)
      | refine m4c ?_ ?_ ?_ ?_ ?_ <;> assumption
      | refine sa (by norm_num) ?_ ?_
      | refine ss (by norm_num) ?_ ?_
  have hF0 : vD (keepF0G O.toDOps u0 u1 u2 u3 v0 v1 v2 v3) ≠ .nan := by
    refine keepSign_nan hO hJ hJ2 ?_ ?_ ?_ <;>
    repeat' first
      | refine m4 ?_ ?_ ?_ ?_ <;> first | assumption | exact hneg (by assumption)
      | refine m4c ?_ ?_ ?_ ?_ ?_ <;> assumption
      | refine sa (by norm_num) ?_ ?_
      | refine ss (by norm_num) ?_ ?_
  have hDen : vD (keepDenG O.toDOps u0 u1 u2 u3 v0 v1 v2 v3) ≠ .nan := by
    refine keepSign_nan hO hJ hJ2 ?_ ?_ ?_ <;>
    repeat' first
      | refine m2 ?_ ?_ <;> first | assumption | exact hneg (by assumption)
      | refine sa (by norm_num) ?_ ?_
      | refine ss (by norm_num) ?_ ?_
  have hT1 : vD (keepSignG O.toDOps (O.mul (O.neg u3) v1) (O.mul u1 v3)
      (O.sub (O.add (O.add (O.mul (O.mul (O.ofInt (-2)) u1) v0) (O.mul u2 v0))
        (O.mul (O.mul (O.ofInt 2) u0) v1)) (O.mul u0 v2))) ≠ .nan := by
    refine keepSign_nan hO hJ hJ2 ?_ ?_ ?_ <;>
    repeat' first
      | refine m2 ?_ ?_ <;> first | assumption | exact hneg (by assumption)
      | refine m2c ?_ ?_ ?_ <;> assumption
      | refine sa (by norm_num) ?_ ?_
      | refine ss (by norm_num) ?_ ?_
  have hT2 : vD (keepSignG O.toDOps
      (O.sub (O.mul (O.neg u3) v1) (O.mul (O.ofInt 2) (O.add (O.mul (O.neg u3) v1) (O.mul u3 v2))))
      (O.sub (O.mul u1 v3) (O.mul (O.ofInt 2) (O.sub (O.mul u1 v3) (O.mul u2 v3))))
      (O.sub (O.sub (O.add (O.add (O.mul (O.mul (O.ofInt (-2)) u1) v0) (O.mul u2 v0))
        (O.mul (O.mul (O.ofInt 2) u0) v1)) (O.mul u0 v2))
        (O.mul (O.ofInt 2) (O.sub (O.add (O.add (O.mul (O.neg u1) v0) (O.mul u2 v0))
          (O.mul u0 v1)) (O.mul u0 v2))))) ≠ .nan := by
    refine keepSign_nan hO hJ hJ2 ?_ ?_ ?_ <;>
    repeat' first
      | refine m2 ?_ ?_ <;> first | assumption | exact hneg (by assumption)
      | refine m2c ?_ ?_ ?_ <;> assumption
      | refine md (by norm_num) ?_
      | refine sa (by norm_num) ?_ ?_
      | refine ss (by norm_num) ?_ ?_
  have mn : ∀ {a b : D}, vD a ≠ .nan → vD b ≠ .nan → vD (minfG O.toDOps a b) ≠ .nan := minf_not_nan
  unfold deriveBG
  simp only
  generalize keepDeltaG O.toDOps sq u0 u1 u2 u3 v0 v1 v2 v3 = x1 at *
  generalize keepF1G O.toDOps sq u0 u1 u2 u3 v0 v1 v2 v3 = x2 at *
  generalize keepF0G O.toDOps u0 u1 u2 u3 v0 v1 v2 v3 = x3 at *
  generalize keepDenG O.toDOps u0 u1 u2 u3 v0 v1 v2 v3 = x4 at *
  split
  · exact n0
  split
  · exact n0
  split
  · exact n0
  split
  · exact mn (mn n1 hDen) hDelta
  split
  · split
    · exact mn (mn (mn (mn n1 hF0) hF1) hDen) (maxf_nan_right hO hT2)
    · exact mn (mn (mn (mn (mn (mn n1 hDelta) hF0) hDen) hT1) hT2) hF1
  · exact mn (mn n1 hF0) hF1

end CpSZ.Ieee
