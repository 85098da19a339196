import Verif.Online2D.Real
import Verif.RoundedRun
/-
The error bound formulas of the 2D online relative mode in rounded arithmetic
(src/sz_compress_cp_preserve_2d.cpp L390-537): `rT` rounds to the element type, `rD` to `double`.
`fabs` of an element is an element or a `double`, depending on which overload the compiler selects,
so the sum of two such values is rounded by a third function `rF`.

Products and sums are rounded one by one (no fused operations) and do not overflow.
-/

namespace CpSZ
open CpSZ.Mesh2D

/-- `max_eb_to_keep_sign_2d_online` (src/sz_compress_cp_preserve_2d.cpp L390-396). -/
noncomputable def keepSignR (rT rF rD : ℝ → ℝ) (A B C : ℝ) : ℝ :=
  let s := rF (|A| + |B|)
  if s = 0 then 0 else rD (|rT (rT (A + B) + C)| / s)

/-- `max_eb_to_keep_position_online` (src/sz_compress_cp_preserve_2d.cpp L402-408). -/
noncomputable def keepPositionR (rT rF rD : ℝ → ℝ) (u1v2 u2v1 u2v0 u0v2 : ℝ) : ℝ :=
  minf (keepSignR rT rF rD (-u2v1) u1v2 0) (keepSignR rT rF rD u2v0 (-u0v2) 0)

/-- `max_eb_to_keep_type_online` (src/sz_compress_cp_preserve_2d.cpp L414-477).  `A`-`F` are
computed in the element type and then converted to `double`.  Division by `2*a = 0`: NaN if the
numerator is zero, `+∞` (then `MINF` selects the other operand) if it is positive, `-∞`
(represented by -1, smaller than all other bounds) if it is negative. -/
noncomputable def keepTypeR (rT rF rD : ℝ → ℝ) (u0 u1 u2 v0 v1 v2 c0 c1 c2 c3 : ℝ) : Option ℝ :=
  let eb1 := minf 1 (keepSignR rT rF rD (rT (rT (u2 * v0) - rT (u2 * v1)))
    (rT (rT (u1 * v2) - rT (u0 * v2))) (rT (rT (u0 * v1) - rT (u1 * v0))))
  let m := rT (rT (c1 * c2) - rT (c0 * c3))
  let C := rT ((-m) * rT (rT (rT (rT (rT (rT (u0 * v1) - rT (u0 * v2)) + rT (u1 * v2)) -
    rT (u1 * v0)) + rT (u2 * v0)) - rT (u2 * v1)))
  if C ≤ 0 then some eb1
  else
    let A := rT (rT (-c0 * u2) - rT (c1 * u2))
    let B := rT (rT (-c2 * v2) - rT (c3 * v2))
    let C := rT (rT (rT (rT (c0 * u0) + rT (c1 * u1)) + rT (c2 * v0)) + rT (c3 * v1))
    let eb2 := keepSignR rT rF rD A B C
    let D := rT ((-m) * rT (rT (u2 * v0) - rT (u2 * v1)))
    let E := rT ((-m) * rT (rT (u1 * v2) - rT (u0 * v2)))
    let F := rT ((-m) * rT (rT (u0 * v1) - rT (u1 * v0)))
    let C := rD (C + rD (A + B))
    let F := rD (F + rD (D + E))
    let delta := rD (rD (C * C) - rD (4 * F))
    let L := rD (|rD (rD (rD (2 * A) * C) - rD (4 * D))| + |rD (rD (rD (2 * B) * C) - rD (4 * E))|)
    if delta = 0 then some 0
    else if 0 < delta then
      if L = 0 then some 1 else some (minf eb2 (rD (delta / L)))
    else
      let a := rD (rD (|A| + |B|) * rD (|A| + |B|))
      let n := rD (-L + rD (√(rD (rD (L * L) - rD (rD (4 * a) * delta)))))
      if rD (2 * a) = 0 then
        if n = 0 then none else if 0 < n then some eb2 else some (-1)
      else some (minf eb2 (rD (n / rD (2 * a))))

open Classical in
/-- `derive_cp_eb_for_positions_online` (src/sz_compress_cp_preserve_2d.cpp L484-537). -/
noncomputable def deriveOnlineR (rT rF rD : ℝ → ℝ) (u0 u1 u2 v0 v1 v2 c0 c1 c2 c3 : ℝ) :
    Option ℝ :=
  let M0 := rT (rT (u2 * v0) - rT (u0 * v2))
  let M1 := rT (rT (u1 * v2) - rT (u2 * v1))
  let M2 := rT (rT (u0 * v1) - rT (u1 * v0))
  let M := rD (rD (M0 + M1) + M2)
  if M = 0 then some 0
  else
    let f1 := M0 = 0 ∨ 1 ≤ rD (M / M0)
    let f2 := M1 = 0 ∨ 1 ≤ rD (M / M1)
    let f3 := M2 = 0 ∨ 1 ≤ rD (M / M2)
    if f1 ∧ f2 ∧ f3 then
      minfX (some (keepPositionR rT rF rD (rT (u1 * v2)) (rT (u2 * v1)) (rT (u2 * v0))
          (rT (u0 * v2))))
        (keepTypeR rT rF rD u0 u1 u2 v0 v1 v2 c0 c1 c2 c3)
    else
      let eb := 0
      let eb := if ¬ f1 then maxf eb (minf (keepSignR rT rF rD (rT (u2 * v0)) (rT (-u0 * v2)) 0)
        (keepSignR rT rF rD (rT (-u2 * v1)) (rT (u1 * v2)) (rT (rT (u0 * v1) - rT (u1 * v0)))))
        else eb
      let eb := if ¬ f2 then maxf eb (minf (keepSignR rT rF rD (rT (-u2 * v1)) (rT (u1 * v2)) 0)
        (keepSignR rT rF rD (rT (u2 * v0)) (rT (-u0 * v2)) (rT (rT (u0 * v1) - rT (u1 * v0)))))
        else eb
      let eb := if ¬ f3 then maxf eb (keepSignR rT rF rD (rT (rT (u2 * v0) - rT (u2 * v1)))
        (rT (rT (u1 * v2) - rT (u0 * v2))) 0) else eb
      some eb

/-- Without rounding this is the formula of `Verif/Bound2D.lean`. -/
theorem keepSignR_id (A B C : ℝ) : keepSignR id id id A B C = keepSign A B C := rfl

theorem keepTypeR_id (u0 u1 u2 v0 v1 v2 c0 c1 c2 c3 : ℝ) :
    keepTypeR id id id u0 u1 u2 v0 v1 v2 c0 c1 c2 c3 =
      keepType u0 u1 u2 v0 v1 v2 c0 c1 c2 c3 := by
  unfold keepTypeR keepType
  simp only [id, keepSignR_id]
  split
  · rfl
  split
  · rfl
  split
  · rfl
  split
  · rename_i h
    have ha : (|-c0 * u2 - c1 * u2| + |-c2 * v2 - c3 * v2|) *
        (|-c0 * u2 - c1 * u2| + |-c2 * v2 - c3 * v2|) = 0 := by linarith
    rw [if_pos]
    rw [ha]
    simp only [mul_zero, zero_mul, sub_zero]
    rw [Real.sqrt_mul_self (by positivity)]
    ring
  · rfl

theorem deriveOnlineR_id (u0 u1 u2 v0 v1 v2 c0 c1 c2 c3 : ℝ) :
    deriveOnlineR id id id u0 u1 u2 v0 v1 v2 c0 c1 c2 c3 =
      deriveOnline u0 u1 u2 v0 v1 v2 c0 c1 c2 c3 := by
  unfold deriveOnlineR deriveOnline keepPositionR keepPosition
  simp only [id, keepTypeR_id, keepSignR_id]

namespace Online2D

/-- The per-triangle bound with the constants `inv_C[k]`
(src/sz_compress_cp_preserve_2d.cpp L620-623), which are 0, 1 or -1. -/
noncomputable def deriveKR (rT rF rD : ℝ → ℝ) (k : Nat) (u0 u1 u2 v0 v1 v2 : ℝ) : Option ℝ :=
  deriveOnlineR rT rF rD u0 u1 u2 v0 v1 v2 (invC k 0) (invC k 1) (invC k 2) (invC k 3)

/-- `required_eb` of a vertex (src/sz_compress_cp_preserve_2d.cpp L609-624); NaN is represented by
`0`, as in `boundOnline`. -/
noncomputable def boundOnlineR (rT rF rD : ℝ → ℝ) (r1 r2 : Nat) (maxEb : ℝ) (m : Field ℝ)
    (p : Nat) : Option ℝ :=
  (requiredEb r1 r2 (some maxEb) minfX (deriveKR rT rF rD) m p).map (·.getD 0)

theorem boundOnlineR_id (r1 r2 : Nat) (maxEb : ℝ) :
    boundOnlineR id id id r1 r2 maxEb = boundOnline r1 r2 maxEb := by
  funext m p
  unfold boundOnlineR boundOnline
  congr 2
  funext k u0 u1 u2 v0 v1 v2
  exact deriveOnlineR_id ..

/-- A triangle two of whose vertices carry the same vector gets the bound zero: first and third
vertex. -/
theorem deriveOnlineR_eq02 {rT rF rD : ℝ → ℝ} (hT : ∀ x, rT (-x) = -rT x) (h0 : rD 0 = 0)
    (hTD : ∀ x, rD (rT x) = rT x) (u0 u1 v0 v1 c0 c1 c2 c3 : ℝ) :
    deriveOnlineR rT rF rD u0 u1 u0 v0 v1 v0 c0 c1 c2 c3 = some 0 := by
  have e : rT (rT (u0 * v1) - rT (u1 * v0)) = -rT (rT (u1 * v0) - rT (u0 * v1)) := by
    rw [← hT]; congr 1; ring
  have z : rT 0 = 0 := by have := hT 0; simp at this; linarith
  unfold deriveOnlineR
  rw [if_pos]
  rw [sub_self, z, zero_add, e, hTD, add_neg_cancel, h0]

/-- Second and third vertex. -/
theorem deriveOnlineR_eq12 {rT rF rD : ℝ → ℝ} (hT : ∀ x, rT (-x) = -rT x) (h0 : rD 0 = 0)
    (hTD : ∀ x, rD (rT x) = rT x) (u0 u1 v0 v1 c0 c1 c2 c3 : ℝ) :
    deriveOnlineR rT rF rD u0 u1 u1 v0 v1 v1 c0 c1 c2 c3 = some 0 := by
  have e : rT (rT (u0 * v1) - rT (u1 * v0)) = -rT (rT (u1 * v0) - rT (u0 * v1)) := by
    rw [← hT]; congr 1; ring
  have z : rT 0 = 0 := by have := hT 0; simp at this; linarith
  unfold deriveOnlineR
  rw [if_pos]
  rw [sub_self, z, add_zero, e, hTD, add_neg_cancel, h0]

/-- First and second vertex. -/
theorem deriveOnlineR_eq01 {rT rF rD : ℝ → ℝ} (hT : ∀ x, rT (-x) = -rT x) (h0 : rD 0 = 0)
    (u0 u2 v0 v2 c0 c1 c2 c3 : ℝ) :
    deriveOnlineR rT rF rD u0 u0 u2 v0 v0 v2 c0 c1 c2 c3 = some 0 := by
  have e : rT (rT (u2 * v0) - rT (u0 * v2)) = -rT (rT (u0 * v2) - rT (u2 * v0)) := by
    rw [← hT]; congr 1; ring
  have z : rT 0 = 0 := by have := hT 0; simp at this; linarith
  unfold deriveOnlineR
  rw [if_pos]
  rw [e, neg_add_cancel, h0, sub_self, z, add_zero, h0]

end Online2D
end CpSZ
