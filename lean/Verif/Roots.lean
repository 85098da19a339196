import Mathlib.Data.Real.Basic
import Mathlib.Tactic.NormNum
import Mathlib.Algebra.Order.Field.Power
/-
The approximate square and cube roots of the offline modes: `asqrt1` and `acbrt1`
(include/sz_cp_preserve_utils.hpp L80-120).  Both take the bit pattern of a `float` for an
integer, compute a first guess with integer operations, and do two Newton steps in `float`
arithmetic.
-/

namespace CpSZ.Roots

/-- Value of the `float` with bit pattern `ix`, sign bit clear, not infinite and not a NaN. -/
noncomputable def valF (ix : Nat) : ℝ :=
  if ix / 2 ^ 23 = 0 then (ix : ℝ) * 2 ^ (-149 : ℤ)
  else ((2 ^ 23 + ix % 2 ^ 23 : Nat) : ℝ) * 2 ^ ((ix / 2 ^ 23 : Nat) - 150 : ℤ)

/-- First guess of `asqrt1` (include/sz_cp_preserve_utils.hpp L90); `ix` is not negative, so that
`>>` is a division. -/
def sqrtGuess (ix : Nat) : Nat := 0x1fbb3f80 + ix / 2

/-- Newton step of `asqrt1` (include/sz_cp_preserve_utils.hpp L91, L92), `r` rounds to `float`. -/
noncomputable def sqrtStep (r : ℝ → ℝ) (x0 x : ℝ) : ℝ := r (0.5 * r (x + r (x0 / x)))

/-- `asqrt1` (include/sz_cp_preserve_utils.hpp L86-94) of the `float` with pattern `ix`. -/
noncomputable def asqrt1 (r : ℝ → ℝ) (ix : Nat) : ℝ :=
  sqrtStep r (valF ix) (sqrtStep r (valF ix) (valF (sqrtGuess ix)))

/-- First guess of `acbrt1` (include/sz_cp_preserve_utils.hpp L112-115). -/
def cbrtGuess (ix : Nat) : Nat :=
  let ix := ix / 4 + ix / 16
  let ix := ix + ix / 16
  let ix := ix + ix / 256
  0x2a5137a0 + ix

/-- The constant `0.33333333f`: the `float` nearest to it. 
(include/sz_cp_preserve_utils.hpp L108-119.) -/
noncomputable def third : ℝ := 11184811 / 2 ^ 25

/-- Newton step of `acbrt1` (include/sz_cp_preserve_utils.hpp L116, L117). -/
noncomputable def cbrtStep (r : ℝ → ℝ) (x0 x : ℝ) : ℝ :=
  r (third * r (r (2 * x) + r (x0 / r (x * x))))

/-- `acbrt1` (include/sz_cp_preserve_utils.hpp L108-119) of the `float` with pattern `ix`. -/
noncomputable def acbrt1 (r : ℝ → ℝ) (ix : Nat) : ℝ :=
  cbrtStep r (valF ix) (cbrtStep r (valF ix) (valF (cbrtGuess ix)))

/-- `max_eb_to_keep_sign_2d_offline` (include/sz_cp_preserve_utils.hpp L96-100) and
`max_eb_to_keep_sign_3d_offline` (L121-125) for two roots `P` and `N`. -/
noncomputable def ratio (r : ℝ → ℝ) (P N : ℝ) : ℝ := r (|r (P - N)| / r (P + N))

end CpSZ.Roots
