import Mathlib.Analysis.SpecialFunctions.Log.Base
/-
Arithmetic used by the compressors.

`DOps` and `Ops` are records of *uninterpreted* operations on `double` and on the element
type `T` (`float` or `double`).  A theorem quantified over all `Ops` holds for IEEE-754
arithmetic with any rounding mode, NaNs and infinities included, and for exact reals.
The only assumption is that the compressor and the decompressor evaluate the same C++
expression to the same value.
-/

namespace CpSZ

/-- Operations on `double`.  `trunc` is the conversion `(int)x`; for values out of range the
conversion is undefined in C++, here it is some integer.  (include/sz_cp_preserve_utils.hpp L14-22;
include/sz_compression_utils.hpp L49-81.) -/
structure DOps (D : Type) where
  ofInt : Int → D
  add : D → D → D
  sub : D → D → D
  mul : D → D → D
  div : D → D → D
  neg : D → D
  abs : D → D
  lt : D → D → Bool
  le : D → D → Bool
  trunc : D → Int
  log2 : D → D
  /-- `pow(int, int)` -/
  pow : Int → Int → D

/-- Operations on the element type `T` together with those on `double`.
(src/sz_compress_cp_preserve_2d.cpp L629-680.) -/
structure Ops (T D : Type) extends DOps D where
  zeroT : T
  addT : T → T → T
  subT : T → T → T
  /-- promotion `T → double` -/
  toD : T → D
  /-- conversion `double → T` on assignment -/
  ofD : D → T

/-- `(int)x` for a real number: truncation towards zero. -/
noncomputable def truncR (x : ℝ) : ℤ := if 0 ≤ x then ⌊x⌋ else ⌈x⌉

/-- Exact arithmetic. -/
noncomputable def realD : DOps ℝ where
  ofInt n := n
  add := (· + ·)
  sub := (· - ·)
  mul := (· * ·)
  div := (· / ·)
  neg := fun x => -x
  abs := fun x => |x|
  lt a b := decide (a < b)
  le a b := decide (a ≤ b)
  trunc := truncR
  log2 := Real.logb 2
  pow b n := (b : ℝ) ^ n

/-- Exact arithmetic at both types. -/
noncomputable def realOps : Ops ℝ ℝ where
  toDOps := realD
  zeroT := 0
  addT := (· + ·)
  subT := (· - ·)
  toD := id
  ofD := id

/-- Arithmetic on reals in which each result is rounded by `rT` (element type) or `rD`
(`double`); models IEEE-754 in the absence of overflow and NaN.  The library function
`log2` is an arbitrary function `lg`. -/
noncomputable def roundedOps (rT rD lg : ℝ → ℝ) : Ops ℝ ℝ where
  ofInt n := rD n
  add a b := rD (a + b)
  sub a b := rD (a - b)
  mul a b := rD (a * b)
  div a b := rD (a / b)
  neg := fun x => -x
  abs := fun x => |x|
  lt a b := decide (a < b)
  le a b := decide (a ≤ b)
  trunc := truncR
  log2 := lg
  pow b n := rD ((b : ℝ) ^ n)
  zeroT := 0
  addT a b := rT (a + b)
  subT a b := rT (a - b)
  toD := id
  ofD := rT

theorem roundedOps_id : roundedOps id id (Real.logb 2) = realOps := rfl

/-- What is assumed of a rounding function: monotone, odd, exact on the integers of
magnitude at most `2^24` and on the powers of two `2^k`, `-126 ≤ k ≤ 127`, and halving a
rounded value of magnitude at least one is exact (true of binary32 and binary64 with round to
nearest or round towards zero). -/
structure IsRounding (r : ℝ → ℝ) : Prop where
  mono : Monotone r
  odd : ∀ x, r (-x) = - r x
  int : ∀ n : ℤ, |n| ≤ 2 ^ 24 → r n = n
  pow2 : ∀ k : ℤ, -126 ≤ k → k ≤ 127 → r ((2 : ℝ) ^ k) = (2 : ℝ) ^ k
  half : ∀ x, 1 ≤ |r x| → r (r x / 2) = r x / 2

theorem IsRounding.id : IsRounding id :=
  ⟨monotone_id, fun _ => rfl, fun _ _ => rfl, fun _ _ _ => rfl, fun _ _ => rfl⟩

end CpSZ
