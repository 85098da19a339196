import Mathlib.Analysis.SpecialFunctions.Log.Base
import Mathlib.Analysis.Real.Sqrt
import Mathlib.Algebra.Order.BigOperators.Ring.Finset

/-!
# `verify`: the quality report of the drivers

Model of `verify` (include/utils.hpp L51-106), which every test driver calls on the original and the
decompressed array.  Printing is replaced by a record of the printed numbers.
-/

namespace CpSZ.Verify

/-- Operations used by `verify` at the element type `T` and at `double` `D`.  `dist` is
`(Type) fabs(data[i] - ori_data[i])`, `big` the test `ori_data[i] != 0 && fabs(ori_data[i]) > 1`, `rel` the
quotient `err/fabs(ori_data[i])`, `sq` is `err*err` before it is added to a `double`, `range` is
`Max - Min`, `relMax` the printed `diffMax/(Max-Min)`.  (include/utils.hpp L51-106.) -/
structure VOps (T D : Type) where
  dist : T → T → T
  ltT : T → T → Bool
  big : T → Bool
  rel : T → T → D
  sq : T → D
  toD : T → D
  range : T → T → D
  relMax : T → T → T → D
  ofNat : Nat → D
  add : D → D → D
  sub : D → D → D
  mul : D → D → D
  div : D → D → D
  sqrt : D → D
  log10 : D → D
  ltD : D → D → Bool

/-- The numbers `verify` prints (include/utils.hpp L100-106), and the mean squared error. -/
structure Report (T D : Type) where
  min : T
  max : T
  range : D
  maxAbs : T
  maxRel : D
  maxPw : D
  psnr : D
  nrmse : D
  acEff : D
  mse : D

/-- Local variables of the second loop.  (include/utils.hpp L51-106.) -/
structure Acc (T D : Type) where
  max : T
  min : T
  diffMax : T
  maxPw : D
  prodSum : D
  sum3 : D
  sum4 : D
  sum : D

variable {T D : Type}

/-- Body of the second loop (include/utils.hpp L72-88). -/
def step (O : VOps T D) (o d : Nat → T) (mean1 mean2 : D) (a : Acc T D) (i : Nat) : Acc T D :=
  let err := O.dist (d i) (o i)
  { max := if O.ltT a.max (o i) then o i else a.max
    min := if O.ltT (o i) a.min then o i else a.min
    diffMax := if O.ltT a.diffMax err then err else a.diffMax
    maxPw := if O.big (o i) then
        (if O.ltD a.maxPw (O.rel err (o i)) then O.rel err (o i) else a.maxPw)
      else a.maxPw
    prodSum := O.add a.prodSum
      (O.mul (O.sub (O.toD (o i)) mean1) (O.sub (O.toD (d i)) mean2))
    sum3 := O.add a.sum3 (O.mul (O.sub (O.toD (o i)) mean1) (O.sub (O.toD (o i)) mean1))
    sum4 := O.add a.sum4 (O.mul (O.sub (O.toD (d i)) mean2) (O.sub (O.toD (d i)) mean2))
    sum := O.add a.sum (O.sq err) }

/-- First loop: sum of an array (include/utils.hpp L61-64). -/
def total (O : VOps T D) (x : Nat → T) (n : Nat) : D :=
  (List.range n).foldl (fun s i => O.add s (O.toD (x i))) (O.ofNat 0)

/-- Both loops.  (include/utils.hpp L51-106.) -/
def loops (O : VOps T D) (o d : Nat → T) (n : Nat) : Acc T D :=
  (List.range n).foldl
    (step O o d (O.div (total O o n) (O.ofNat n)) (O.div (total O d n) (O.ofNat n)))
    ⟨o 0, o 0, O.dist (d 0) (o 0), O.ofNat 0, O.ofNat 0, O.ofNat 0, O.ofNat 0, O.ofNat 0⟩

/-- `verify` (include/utils.hpp L51-106).  The array must not be empty: the code reads element 0. -/
def verify (O : VOps T D) (o d : Nat → T) (n : Nat) : Report T D :=
  let a := loops O o d n
  let mse := O.div a.sum (O.ofNat n)
  let range := O.range a.max a.min
  { min := a.min
    max := a.max
    range := range
    maxAbs := a.diffMax
    maxRel := O.relMax a.diffMax a.max a.min
    maxPw := a.maxPw
    psnr := O.sub (O.mul (O.ofNat 20) (O.log10 range)) (O.mul (O.ofNat 10) (O.log10 mse))
    nrmse := O.div (O.sqrt mse) range
    acEff := O.div (O.div (O.div a.prodSum (O.ofNat n)) (O.sqrt (O.div a.sum3 (O.ofNat n))))
      (O.sqrt (O.div a.sum4 (O.ofNat n)))
    mse := mse }

open Classical in
/-- Exact arithmetic. -/
noncomputable def realV : VOps ℝ ℝ where
  dist x y := |x - y|
  ltT x y := decide (x < y)
  big x := decide (x ≠ 0) && decide (1 < |x|)
  rel e x := e / |x|
  sq e := e * e
  toD x := x
  range x y := x - y
  relMax e x y := e / (x - y)
  ofNat n := n
  add x y := x + y
  sub x y := x - y
  mul x y := x * y
  div x y := x / y
  sqrt := Real.sqrt
  log10 := Real.logb 10
  ltD x y := decide (x < y)

end CpSZ.Verify
