import Verif.Special
/-
`derive_cp_eb_bilinear_online` (src/sz_compress_cp_preserve_2d_bilinear.cpp L9-595) for any
operations on `double`: comparisons, `MINF`, `MAX` and `MIN` are those of the code, so that NaN and
infinite intermediate values take the branches they take in the code.
-/

namespace CpSZ.VMode.Bilinear
open CpSZ

section
variable {D : Type} (N : DOps D) (sq : D → D)

set_option hygiene false
local infixl:65 " +ᵈ " => DOps.add N
local infixl:65 " -ᵈ " => DOps.sub N
local infixl:70 " *ᵈ " => DOps.mul N
local infixl:70 " /ᵈ " => DOps.div N
local notation "K(" n ")" => DOps.ofInt N n

/-- `max_eb_to_keep_sign_2d_online` (src/sz_compress_cp_preserve_2d_bilinear.cpp L10-15). -/
def keepSignG (A B C : D) : D :=
  if eq0G N (N.abs A +ᵈ N.abs B) then K(0) else N.abs (A +ᵈ B +ᵈ C) /ᵈ (N.abs A +ᵈ N.abs B)

/-- `x = (-b ± sqrt(b*b - 4*a*c))/(2*a); if(x > 0) eb = MINF(eb, x);`, with `+` if `plus`.
(src/sz_compress_cp_preserve_2d_bilinear.cpp L107-119 and its copies in L62-101.) -/
def rootMinG (plus : Bool) (a b c eb : D) : D :=
  let s := sq (b *ᵈ b -ᵈ K(4) *ᵈ a *ᵈ c)
  let x := (if plus then N.neg b +ᵈ s else N.neg b -ᵈ s) /ᵈ (K(2) *ᵈ a)
  if N.lt K(0) x then minfG N eb x else eb

/-- `max_eb_to_keep_sign_2d_online_corners_lt0`
(src/sz_compress_cp_preserve_2d_bilinear.cpp L61-104). -/
def cornersLt0G (a b c d e f : D) : D :=
  rootMinG N sq true (a +ᵈ b +ᵈ c) (d +ᵈ e) f (rootMinG N sq true (a +ᵈ b -ᵈ c) (d -ᵈ e) f
    (rootMinG N sq true (a +ᵈ b -ᵈ c) (N.neg d +ᵈ e) f
      (rootMinG N sq true (a +ᵈ b +ᵈ c) (N.neg d -ᵈ e) f K(1))))

/-- `max_eb_to_keep_sign_quadratic` (src/sz_compress_cp_preserve_2d_bilinear.cpp L107-119). -/
def keepQuadraticG (a b c : D) : D :=
  if N.lt K(0) c then rootMinG N sq false a b c K(1) else rootMinG N sq true a b c K(1)

/-- `max_eb_to_keep_sign_2d_online_quadratic_cylinder`
(src/sz_compress_cp_preserve_2d_bilinear.cpp L124-142). -/
def cylinderG (a b c d e f : D) : D :=
  if N.lt K(0) f then minfG N K(1) (f /ᵈ (N.abs d +ᵈ N.abs e))
  else minfG N K(1) (cornersLt0G N sq a b c d e f)

/-- The two tests on the position of the vertex of the parabola along an edge:
`if(p > 0) eb1 = MAX(0, e/p); else{ if(e > 0) eb1 = 1; }` followed by
`if(q > 0) eb1 = MAX(eb1, -e/q'); else{ if(e < 0) eb1 = 1; }`, where `q' = q` except for the two
places in which the code divides by a different expression than it tested.
(src/sz_compress_cp_preserve_2d_bilinear.cpp L146-346.) -/
def edgeEb1G (e p q q' eb1 : D) : D :=
  let eb1 := if N.lt K(0) p then maxfG N K(0) (e /ᵈ p) else if N.lt K(0) e then K(1) else eb1
  if N.lt K(0) q then maxfG N eb1 (N.neg e /ᵈ q') else if N.lt e K(0) then K(1) else eb1

/-- `max_eb_to_keep_sign_2d_online_general` (src/sz_compress_cp_preserve_2d_bilinear.cpp L146-346).
In the branch `f > 0`, `a > 0` the values computed for the edge `y = -t` are not used (the final
`eb = MIN(eb, MAX(eb1, eb2))` is missing), so they do not appear. -/
def generalG (a b c d e f : D) : D :=
  let eb := cylinderG N sq a b c d e f
  if N.le K(0) (K(4) *ᵈ a *ᵈ b -ᵈ c *ᵈ c) then eb
  else if N.lt K(0) f then
    let eb :=
      if N.lt K(0) b then
        let g := f -ᵈ (e *ᵈ e) /ᵈ (K(4) *ᵈ b)
        let eb1 := edgeEb1G N e (K(2) *ᵈ b -ᵈ c) (K(2) *ᵈ b +ᵈ c) (K(2) *ᵈ b +ᵈ c) K(0)
        let eb2 := if N.lt K(0) g then
          keepQuadraticG N sq (a -ᵈ (c *ᵈ c) /ᵈ (K(4) *ᵈ b)) (d -ᵈ (c *ᵈ e) /ᵈ (K(2) *ᵈ b)) g else K(0)
        let eb := minfG N eb (maxfG N eb1 eb2)
        let eb1 := edgeEb1G N e (K(2) *ᵈ b +ᵈ c) (K(2) *ᵈ b -ᵈ c) (K(2) *ᵈ b -ᵈ c) eb1
        let eb2 := if N.lt K(0) g then
          keepQuadraticG N sq (a -ᵈ (c *ᵈ c) /ᵈ (K(4) *ᵈ b)) (N.neg d +ᵈ (c *ᵈ e) /ᵈ (K(2) *ᵈ b)) g else eb2
        minfG N eb (maxfG N eb1 eb2)
      else eb
    if N.lt K(0) a then
      let g := f -ᵈ (d *ᵈ d) /ᵈ (K(4) *ᵈ a)
      let eb1 := edgeEb1G N d (K(2) *ᵈ a -ᵈ c) (K(2) *ᵈ a +ᵈ c) (K(2) *ᵈ a +ᵈ c) K(0)
      let eb2 := if N.lt K(0) g then
        keepQuadraticG N sq (b -ᵈ (c *ᵈ c) /ᵈ (K(4) *ᵈ a)) (e -ᵈ (c *ᵈ d) /ᵈ (K(2) *ᵈ a)) g else K(0)
      minfG N eb (maxfG N eb1 eb2)
    else eb
  else
    let eb :=
      if N.lt b K(0) then
        let g := f +ᵈ (e *ᵈ e) /ᵈ (K(-4) *ᵈ b)
        let eb1 := edgeEb1G N e (K(-2) *ᵈ b -ᵈ c) (K(-2) *ᵈ b +ᵈ c) (K(-2) *ᵈ b +ᵈ c) K(0)
        let eb2 := if N.lt g K(0) then
          keepQuadraticG N sq (a +ᵈ (c *ᵈ c) /ᵈ (K(-4) *ᵈ b)) (d +ᵈ (c *ᵈ e) /ᵈ (K(-2) *ᵈ b)) g else K(0)
        let eb := minfG N eb (maxfG N eb1 eb2)
        let eb1 := edgeEb1G N e (K(-2) *ᵈ b +ᵈ c) (K(-2) *ᵈ b -ᵈ c) (K(-2) *ᵈ b -ᵈ c) eb1
        let eb2 := if N.lt g K(0) then
          keepQuadraticG N sq (a +ᵈ (c *ᵈ c) /ᵈ (K(-4) *ᵈ b)) (N.neg d -ᵈ (c *ᵈ e) /ᵈ (K(-2) *ᵈ b)) g
          else eb2
        minfG N eb (maxfG N eb1 eb2)
      else eb
    if N.lt a K(0) then
      let g := f +ᵈ (d *ᵈ d) /ᵈ (K(-4) *ᵈ a)
      let eb1 := edgeEb1G N d (K(-2) *ᵈ a -ᵈ c) (K(-2) *ᵈ a +ᵈ c) (K(-2) *ᵈ a +ᵈ c) K(0)
      let eb2 := if N.lt g K(0) then
        keepQuadraticG N sq (b +ᵈ (c *ᵈ c) /ᵈ (K(-4) *ᵈ a)) (e +ᵈ (c *ᵈ d) /ᵈ (K(-2) *ᵈ a)) g else K(0)
      let eb := minfG N eb (maxfG N eb1 eb2)
      let eb1 := edgeEb1G N d (K(-2) *ᵈ a +ᵈ c) (K(-2) *ᵈ a -ᵈ c) (K(-2) *ᵈ a +ᵈ c) eb1
      let eb2 := if N.lt g K(0) then
        keepQuadraticG N sq (b +ᵈ (c *ᵈ c) /ᵈ (K(-4) *ᵈ a)) (N.neg e -ᵈ (c *ᵈ d) /ᵈ (K(-2) *ᵈ a)) g
        else eb2
      minfG N eb (maxfG N eb1 eb2)
    else eb

/-- Bound that keeps the sign of the discriminant
(src/sz_compress_cp_preserve_2d_bilinear.cpp L417-423 and L489-498). -/
def keepDeltaG (u0 u1 u2 u3 v0 v1 v2 v3 : D) : D :=
  cylinderG N sq (u3 *ᵈ u3 *ᵈ v1 *ᵈ v1) (u1 *ᵈ u1 *ᵈ v3 *ᵈ v3) (K(-2) *ᵈ u1 *ᵈ u3 *ᵈ v1 *ᵈ v3)
    (K(-2) *ᵈ u2 *ᵈ u3 *ᵈ v0 *ᵈ v1 +ᵈ K(2) *ᵈ u3 *ᵈ u3 *ᵈ v1 *ᵈ v1 +ᵈ K(4) *ᵈ u1 *ᵈ u3 *ᵈ v0 *ᵈ v2
      -ᵈ K(2) *ᵈ u0 *ᵈ u3 *ᵈ v1 *ᵈ v2 -ᵈ K(2) *ᵈ u1 *ᵈ u3 *ᵈ v1 *ᵈ v3)
    (K(-2) *ᵈ u1 *ᵈ u2 *ᵈ v0 *ᵈ v3 +ᵈ K(4) *ᵈ u0 *ᵈ u2 *ᵈ v1 *ᵈ v3 -ᵈ K(2) *ᵈ u1 *ᵈ u3 *ᵈ v1 *ᵈ v3
      -ᵈ K(2) *ᵈ u0 *ᵈ u1 *ᵈ v2 *ᵈ v3 +ᵈ K(2) *ᵈ u1 *ᵈ u1 *ᵈ v3 *ᵈ v3)
    (u2 *ᵈ u2 *ᵈ v0 *ᵈ v0 -ᵈ K(2) *ᵈ u2 *ᵈ u3 *ᵈ v0 *ᵈ v1 +ᵈ u3 *ᵈ u3 *ᵈ v1 *ᵈ v1 -ᵈ K(2) *ᵈ u0 *ᵈ u2 *ᵈ v0 *ᵈ v2
      +ᵈ K(4) *ᵈ u1 *ᵈ u3 *ᵈ v0 *ᵈ v2 -ᵈ K(2) *ᵈ u0 *ᵈ u3 *ᵈ v1 *ᵈ v2 +ᵈ u0 *ᵈ u0 *ᵈ v2 *ᵈ v2
      -ᵈ K(2) *ᵈ u1 *ᵈ u2 *ᵈ v0 *ᵈ v3 +ᵈ K(4) *ᵈ u0 *ᵈ u2 *ᵈ v1 *ᵈ v3 -ᵈ K(2) *ᵈ u1 *ᵈ u3 *ᵈ v1 *ᵈ v3
      -ᵈ K(2) *ᵈ u0 *ᵈ u1 *ᵈ v2 *ᵈ v3 +ᵈ u1 *ᵈ u1 *ᵈ v3 *ᵈ v3)

/-- Bound that keeps the sign of `A0*C1 - A1*C0`.
(src/sz_compress_cp_preserve_2d_bilinear.cpp L355-595.) -/
def keepDenG (u0 u1 u2 u3 v0 v1 v2 v3 : D) : D :=
  keepSignG N (N.neg u3 *ᵈ v1 +ᵈ u3 *ᵈ v2) (u1 *ᵈ v3 -ᵈ u2 *ᵈ v3)
    (N.neg u1 *ᵈ v0 +ᵈ u2 *ᵈ v0 +ᵈ u0 *ᵈ v1 -ᵈ u0 *ᵈ v2)

/-- Bound that keeps the sign of `f(0) = dM` (four copies).
(src/sz_compress_cp_preserve_2d_bilinear.cpp L355-595.) -/
def keepF0G (u0 u1 u2 u3 v0 v1 v2 v3 : D) : D :=
  keepSignG N (u1 *ᵈ u3 *ᵈ v0 *ᵈ v1 -ᵈ u0 *ᵈ u3 *ᵈ v1 *ᵈ v1 -ᵈ u1 *ᵈ u3 *ᵈ v0 *ᵈ v2 +ᵈ u0 *ᵈ u3 *ᵈ v1 *ᵈ v2)
    (N.neg u1 *ᵈ u1 *ᵈ v0 *ᵈ v3 +ᵈ u1 *ᵈ u2 *ᵈ v0 *ᵈ v3 +ᵈ u0 *ᵈ u1 *ᵈ v1 *ᵈ v3 -ᵈ u0 *ᵈ u2 *ᵈ v1 *ᵈ v3)
    (u1 *ᵈ u1 *ᵈ v0 *ᵈ v0 -ᵈ u1 *ᵈ u2 *ᵈ v0 *ᵈ v0 -ᵈ K(2) *ᵈ u0 *ᵈ u1 *ᵈ v0 *ᵈ v1 +ᵈ u0 *ᵈ u2 *ᵈ v0 *ᵈ v1
      +ᵈ u0 *ᵈ u0 *ᵈ v1 *ᵈ v1 +ᵈ u0 *ᵈ u1 *ᵈ v0 *ᵈ v2 -ᵈ u0 *ᵈ u0 *ᵈ v1 *ᵈ v2)

/-- Bound that keeps the sign of `f(1) = 1 - tM + dM` (four copies).
(src/sz_compress_cp_preserve_2d_bilinear.cpp L355-595.) -/
def keepF1G (u0 u1 u2 u3 v0 v1 v2 v3 : D) : D :=
  generalG N sq (u3 *ᵈ u3 *ᵈ v2 *ᵈ v2 -ᵈ u3 *ᵈ u3 *ᵈ v1 *ᵈ v2)
    (N.neg u1 *ᵈ u2 *ᵈ v3 *ᵈ v3 +ᵈ u2 *ᵈ u2 *ᵈ v3 *ᵈ v3)
    (u2 *ᵈ u3 *ᵈ v1 *ᵈ v3 +ᵈ u1 *ᵈ u3 *ᵈ v2 *ᵈ v3 -ᵈ K(2) *ᵈ u2 *ᵈ u3 *ᵈ v2 *ᵈ v3)
    (N.neg u1 *ᵈ u3 *ᵈ v0 *ᵈ v2 +ᵈ u2 *ᵈ u3 *ᵈ v0 *ᵈ v2 +ᵈ u0 *ᵈ u3 *ᵈ v1 *ᵈ v2 -ᵈ K(2) *ᵈ u3 *ᵈ u3 *ᵈ v1 *ᵈ v2
      -ᵈ u0 *ᵈ u3 *ᵈ v2 *ᵈ v2 +ᵈ K(2) *ᵈ u3 *ᵈ u3 *ᵈ v2 *ᵈ v2 +ᵈ u2 *ᵈ u3 *ᵈ v1 *ᵈ v3 +ᵈ u1 *ᵈ u3 *ᵈ v2 *ᵈ v3
      -ᵈ K(2) *ᵈ u2 *ᵈ u3 *ᵈ v2 *ᵈ v3)
    (u1 *ᵈ u2 *ᵈ v0 *ᵈ v3 -ᵈ u2 *ᵈ u2 *ᵈ v0 *ᵈ v3 -ᵈ u0 *ᵈ u2 *ᵈ v1 *ᵈ v3 +ᵈ u2 *ᵈ u3 *ᵈ v1 *ᵈ v3
      +ᵈ u0 *ᵈ u2 *ᵈ v2 *ᵈ v3 +ᵈ u1 *ᵈ u3 *ᵈ v2 *ᵈ v3 -ᵈ K(2) *ᵈ u2 *ᵈ u3 *ᵈ v2 *ᵈ v3
      -ᵈ K(2) *ᵈ u1 *ᵈ u2 *ᵈ v3 *ᵈ v3 +ᵈ K(2) *ᵈ u2 *ᵈ u2 *ᵈ v3 *ᵈ v3)
    (N.neg u1 *ᵈ u3 *ᵈ v0 *ᵈ v2 +ᵈ u2 *ᵈ u3 *ᵈ v0 *ᵈ v2 +ᵈ u0 *ᵈ u3 *ᵈ v1 *ᵈ v2 -ᵈ u3 *ᵈ u3 *ᵈ v1 *ᵈ v2
      -ᵈ u0 *ᵈ u3 *ᵈ v2 *ᵈ v2 +ᵈ u3 *ᵈ u3 *ᵈ v2 *ᵈ v2 +ᵈ u1 *ᵈ u2 *ᵈ v0 *ᵈ v3 -ᵈ u2 *ᵈ u2 *ᵈ v0 *ᵈ v3
      -ᵈ u0 *ᵈ u2 *ᵈ v1 *ᵈ v3 +ᵈ u2 *ᵈ u3 *ᵈ v1 *ᵈ v3 +ᵈ u0 *ᵈ u2 *ᵈ v2 *ᵈ v3 +ᵈ u1 *ᵈ u3 *ᵈ v2 *ᵈ v3
      -ᵈ K(2) *ᵈ u2 *ᵈ u3 *ᵈ v2 *ᵈ v3 -ᵈ u1 *ᵈ u2 *ᵈ v3 *ᵈ v3 +ᵈ u2 *ᵈ u2 *ᵈ v3 *ᵈ v3)

/-- `derive_cp_eb_bilinear_online` (src/sz_compress_cp_preserve_2d_bilinear.cpp L355-595). -/
def deriveBG (u0 u1 u2 u3 v0 v1 v2 v3 : D) : D :=
  let A0 := u3 -ᵈ u0 -ᵈ u2 +ᵈ u1
  let B0 := u0 -ᵈ u1
  let C0 := u2 -ᵈ u1
  let D0 := u1
  let A1 := v3 -ᵈ v0 -ᵈ v2 +ᵈ v1
  let B1 := v0 -ᵈ v1
  let C1 := v2 -ᵈ v1
  let D1 := v1
  let w := A0 *ᵈ C1 -ᵈ A1 *ᵈ C0
  if eq0G N w then K(0)
  else
    let M0 := (N.neg B0 *ᵈ C1 +ᵈ B1 *ᵈ C0) /ᵈ w
    let M1 := (N.neg C1 *ᵈ D0 +ᵈ C0 *ᵈ D1) /ᵈ w
    let M2 := (A1 *ᵈ B0 -ᵈ A0 *ᵈ B1) /ᵈ w
    let M3 := (A1 *ᵈ D0 -ᵈ A0 *ᵈ D1) /ᵈ w
    let dM := M0 *ᵈ M3 -ᵈ M1 *ᵈ M2
    let tM := M0 +ᵈ M3
    if eq0G N dM || eq0G N tM then K(0)
    else if eq0G N (tM *ᵈ tM -ᵈ K(4) *ᵈ dM) then K(0)
    else if N.lt (tM *ᵈ tM -ᵈ K(4) *ᵈ dM) K(0) then
      minfG N (minfG N K(1) (keepDenG N u0 u1 u2 u3 v0 v1 v2 v3))
        (keepDeltaG N sq u0 u1 u2 u3 v0 v1 v2 v3)
    else
      let a := N.neg u3 *ᵈ v1
      let b := u1 *ᵈ v3
      let c := K(-2) *ᵈ u1 *ᵈ v0 +ᵈ u2 *ᵈ v0 +ᵈ K(2) *ᵈ u0 *ᵈ v1 -ᵈ u0 *ᵈ v2
      let eb1 := keepSignG N a b c
      let eb2 := keepSignG N (a -ᵈ K(2) *ᵈ (N.neg u3 *ᵈ v1 +ᵈ u3 *ᵈ v2))
        (b -ᵈ K(2) *ᵈ (u1 *ᵈ v3 -ᵈ u2 *ᵈ v3))
        (c -ᵈ K(2) *ᵈ (N.neg u1 *ᵈ v0 +ᵈ u2 *ᵈ v0 +ᵈ u0 *ᵈ v1 -ᵈ u0 *ᵈ v2))
      if N.lt K(0) dM && N.lt K(0) (K(1) -ᵈ tM +ᵈ dM) then
        if N.lt tM K(0) || N.le K(2) tM then
          minfG N (minfG N (minfG N (minfG N K(1) (keepF0G N u0 u1 u2 u3 v0 v1 v2 v3))
            (keepF1G N sq u0 u1 u2 u3 v0 v1 v2 v3)) (keepDenG N u0 u1 u2 u3 v0 v1 v2 v3))
            (maxfG N eb1 eb2)
        else
          minfG N (minfG N (minfG N (minfG N (minfG N (minfG N K(1)
            (keepDeltaG N sq u0 u1 u2 u3 v0 v1 v2 v3)) (keepF0G N u0 u1 u2 u3 v0 v1 v2 v3))
            (keepDenG N u0 u1 u2 u3 v0 v1 v2 v3)) eb1) eb2) (keepF1G N sq u0 u1 u2 u3 v0 v1 v2 v3)
      else
        minfG N (minfG N K(1) (keepF0G N u0 u1 u2 u3 v0 v1 v2 v3))
          (keepF1G N sq u0 u1 u2 u3 v0 v1 v2 v3)

end

end CpSZ.VMode.Bilinear
