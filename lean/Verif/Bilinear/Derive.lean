import Verif.Bilinear.Real
/-
`derive_cp_eb_bilinear_online` (src/sz_compress_cp_preserve_2d_bilinear.cpp L9-595) in exact
arithmetic.  Divisions by zero and square roots of negative numbers give infinite or NaN values
in the code; each function says what follows from that.
-/

namespace CpSZ.VMode.Bilinear
open Classical

/-- `max_eb_to_keep_sign_2d_online` (src/sz_compress_cp_preserve_2d_bilinear.cpp L10-15). -/
noncomputable def keepSign (A B C : ℝ) : ℝ :=
  if |A| + |B| = 0 then 0 else |A + B + C| / (|A| + |B|)

/-- `x = (-b ± sqrt(b*b - 4*a*c))/(2*a); if(x > 0) eb = MINF(eb, x);`.  For `a = 0` the quotient is
infinite or NaN and for a negative discriminant it is NaN; none of these changes `eb` (an infinite
`x` is not below `eb`).  (src/sz_compress_cp_preserve_2d_bilinear.cpp L107-119 and its copies in
L146-346.) -/
noncomputable def rootMin (sgn a b c eb : ℝ) : ℝ :=
  if a = 0 ∨ b * b - 4 * a * c < 0 then eb
  else
    let x := (-b + sgn * √(b * b - 4 * a * c)) / (2 * a)
    if 0 < x then min eb x else eb

/-- `max_eb_to_keep_sign_2d_online_corners_lt0`
(src/sz_compress_cp_preserve_2d_bilinear.cpp L61-104). -/
noncomputable def cornersLt0 (a b c d e f : ℝ) : ℝ :=
  rootMin 1 (a + b + c) (d + e) f (rootMin 1 (a + b - c) (d - e) f
    (rootMin 1 (a + b - c) (-d + e) f (rootMin 1 (a + b + c) (-d - e) f 1)))

/-- `max_eb_to_keep_sign_quadratic` (src/sz_compress_cp_preserve_2d_bilinear.cpp L107-119). -/
noncomputable def keepQuadratic (a b c : ℝ) : ℝ :=
  if 0 < c then rootMin (-1) a b c 1 else rootMin 1 a b c 1

/-- `max_eb_to_keep_sign_2d_online_quadratic_cylinder`
(src/sz_compress_cp_preserve_2d_bilinear.cpp L124-142).  `f/(|d| + |e|)` is infinite if the
denominator vanishes. -/
noncomputable def cylinder (a b c d e f : ℝ) : ℝ :=
  if 0 < f then (if |d| + |e| = 0 then 1 else min 1 (f / (|d| + |e|)))
  else min 1 (cornersLt0 a b c d e f)

/-- The two tests on the position `y0` of the vertex of the parabola along an edge:
`if(p > 0) eb1 = MAX(0, e/p); else{ if(e > 0) eb1 = 1; }` followed by
`if(q > 0) eb1 = MAX(eb1, -e/q'); else{ if(e < 0) eb1 = 1; }`, where `q' = q` except for the two
places in which the code divides by a different expression than it tested.  If that divisor is
zero, the quotient is infinite or NaN: `MAX(eb1, inf)` exceeds every bound and stands here as 1, and
`MAX(MAX(eb1, NaN), eb2)` is `eb2`, for which `eb1` stands here as 0.
(src/sz_compress_cp_preserve_2d_bilinear.cpp L146-346.) -/
noncomputable def edgeEb1 (e p q q' eb1 : ℝ) : ℝ :=
  let eb1 := if 0 < p then max 0 (e / p) else if 0 < e then 1 else eb1
  if 0 < q then
    (if q' = 0 then (if e < 0 then 1 else if e = 0 then 0 else eb1) else max eb1 (-e / q'))
  else if e < 0 then 1 else eb1

/-- `max_eb_to_keep_sign_2d_online_general` (src/sz_compress_cp_preserve_2d_bilinear.cpp L146-346).
 In the branch `f > 0`, `a > 0` the values computed for the edge `y = -t` are not used (the final
`eb = MIN(eb, MAX(eb1, eb2))` is missing), so they do not appear. -/
noncomputable def general (a b c d e f : ℝ) : ℝ :=
  let eb := cylinder a b c d e f
  if 0 ≤ 4 * a * b - c * c then eb
  else if 0 < f then
    let eb :=
      if 0 < b then
        let g := f - (e * e) / (4 * b)
        let eb1 := edgeEb1 e (2 * b - c) (2 * b + c) (2 * b + c) 0
        let eb2 := if 0 < g then keepQuadratic (a - (c * c) / (4 * b)) (d - (c * e) / (2 * b)) g else 0
        let eb := min eb (max eb1 eb2)
        let eb1 := edgeEb1 e (2 * b + c) (2 * b - c) (2 * b - c) eb1
        let eb2 := if 0 < g then keepQuadratic (a - (c * c) / (4 * b)) (-d + (c * e) / (2 * b)) g
          else eb2
        min eb (max eb1 eb2)
      else eb
    if 0 < a then
      let g := f - (d * d) / (4 * a)
      let eb1 := edgeEb1 d (2 * a - c) (2 * a + c) (2 * a + c) 0
      let eb2 := if 0 < g then keepQuadratic (b - (c * c) / (4 * a)) (e - (c * d) / (2 * a)) g else 0
      min eb (max eb1 eb2)
    else eb
  else
    let eb :=
      if b < 0 then
        let g := f + (e * e) / (-4 * b)
        let eb1 := edgeEb1 e (-2 * b - c) (-2 * b + c) (-2 * b + c) 0
        let eb2 := if g < 0 then keepQuadratic (a + (c * c) / (-4 * b)) (d + (c * e) / (-2 * b)) g else 0
        let eb := min eb (max eb1 eb2)
        let eb1 := edgeEb1 e (-2 * b + c) (-2 * b - c) (-2 * b - c) eb1
        let eb2 := if g < 0 then keepQuadratic (a + (c * c) / (-4 * b)) (-d - (c * e) / (-2 * b)) g
          else eb2
        min eb (max eb1 eb2)
      else eb
    if a < 0 then
      let g := f + (d * d) / (-4 * a)
      let eb1 := edgeEb1 d (-2 * a - c) (-2 * a + c) (-2 * a + c) 0
      let eb2 := if g < 0 then keepQuadratic (b + (c * c) / (-4 * a)) (e + (c * d) / (-2 * a)) g else 0
      let eb := min eb (max eb1 eb2)
      let eb1 := edgeEb1 d (-2 * a + c) (-2 * a - c) (-2 * a + c) eb1
      let eb2 := if g < 0 then keepQuadratic (b + (c * c) / (-4 * a)) (-e - (c * d) / (-2 * a)) g
        else eb2
      min eb (max eb1 eb2)
    else eb

/-- Bound that keeps the sign of the discriminant
(src/sz_compress_cp_preserve_2d_bilinear.cpp L417-423 and L489-498). -/
noncomputable def keepDelta (u0 u1 u2 u3 v0 v1 v2 v3 : ℝ) : ℝ :=
  cylinder (u3 * u3 * v1 * v1) (u1 * u1 * v3 * v3) (-2 * u1 * u3 * v1 * v3)
    (-2 * u2 * u3 * v0 * v1 + 2 * u3 * u3 * v1 * v1 + 4 * u1 * u3 * v0 * v2 - 2 * u0 * u3 * v1 * v2
      - 2 * u1 * u3 * v1 * v3)
    (-2 * u1 * u2 * v0 * v3 + 4 * u0 * u2 * v1 * v3 - 2 * u1 * u3 * v1 * v3 - 2 * u0 * u1 * v2 * v3
      + 2 * u1 * u1 * v3 * v3)
    (u2 * u2 * v0 * v0 - 2 * u2 * u3 * v0 * v1 + u3 * u3 * v1 * v1 - 2 * u0 * u2 * v0 * v2
      + 4 * u1 * u3 * v0 * v2 - 2 * u0 * u3 * v1 * v2 + u0 * u0 * v2 * v2 - 2 * u1 * u2 * v0 * v3
      + 4 * u0 * u2 * v1 * v3 - 2 * u1 * u3 * v1 * v3 - 2 * u0 * u1 * v2 * v3 + u1 * u1 * v3 * v3)

/-- Bound that keeps the sign of `A0*C1 - A1*C0`. 
(src/sz_compress_cp_preserve_2d_bilinear.cpp L355-595.) -/
noncomputable def keepDen (u0 u1 u2 u3 v0 v1 v2 v3 : ℝ) : ℝ :=
  keepSign (-u3 * v1 + u3 * v2) (u1 * v3 - u2 * v3) (-u1 * v0 + u2 * v0 + u0 * v1 - u0 * v2)

/-- Bound that keeps the sign of `f(0) = dM` (four copies).
(src/sz_compress_cp_preserve_2d_bilinear.cpp L355-595.) -/
noncomputable def keepF0 (u0 u1 u2 u3 v0 v1 v2 v3 : ℝ) : ℝ :=
  keepSign (u1 * u3 * v0 * v1 - u0 * u3 * v1 * v1 - u1 * u3 * v0 * v2 + u0 * u3 * v1 * v2)
    (-u1 * u1 * v0 * v3 + u1 * u2 * v0 * v3 + u0 * u1 * v1 * v3 - u0 * u2 * v1 * v3)
    (u1 * u1 * v0 * v0 - u1 * u2 * v0 * v0 - 2 * u0 * u1 * v0 * v1 + u0 * u2 * v0 * v1
      + u0 * u0 * v1 * v1 + u0 * u1 * v0 * v2 - u0 * u0 * v1 * v2)

/-- Bound that keeps the sign of `f(1) = 1 - tM + dM` (four copies).
(src/sz_compress_cp_preserve_2d_bilinear.cpp L355-595.) -/
noncomputable def keepF1 (u0 u1 u2 u3 v0 v1 v2 v3 : ℝ) : ℝ :=
  general (u3 * u3 * v2 * v2 - u3 * u3 * v1 * v2) (-u1 * u2 * v3 * v3 + u2 * u2 * v3 * v3)
    (u2 * u3 * v1 * v3 + u1 * u3 * v2 * v3 - 2 * u2 * u3 * v2 * v3)
    (-u1 * u3 * v0 * v2 + u2 * u3 * v0 * v2 + u0 * u3 * v1 * v2 - 2 * u3 * u3 * v1 * v2
      - u0 * u3 * v2 * v2 + 2 * u3 * u3 * v2 * v2 + u2 * u3 * v1 * v3 + u1 * u3 * v2 * v3
      - 2 * u2 * u3 * v2 * v3)
    (u1 * u2 * v0 * v3 - u2 * u2 * v0 * v3 - u0 * u2 * v1 * v3 + u2 * u3 * v1 * v3
      + u0 * u2 * v2 * v3 + u1 * u3 * v2 * v3 - 2 * u2 * u3 * v2 * v3 - 2 * u1 * u2 * v3 * v3
      + 2 * u2 * u2 * v3 * v3)
    (-u1 * u3 * v0 * v2 + u2 * u3 * v0 * v2 + u0 * u3 * v1 * v2 - u3 * u3 * v1 * v2
      - u0 * u3 * v2 * v2 + u3 * u3 * v2 * v2 + u1 * u2 * v0 * v3 - u2 * u2 * v0 * v3
      - u0 * u2 * v1 * v3 + u2 * u3 * v1 * v3 + u0 * u2 * v2 * v3 + u1 * u3 * v2 * v3
      - 2 * u2 * u3 * v2 * v3 - u1 * u2 * v3 * v3 + u2 * u2 * v3 * v3)

/-- `derive_cp_eb_bilinear_online` (src/sz_compress_cp_preserve_2d_bilinear.cpp L355-595). -/
noncomputable def deriveB (u0 u1 u2 u3 v0 v1 v2 v3 : ℝ) : ℝ :=
  let A0 := u3 - u0 - u2 + u1
  let B0 := u0 - u1
  let C0 := u2 - u1
  let D0 := u1
  let A1 := v3 - v0 - v2 + v1
  let B1 := v0 - v1
  let C1 := v2 - v1
  let D1 := v1
  let w := A0 * C1 - A1 * C0
  if w = 0 then 0
  else
    let M0 := (-B0 * C1 + B1 * C0) / w
    let M1 := (-C1 * D0 + C0 * D1) / w
    let M2 := (A1 * B0 - A0 * B1) / w
    let M3 := (A1 * D0 - A0 * D1) / w
    let dM := M0 * M3 - M1 * M2
    let tM := M0 + M3
    if dM = 0 ∨ tM = 0 then 0
    else if tM * tM - 4 * dM = 0 then 0
    else if tM * tM - 4 * dM < 0 then
      min (min 1 (keepDen u0 u1 u2 u3 v0 v1 v2 v3)) (keepDelta u0 u1 u2 u3 v0 v1 v2 v3)
    else
      let a := -u3 * v1
      let b := u1 * v3
      let c := -2 * u1 * v0 + u2 * v0 + 2 * u0 * v1 - u0 * v2
      let eb1 := keepSign a b c
      let eb2 := keepSign (a - 2 * (-u3 * v1 + u3 * v2)) (b - 2 * (u1 * v3 - u2 * v3))
        (c - 2 * (-u1 * v0 + u2 * v0 + u0 * v1 - u0 * v2))
      if 0 < dM ∧ 0 < 1 - tM + dM then
        if tM < 0 ∨ 2 ≤ tM then
          min (min (min (min 1 (keepF0 u0 u1 u2 u3 v0 v1 v2 v3)) (keepF1 u0 u1 u2 u3 v0 v1 v2 v3))
            (keepDen u0 u1 u2 u3 v0 v1 v2 v3)) (max eb1 eb2)
        else
          min (min (min (min (min (min 1 (keepDelta u0 u1 u2 u3 v0 v1 v2 v3))
            (keepF0 u0 u1 u2 u3 v0 v1 v2 v3)) (keepDen u0 u1 u2 u3 v0 v1 v2 v3)) eb1) eb2)
            (keepF1 u0 u1 u2 u3 v0 v1 v2 v3)
      else
        min (min 1 (keepF0 u0 u1 u2 u3 v0 v1 v2 v3)) (keepF1 u0 u1 u2 u3 v0 v1 v2 v3)

/-- The compressor in exact arithmetic.  (src/sz_compress_cp_preserve_2d_bilinear.cpp L755-1070.) -/
noncomputable def compressReal (derive : ℝ → ℝ → ℝ → ℝ → ℝ → ℝ → ℝ → ℝ → ℝ) (r1 r2 : Nat)
    (maxEb : ℝ) (m : Online2D.Field ℝ) : Option (State ℝ × Streams ℝ) :=
  compressB realL (realMode2 r2) (boundB r1 r2 maxEb min derive)
    (verifyB realL (fun x => (2 : ℝ) ^ x) (fun x => -x) realCheck r1 r2) (r1 * r2) (arr2 m)

/-- The value of the bound at the vertex that destroys the critical point below. -/
theorem deriveB_example : deriveB 5 0 8 (-7 / 5) 4 4 (-1) (-1) = 24 / 29 := by
  unfold deriveB
  norm_num
  unfold keepF0 keepF1 keepDen keepDelta keepSign general edgeEb1 cylinder
  norm_num

end CpSZ.VMode.Bilinear
