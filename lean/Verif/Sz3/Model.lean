import Verif.Mesh2D
import Verif.Stream
import Verif.Quant
import Mathlib.Data.Nat.Log
/-
The interpolation based (SZ3 style) 2D mode with absolute bound:
src/sz_compress_cp_preserve_2d.cpp L1540-1811, src/sz_decompress_cp_preserve_2d.cpp L262-369
and include/sz3_utils.hpp.

`int`/`size_t` conversions of the extents are taken to be exact (extents below `2^31`).
-/

namespace CpSZ.Sz3
open Mesh2D

/-- Two component arrays.  (src/sz_compress_cp_preserve_2d.cpp L1711-1714.) -/
abbrev Fld (T : Type) := Online2D.Field T

/-! ### Traversal -/

/-- The predictors (include/sz3_utils.hpp L196-214); `zero` is the prediction of the first vertex,
`left` the copy of the preceding vertex. -/
inductive Interp where
  | zero | left | linear | quad1 | quad2 | cubic
  deriving DecidableEq

/-- Positions read by a predictor, in multiples of the stride relative to the vertex.
(include/sz3_utils.hpp L196-214.) -/
def Interp.reads : Interp → List Int
  | .zero => []
  | .left => [-1]
  | .linear => [-1, 1]
  | .quad1 => [-1, 1, 3]
  | .quad2 => [-3, -1, 1]
  | .cubic => [-3, -1, 1, 3]

/-- `for (i = 1; i + 1 < n; i += 2)` of the linear case (src/sz_compress_cp_preserve_2d.cpp L1571
and copies). -/
def linLoop (n i : Nat) : List (Nat × Interp) :=
  if i + 1 < n then (i, .linear) :: linLoop n (i + 2) else []
termination_by n - i

/-- `for (i = 3; i + 3 < n; i += 2)` followed by the vertex after the loop
(src/sz_compress_cp_preserve_2d.cpp L1606-1616 and copies). -/
def cubLoop (n i : Nat) : List (Nat × Interp) :=
  if i + 3 < n then (i, .cubic) :: cubLoop n (i + 2) else [(i, .quad2)]
termination_by n - i

/-- Vertices of a line of `n` vertices treated by `predict_r1` / `predict_r2`
(src/sz_compress_cp_preserve_2d.cpp L1563-1705), in order, with their predictors. -/
def lineEnc (n : Nat) : List (Nat × Interp) :=
  if n ≤ 1 then []
  else if n < 5 then linLoop n 1 ++ (if n % 2 = 0 then [(n - 1, .left)] else [])
  else (1, .quad1) :: (cubLoop n 3 ++ (if n % 2 = 0 then [(n - 1, .left)] else []))

/-- The same for `recover` of the decompressor (src/sz_decompress_cp_preserve_2d.cpp L262-318). -/
def lineDec (n : Nat) : List (Nat × Interp) :=
  if n ≤ 1 then []
  else if n < 5 then linLoop n 1 ++ (if n % 2 = 0 then [(n - 1, .left)] else [])
  else (1, .quad1) :: (cubLoop n 3 ++ (if n % 2 = 0 then [(n - 1, .left)] else []))

/-- `for (i = start; i < bound; i += step)` (`step > 0`). 
(src/sz_compress_cp_preserve_2d.cpp L1780, L1787.) -/
def stepLoop (bound step i : Nat) : List Nat :=
  if _h : i < bound ∧ 0 < step then i :: stepLoop bound step (i + step) else []
termination_by bound - i

/-- One vertex of the compressor: array position, the row and column passed to
`derive_eb_abs_online_2d`, the stride and the predictor, and whether the bound is halved.
(src/sz_compress_cp_preserve_2d.cpp L1563-1705.) -/
structure Ev where
  pos : Nat
  row : Nat
  col : Nat
  stride : Nat
  kind : Interp
  half : Bool

/-- One vertex of the decompressor.  (src/sz_decompress_cp_preserve_2d.cpp L262-318.) -/
structure DEv where
  pos : Nat
  stride : Nat
  kind : Interp
  deriving DecidableEq

/-- The same vertex for the decompressor (src/sz_decompress_cp_preserve_2d.cpp L262-318). -/
def Ev.toD (e : Ev) : DEv := ⟨e.pos, e.stride, e.kind⟩

/-- `(int) ceil(log2(max(r1, r2)))` (src/sz_compress_cp_preserve_2d.cpp L1761).  Taken as the exact
value; the double precision result is exact for extents below `2^31`. -/
def interpLevel (r1 r2 : Nat) : Nat := Nat.clog 2 (max r1 r2)

/-- Column pass of a level (src/sz_compress_cp_preserve_2d.cpp L1779-1784): `predict_r2` for every
column that is a multiple of `2 * stride`. -/
def passCols (r1 r2 stride : Nat) (half : Bool) : List Ev :=
  (stepLoop r2 (stride * 2) 0).flatMap fun j =>
    (lineEnc ((r1 - 1) / stride + 1)).map fun x =>
      ⟨j + x.1 * (stride * r2), x.1 * stride, j, stride * r2, x.2, half⟩

/-- Row pass of a level (src/sz_compress_cp_preserve_2d.cpp L1786-1791): `predict_r1` for every row
that is a multiple of `stride`. -/
def passRows (r1 r2 stride : Nat) (half : Bool) : List Ev :=
  (stepLoop r1 stride 0).flatMap fun i =>
    (lineEnc ((r2 - 1) / stride + 1)).map fun x =>
      ⟨i * r2 + x.1 * stride, i, x.1 * stride, stride, x.2, half⟩

/-- The loop over the levels (src/sz_compress_cp_preserve_2d.cpp L1770-1793), from `level` down to
1. -/
def levelsEnc (r1 r2 : Nat) : Nat → List Ev
  | 0 => []
  | l + 1 =>
    (passCols r1 r2 (2 ^ l) (decide (3 ≤ l + 1)) ++ passRows r1 r2 (2 ^ l) (decide (3 ≤ l + 1)))
      ++ levelsEnc r1 r2 l

/-- All vertices in compression order (src/sz_compress_cp_preserve_2d.cpp L1765-1793). -/
def planEnc (r1 r2 : Nat) : List Ev :=
  ⟨0, 0, 0, 0, .zero, true⟩ :: levelsEnc r1 r2 (interpLevel r1 r2)

/-- Column pass of the decompressor (src/sz_decompress_cp_preserve_2d.cpp L357-359). -/
def passColsD (r1 r2 stride : Nat) : List DEv :=
  (stepLoop r2 (stride * 2) 0).flatMap fun j =>
    (lineDec ((r1 - 1) / stride + 1)).map fun x =>
      ⟨j + x.1 * (stride * r2), stride * r2, x.2⟩

/-- Row pass of the decompressor (src/sz_decompress_cp_preserve_2d.cpp L362-364). -/
def passRowsD (r1 r2 stride : Nat) : List DEv :=
  (stepLoop r1 stride 0).flatMap fun i =>
    (lineDec ((r2 - 1) / stride + 1)).map fun x =>
      ⟨i * r2 + x.1 * stride, stride, x.2⟩

/-- Level loop of the decompressor (src/sz_decompress_cp_preserve_2d.cpp L351-366). -/
def levelsDec (r1 r2 : Nat) : Nat → List DEv
  | 0 => []
  | l + 1 => (passColsD r1 r2 (2 ^ l) ++ passRowsD r1 r2 (2 ^ l)) ++ levelsDec r1 r2 l

/-- All vertices in decompression order (src/sz_decompress_cp_preserve_2d.cpp L348-366). -/
def planDec (r1 r2 : Nat) : List DEv :=
  ⟨0, 0, .zero⟩ :: levelsDec r1 r2 (interpLevel r1 r2)

/-! ### Quantiser -/

/-- Arithmetic: `double` operations, operations of the element type `T` (the quantiser is
instantiated with `T_eb = T`), and the conversion of the bound to `T`. 
(include/sz3_utils.hpp L20-127, L196-215.) -/
structure SOps (T D : Type) where
  d : DOps D
  t : DOps T
  conv : D → T

variable {T D : Type}

/-- `eb == 0`.  (include/sz3_utils.hpp L39-75.) -/
def isZero (N : DOps T) (x : T) : Bool := N.le x (N.ofInt 0) && N.le (N.ofInt 0) x

/-- `quantize_and_overwrite` (include/sz3_utils.hpp L39-75): code, new value, appended unpredictable
values.  `quant_index >>= 1` is floor division. -/
def quantT (N : DOps T) (radius : Int) (cur pred eb : T) : Int × T × List T :=
  if isZero N eb then (0, cur, [cur])
  else
    let diff := N.sub cur pred
    let qi := N.trunc (N.div (N.abs diff) eb) + 1
    if qi < radius * 2 then
      let half := qi / 2
      let neg := N.lt diff (N.ofInt 0)
      let q := if neg then radius - half else radius + half
      let dec := N.add pred (N.mul (N.ofInt (if neg then -(2 * half) else 2 * half)) eb)
      if N.lt eb (N.abs (N.sub dec cur)) then (0, cur, [cur]) else (q, dec, [])
    else (0, cur, [cur])

/-- `recover` (include/sz3_utils.hpp L112-127); reading past the end of the unpredictable values is
`none`. -/
def recoverT (N : DOps T) (radius : Int) (pred : T) (q : Int) (eb : T) (un : List T) :
    Option (T × List T) :=
  if q ≠ 0 then some (N.add pred (N.mul (N.ofInt (2 * (q - radius))) eb), un)
  else
    match un with
    | [] => none
    | x :: xs => some (x, xs)

/-- The interpolation formulas (include/sz3_utils.hpp L196-214) applied to the values read, in the
order of `Interp.reads`. -/
def interp (N : DOps T) : Interp → List T → Option T
  | .zero, [] => some (N.ofInt 0)
  | .left, [a] => some a
  | .linear, [a, b] => some (N.div (N.add a b) (N.ofInt 2))
  | .quad1, [a, b, c] =>
    some (N.div (N.sub (N.add (N.mul (N.ofInt 3) a) (N.mul (N.ofInt 6) b)) c) (N.ofInt 8))
  | .quad2, [a, b, c] =>
    some (N.div (N.add (N.add (N.neg a) (N.mul (N.ofInt 6) b)) (N.mul (N.ofInt 3) c)) (N.ofInt 8))
  | .cubic, [a, b, c, d] =>
    some (N.div (N.sub (N.add (N.add (N.neg a) (N.mul (N.ofInt 9) b)) (N.mul (N.ofInt 9) c)) d)
      (N.ofInt 16))
  | _, _ => none

/-- Read a list of positions of an array of `n` elements; out of bounds is undefined.
(include/sz3_utils.hpp L196-214.) -/
def readAll (n : Nat) (f : Nat → T) : List Int → Option (List T)
  | [] => some []
  | p :: ps =>
    match rd n f p, readAll n f ps with
    | some x, some xs => some (x :: xs)
    | _, _ => none

/-- Positions read by the predictor (include/sz3_utils.hpp L196-214). -/
def DEv.reads (e : DEv) : List Int := e.kind.reads.map fun o => (e.pos : Int) + o * e.stride

/-- Prediction of a vertex.  (src/sz_compress_cp_preserve_2d.cpp L1563-1705;
src/sz_decompress_cp_preserve_2d.cpp L262-318.) -/
def predict (N : DOps T) (n : Nat) (f : Nat → T) (e : DEv) : Option T :=
  match readAll n f e.reads with
  | none => none
  | some xs => interp N e.kind xs

/-! ### Compressor -/

/-- Constants of the compressor (src/sz_compress_cp_preserve_2d.cpp L1719-1722, L1759) and the two
bounds used as a start (`max_pwr_eb` and `max_pwr_eb * 0.5`). -/
structure Par (D : Type) where
  base : Int
  logBase : D
  thr : D
  capacity : Int
  ebFull : D
  ebHalf : D

/-- `capacity >> 1`.  (src/sz_compress_cp_preserve_2d.cpp L1722.) -/
def Par.radius (P : Par D) : Int := P.capacity / 2

/-- Codes of one vertex.  (src/sz_compress_cp_preserve_2d.cpp L1574-1577.) -/
structure Code (T : Type) where
  id : Int
  qu : Int
  qv : Int
  un : List T

/-- One vertex of `predict_r1` / `predict_r2` (e.g. src/sz_compress_cp_preserve_2d.cpp L1574-1577).
 `bound f e eb` is `derive_eb_abs_online_2d(dU, dV, row, col, ..., eb, ...)`. -/
def encEv (S : SOps T D) (P : Par D) (n : Nat) (bound : Fld T → Ev → D → Option D)
    (f : Fld T) (e : Ev) : Option (Fld T × Code T) :=
  match bound f e (if e.half then P.ebHalf else P.ebFull) with
  | none => none
  | some req =>
    let r := ebQuant S.d P.base P.logBase P.thr req
    match predict S.t n f.u e.toD, predict S.t n f.v e.toD with
    | some pu, some pv =>
      let a := quantT S.t P.radius (f.u e.pos) pu (S.conv r.1)
      let b := quantT S.t P.radius (f.v e.pos) pv (S.conv r.1)
      some (f.set e.pos a.2.1 b.2.1, ⟨r.2, a.1, b.1, a.2.2 ++ b.2.2⟩)
    | _, _ => none

/-- All vertices in order.  (src/sz_compress_cp_preserve_2d.cpp L1765-1793.) -/
def encAll (S : SOps T D) (P : Par D) (n : Nat) (bound : Fld T → Ev → D → Option D) :
    List Ev → Fld T → Option (Fld T × List (Code T))
  | [], f => some (f, [])
  | e :: es, f =>
    match encEv S P n bound f e with
    | none => none
    | some (f', c) =>
      match encAll S P n bound es f' with
      | none => none
      | some (f'', cs) => some (f'', c :: cs)

/-- The arrays `eb_quant_index`, `quantization` and the unpredictable values.
(src/sz_compress_cp_preserve_2d.cpp L1798-1808.) -/
structure Streams (T : Type) where
  eb : List Int
  dq : List Int
  un : List T

/-- The arrays produced by the vertices in order (src/sz_compress_cp_preserve_2d.cpp L1798-1808). -/
def streams (cs : List (Code T)) : Streams T :=
  ⟨cs.map Code.id, cs.flatMap fun c => [c.qu, c.qv], cs.flatMap Code.un⟩

/-- `sz3_compress_cp_preserve_2d_online_abs` up to serialisation
(src/sz_compress_cp_preserve_2d.cpp L1711-1793): the working copy (which is discarded by the code)
and the codes. -/
def compress (S : SOps T D) (P : Par D) (r1 r2 : Nat) (bound : Fld T → Ev → D → Option D)
    (m : Fld T) : Option (Fld T × Streams T) :=
  match encAll S P (r1 * r2) bound (planEnc r1 r2) m with
  | none => none
  | some (f, cs) => some (f, streams cs)

/-! ### Decompressor -/

/-- One vertex of `recover` (e.g. src/sz_decompress_cp_preserve_2d.cpp L272-274), consuming the
three streams. -/
def decEv (S : SOps T D) (base : Int) (thr : D) (radius : Int) (n : Nat) (f : Fld T)
    (e : DEv) (s : Streams T) : Option (Fld T × Streams T) :=
  match s.eb, s.dq with
  | id :: ids, qu :: qv :: qs =>
    let eb := S.conv (S.d.mul (S.d.pow base id) thr)
    match predict S.t n f.u e, predict S.t n f.v e with
    | some pu, some pv =>
      match recoverT S.t radius pu qu eb s.un with
      | none => none
      | some (x, un) =>
        match recoverT S.t radius pv qv eb un with
        | none => none
        | some (y, un) => some (f.set e.pos x y, ⟨ids, qs, un⟩)
    | _, _ => none
  | _, _ => none

/-- All vertices in order (src/sz_decompress_cp_preserve_2d.cpp L348-366). -/
def decAll (S : SOps T D) (base : Int) (thr : D) (radius : Int) (n : Nat) :
    List DEv → Fld T → Streams T → Option (Fld T)
  | [], f, _ => some f
  | e :: es, f, s =>
    match decEv S base thr radius n f e s with
    | none => none
    | some (f', s') => decAll S base thr radius n es f' s'

/-- `sz3_decompress_cp_preserve_2d_online` after parsing
(src/sz_decompress_cp_preserve_2d.cpp L341-366); `m0` is the initial content of the output arrays.
-/
def decompress (S : SOps T D) (base : Int) (thr : D) (radius : Int) (r1 r2 : Nat)
    (m0 : Fld T) (s : Streams T) : Option (Fld T) :=
  decAll S base thr radius (r1 * r2) (planDec r1 r2) m0 s

/-! ### Bytes -/

/-- src/sz_compress_cp_preserve_2d.cpp L1798-1810 and `save` (include/sz3_utils.hpp L148-160).  The size of the output buffer is not
modelled here (see C35). -/
def serialize (c : Codec T) (cD : Codec D) (E1 E2 : Env) (P : Par D) (s : Streams T) :
    Option (List Byte) :=
  match encInts E1 (2 * 1024) s.eb, encInts E2 (2 * P.capacity.toNat) s.dq with
  | some b1, some b2 =>
    some (leBytes 4 P.base.toNat ++ (cD.enc P.thr ++ (leBytes 4 P.capacity.toNat ++
      (leBytes 1 2 ++ (leBytes 4 P.radius.toNat ++
        (leBytes 8 s.un.length ++ (writeArray c s.un ++ (b1 ++ b2))))))))
  | _, _ => none

/-- What the decompressor reads from the stream.  (src/sz_decompress_cp_preserve_2d.cpp L325-340.)
-/
structure Header (T D : Type) where
  base : Int
  thr : D
  radius : Int
  s : Streams T

/-- src/sz_decompress_cp_preserve_2d.cpp L325-340 with `load` (include/sz3_utils.hpp L162-173); a failing `assert` (the
"remaining length" is the placeholder `num_elements * sizeof(T)`) is `none`. -/
def parse (c : Codec T) (cD : Codec D) (n : Nat) (bs : List Byte) : Option (Header T D) :=
  match readLE 4 bs with
  | none => none
  | some (base, bs) =>
  match readVar cD bs with
  | none => none
  | some (thr, bs) =>
  match readLE 4 bs with
  | none => none
  | some (capacity, bs) =>
  if n * c.size ≤ 1 + c.size + 4 then none else
  match readLE 1 bs with
  | none => none
  | some (_, bs) =>
  match readLE 4 bs with
  | none => none
  | some (radius, bs) =>
  match readLE 8 bs with
  | none => none
  | some (cnt, bs) =>
  match readArray c cnt bs with
  | none => none
  | some (un, bs) =>
  match decInts (2 * 1024) n bs with
  | none => none
  | some (eb, bs) =>
  match decInts (2 * capacity) (2 * n) bs with
  | none => none
  | some (dq, _) => some ⟨base, thr, radius, ⟨eb, dq, un⟩⟩

/-- `sz3_compress_cp_preserve_2d_online_abs`: the working copy and the bytes.
(src/sz_compress_cp_preserve_2d.cpp L1707-1811.) -/
def compressBytes (S : SOps T D) (c : Codec T) (cD : Codec D) (E1 E2 : Env) (P : Par D)
    (r1 r2 : Nat) (bound : Fld T → Ev → D → Option D) (m : Fld T) :
    Option (Fld T × List Byte) :=
  match compress S P r1 r2 bound m with
  | none => none
  | some (m', s) =>
    match serialize c cD E1 E2 P s with
    | none => none
    | some bs => some (m', bs)

/-- `sz3_decompress_cp_preserve_2d_online`.  (src/sz_decompress_cp_preserve_2d.cpp L320-369.) -/
def decompressBytes (S : SOps T D) (c : Codec T) (cD : Codec D) (r1 r2 : Nat) (m0 : Fld T)
    (bs : List Byte) : Option (Fld T) :=
  match parse c cD (r1 * r2) bs with
  | none => none
  | some h => decompress S h.base h.thr h.radius r1 r2 m0 h.s

/-! ### Bound of a vertex -/

/-- `derive_eb_abs_online_2d` (src/sz_compress_cp_preserve_2d.cpp L1540-1561) for any per-triangle
bound `derive` and any `MINF`. -/
def deriveLoop (r1 r2 : Nat) (minf : D → D → D) (derive : T → T → T → T → T → T → D)
    (f : Fld T) (e : Ev) : List Nat → D → Option D
  | [], req => some req
  | k :: ks, req =>
    if inMesh r1 r2 e.row e.col k then
      match rd (r1 * r2) f.u (e.pos + offsets r2 k), rd (r1 * r2) f.u (e.pos + offsets r2 (k + 1)),
        rd (r1 * r2) f.v (e.pos + offsets r2 k), rd (r1 * r2) f.v (e.pos + offsets r2 (k + 1)) with
      | some u0, some u1, some v0, some v1 =>
        deriveLoop r1 r2 minf derive f e ks
          (minf req (derive u0 u1 (f.u e.pos) v0 v1 (f.v e.pos)))
      | _, _, _, _ => none
    else deriveLoop r1 r2 minf derive f e ks req

/-- `derive_eb_abs_online_2d` (src/sz_compress_cp_preserve_2d.cpp L1540-1561). -/
def deriveEb (r1 r2 : Nat) (minf : D → D → D) (derive : T → T → T → T → T → T → D)
    (f : Fld T) (e : Ev) (eb : D) : Option D :=
  deriveLoop r1 r2 minf derive f e [0, 1, 2, 3, 4, 5] eb

end CpSZ.Sz3
