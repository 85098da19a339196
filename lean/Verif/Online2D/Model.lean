import Verif.Quant
import Verif.Scan
import Verif.Huffman.Model
/-
Model of `sz_compress_cp_preserve_2d_online` (src/sz_compress_cp_preserve_2d.cpp L545-714)
and `sz_decompress_cp_preserve_2d_online` (src/sz_decompress_cp_preserve_2d.cpp L109-165).

The two loops over `i < r1`, `j < r2` with a running pointer are one loop over
`p = i*r2 + j < r1*r2`.  The error bound derived from the adjacent triangles is a parameter
here (`bound`); it is instantiated in `Verif/Mesh2D.lean`.
-/

namespace CpSZ.Online2D

/-- The mirror arrays `decompressed_U`, `decompressed_V`. 
(src/sz_compress_cp_preserve_2d.cpp L549-552.) -/
structure Field (T : Type) where
  u : Nat → T
  v : Nat → T

/-- Assignment to one array element.  (src/sz_compress_cp_preserve_2d.cpp L674-680.) -/
def setAt {T : Type} (f : Nat → T) (p : Nat) (x : T) : Nat → T := fun q => if q = p then x else f q

/-- Assignment of both components of a vertex (src/sz_compress_cp_preserve_2d.cpp L674-680). -/
def Field.set {T : Type} (m : Field T) (p : Nat) (x y : T) : Field T :=
  ⟨setAt m.u p x, setAt m.v p y⟩

/-- Constants of the mode: `base`, `log2(base)`, `threshold`, `capacity`, `intv_radius`.
(src/sz_compress_cp_preserve_2d.cpp L558-561, L602.) -/
structure Par (D : Type) where
  base : Int
  logBase : D
  thr : D
  capacity : Int
  radius : Int

/-- Lorenzo prediction `d1 + d2 - d0` (src/sz_compress_cp_preserve_2d.cpp L641-644 and
src/sz_decompress_cp_preserve_2d.cpp L151-154).  The indices are only read when they are not
negative. -/
def lorenzo {T D : Type} (O : Ops T D) (r2 : Nat) (f : Nat → T) (p : Nat) : T :=
  let i := p / r2
  let j := p % r2
  let d0 := if i ≠ 0 ∧ j ≠ 0 then f (p - 1 - r2) else O.zeroT
  let d1 := if i ≠ 0 then f (p - r2) else O.zeroT
  let d2 := if j ≠ 0 then f (p - 1) else O.zeroT
  O.subT (O.addT d1 d2) d0

/-- Quantisation of one component with the quantised absolute bound `eb` and its code `id`
(src/sz_compress_cp_preserve_2d.cpp L629-664): `some (id, index, value)` if accepted, `none` if
`unpred_flag` is set. -/
def encComp {T D : Type} (O : Ops T D) (P : Par D) (r2 : Nat) (f : Nat → T) (p : Nat)
    (absEb : D) : Option (Int × Int × T) :=
  let cur := f p
  let (eb, id) := ebQuant O.toDOps P.base P.logBase P.thr absEb
  if 0 < id then
    let pred := lorenzo O r2 f p
    let diff := O.toD (O.subT cur pred)
    match linQuant O.toDOps diff eb P.capacity P.radius with
    | none => none
    | some q =>
      let dec := O.ofD (O.add (O.toD pred) (linOffset O.toDOps eb P.radius q))
      if O.le eb (O.abs (O.toD (O.subT dec cur))) then none else some (id, q, dec)
  else none

/-- What one vertex contributes to the streams.  (src/sz_compress_cp_preserve_2d.cpp L625-690.) -/
inductive VCode (T : Type) where
  | lossless (u v : T)
  | coded (e0 e1 q0 q1 : Int)

/-- Body of the double loop (src/sz_compress_cp_preserve_2d.cpp L609-691).  `absEb req cur` is
`fabs(cur_data) * required_eb` (L632) in the relative mode.  Breaking out of the component loop
early has no effect on the output. -/
def encVertex {T D : Type} (O : Ops T D) (P : Par D) (r2 : Nat)
    (absEb : D → T → D) (bound : Field T → Nat → Option D)
    (m : Field T) (p : Nat) : Option (Field T × VCode T) :=
  match bound m p with
  | none => none
  | some req =>
    if O.lt (O.ofInt 0) req then
      match encComp O P r2 m.u p (absEb req (m.u p)), encComp O P r2 m.v p (absEb req (m.v p)) with
      | some (e0, q0, x), some (e1, q1, y) => some (m.set p x y, .coded e0 e1 q0 q1)
      | _, _ => some (m, .lossless (m.u p) (m.v p))
    else some (m, .lossless (m.u p) (m.v p))

/-- `eb_quant_index` entries of a vertex.  (src/sz_compress_cp_preserve_2d.cpp L625-690.) -/
def VCode.eb {T : Type} : VCode T → List Int
  | .lossless _ _ => [0, 0]
  | .coded e0 e1 _ _ => [e0, e1]

/-- `data_quant_index` entries of a vertex.  (src/sz_compress_cp_preserve_2d.cpp L625-690.) -/
def VCode.dq {T : Type} (radius : Int) : VCode T → List Int
  | .lossless _ _ => [radius, radius]
  | .coded _ _ q0 q1 => [q0, q1]

/-- `unpred_data` entries of a vertex.  (src/sz_compress_cp_preserve_2d.cpp L625-690.) -/
def VCode.un {T : Type} : VCode T → List T
  | .lossless u v => [u, v]
  | .coded _ _ _ _ => []

/-- The content of the compressed stream before entropy coding. 
(src/sz_compress_cp_preserve_2d.cpp L699-709.) -/
structure Streams (T : Type) where
  eb : List Int
  dq : List Int
  un : List T

/-- src/sz_compress_cp_preserve_2d.cpp L549-695: final mirror and streams. -/
def compress {T D : Type} (O : Ops T D) (P : Par D) (r1 r2 : Nat)
    (absEb : D → T → D) (bound : Field T → Nat → Option D) (m : Field T) :
    Option (Field T × Streams T) :=
  match scanEnc (encVertex O P r2 absEb bound) (r1 * r2) 0 m with
  | none => none
  | some (m', ws) =>
    some (m', ⟨ws.flatMap VCode.eb, ws.flatMap (VCode.dq P.radius), ws.flatMap VCode.un⟩)

/-- Decoder body (decompressor src/sz_decompress_cp_preserve_2d.cpp L140-160); running past the end
of a stream is `none`. -/
def decVertex {T D : Type} (O : Ops T D) (P : Par D) (r2 : Nat) (m : Field T) (p : Nat)
    (s : Streams T) : Option (Field T × Streams T) :=
  match s.eb, s.dq with
  | e0 :: e1 :: ebs, q0 :: q1 :: dqs =>
    if e0 = 0 then
      match s.un with
      | x :: y :: uns => some (m.set p x y, ⟨ebs, dqs, uns⟩)
      | _ => none
    else
      let x := O.ofD (O.add (O.toD (lorenzo O r2 m.u p))
        (linOffset O.toDOps (O.mul (O.pow P.base e0) P.thr) P.radius q0))
      let y := O.ofD (O.add (O.toD (lorenzo O r2 m.v p))
        (linOffset O.toDOps (O.mul (O.pow P.base e1) P.thr) P.radius q1))
      some (m.set p x y, ⟨ebs, dqs, s.un⟩)
  | _, _ => none

/-- Decompression into freshly allocated arrays with arbitrary contents `m0`
(src/sz_decompress_cp_preserve_2d.cpp L130-162). -/
def decompress {T D : Type} (O : Ops T D) (P : Par D) (r1 r2 : Nat) (m0 : Field T)
    (s : Streams T) : Option (Field T) :=
  (scanDec (decVertex O P r2) (r1 * r2) 0 m0 s).map (·.1)

end CpSZ.Online2D
