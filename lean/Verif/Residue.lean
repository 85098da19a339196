import Mathlib.Data.Nat.Bitwise

/-!
# Values stored with a shortened mantissa

Model of `out_of_range_data_encode` and `out_of_range_data_decode`
(include/sz_compression_utils.hpp L6-33, include/sz_decompression_utils.hpp L6-32): sign, exponent
and the leading `residue_len` bits of the mantissa of a value, the latter packed into a bit stream
that starts anywhere inside a byte.  Machine words are natural numbers below `2 ^ w`.
-/

namespace CpSZ.Residue

/-- The two instances `float` and `double` of `fp_int`, `mantissa_len` and of the conversion of
`fp.ival & 0x000FFFFFFFFFFFFF` to the type of `ival` (include/sz_def.hpp L13-72,
include/sz_compression_utils.hpp L16).  The constant has type `long`, so a 32 bit word is widened,
keeps all its bits and is narrowed again. -/
structure Fmt where
  w : Nat
  m : Nat
  mask : Nat

/-- `fp_int<float>`: 32 bits, 23 mantissa bits, the mask keeps every bit
(include/sz_def.hpp L18-22, L62-65). -/
def fmtF : Fmt := ⟨32, 23, 0xFFFFFFFF⟩

/-- `fp_int<double>`: 64 bits, 52 mantissa bits (include/sz_def.hpp L24-28, L68-71). -/
def fmtD : Fmt := ⟨64, 52, 0x000FFFFFFFFFFFFF⟩

/-- `getExponent` (include/sz_def.hpp L34-56): masks `0x7F800000` and `0x7FF0000000000000`. -/
def getExp (F : Fmt) (v : Nat) : Nat := (v &&& (2 ^ (F.w - 1) - 2 ^ F.m)) >>> F.m

/-- The test `data > 0` on the bits of a value (include/sz_compression_utils.hpp L9): sign bit
clear, neither zero nor NaN. -/
def gtZero (F : Fmt) (v : Nat) : Bool :=
  !v.testBit (F.w - 1) && decide (v ≠ 0) && decide (v ≤ 2 ^ (F.w - 1) - 2 ^ F.m)

/-- Output buffer, byte cursor and bit cursor (`dst`, `pos`). 
(include/sz_compression_utils.hpp L6-33.) -/
structure BitBuf where
  mem : Nat → Nat
  dst : Nat
  pos : Nat

/-- `*dst = x` for an `unsigned char` cell.  (include/sz_compression_utils.hpp L21, L27.) -/
def BitBuf.put (b : BitBuf) (x : Nat) : Nat → Nat :=
  fun a => if a = b.dst then x % 256 else b.mem a

/-- The packing loop (include/sz_compression_utils.hpp L18-31).  `fuel` bounds the number of
iterations; `res + 1` always suffices for `pos < 8`. -/
def encLoop (iv : Nat) : Nat → Nat → BitBuf → BitBuf
  | 0, _, b => b
  | fuel + 1, res, b =>
    if res = 0 then b
    else
      let rest := 8 - b.pos
      if rest ≤ res then
        encLoop iv fuel (res - rest)
          ⟨b.put (b.mem b.dst ||| (0xFF &&& (iv >>> (res - rest)))), b.dst + 1, 0⟩
      else
        ⟨b.put (b.mem b.dst ||| (((0xFF >>> (8 - res)) &&& iv) <<< (rest - res))), b.dst,
          b.pos + res⟩

/-- Sign, exponent and returned value of `out_of_range_data_encode`.
(include/sz_compression_utils.hpp L9-15, L32.) -/
structure EncOut where
  sign : Bool
  exp : Nat
  val : Nat

/-- `(fp.ival >> discard_len) << discard_len` (include/sz_compression_utils.hpp L13-15). -/
def trunc (F : Fmt) (v res : Nat) : Nat := (v >>> (F.m - res)) <<< (F.m - res)

/-- The word from which the packing loop takes its bits
(include/sz_compression_utils.hpp L16-17). -/
def payload (F : Fmt) (v res : Nat) : Nat := (trunc F v res &&& F.mask) >>> (F.m - res)

/-- `out_of_range_data_encode` (include/sz_compression_utils.hpp L6-33). -/
def encode (F : Fmt) (v res : Nat) (b : BitBuf) : EncOut × BitBuf :=
  (⟨gtZero F v, getExp F v, trunc F v res⟩, encLoop (payload F v res) (res + 1) res b)

/-- The unpacking loop (include/sz_decompression_utils.hpp L12-27). -/
def decLoop (F : Fmt) (mem : Nat → Nat) : Nat → Nat → Nat → Nat → Nat → Nat × Nat × Nat
  | 0, _, acc, dst, pos => (acc, dst, pos)
  | fuel + 1, res, acc, dst, pos =>
    if res = 0 then (acc, dst, pos)
    else
      let rest := 8 - pos
      if rest ≤ res then
        decLoop F mem fuel (res - rest)
          (((acc <<< rest) % 2 ^ F.w) ||| ((0xFF >>> pos) &&& mem dst)) (dst + 1) 0
      else
        (((acc <<< res) % 2 ^ F.w) ||| (((0xFF >>> pos) &&& mem dst) >>> (rest - res)), dst,
          pos + res)

/-- `-fp.fval`: the sign bit is flipped (include/sz_decompression_utils.hpp L31). -/
def negate (F : Fmt) (v : Nat) : Nat := v ^^^ 2 ^ (F.w - 1)

/-- `out_of_range_data_decode` (include/sz_decompression_utils.hpp L6-32); sign and exponent are the
entries under the two other cursors. -/
def decode (F : Fmt) (mem : Nat → Nat) (res : Nat) (sign : Bool) (ty dst pos : Nat) :
    Nat × Nat × Nat :=
  let r := decLoop F mem (res + 1) res 0 dst pos
  let iv := ((r.1 <<< (F.m - res)) % 2 ^ F.w) ||| ((ty <<< F.m) % 2 ^ F.w)
  (if sign then iv else negate F iv, r.2)

/-- A caller that stores several values one after the other, each with its own length (the use that
src/sz_compress_cp_preserve_3d.cpp L889-892 shows in comments). -/
def encodeAll (F : Fmt) : List (Nat × Nat) → BitBuf → List EncOut × BitBuf
  | [], b => ([], b)
  | (v, res) :: vs, b =>
    let r := encode F v res b
    let q := encodeAll F vs r.2
    (r.1 :: q.1, q.2)

/-- The matching reader: lengths known, signs and exponents from their arrays.
(include/sz_decompression_utils.hpp L6-32.) -/
def decodeAll (F : Fmt) (mem : Nat → Nat) :
    List (Nat × Bool × Nat) → Nat → Nat → List Nat × Nat × Nat
  | [], dst, pos => ([], dst, pos)
  | (res, s, ty) :: ls, dst, pos =>
    let r := decode F mem res s ty dst pos
    let q := decodeAll F mem ls r.2.1 r.2.2
    (r.1 :: q.1, q.2)

end CpSZ.Residue
