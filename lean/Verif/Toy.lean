import Verif.Arith
import Verif.Bytes
/-
A small computable arithmetic (64-bit signed integers) for concrete examples of the theorems
that hold for any arithmetic.
-/

namespace CpSZ

/-- Signed 64-bit integers standing in for both `T` and `double`. -/
def toyOps : Ops (BitVec 64) (BitVec 64) where
  ofInt n := BitVec.ofInt 64 n
  add a b := a + b
  sub a b := a - b
  mul a b := a * b
  div a b := a.sdiv b
  neg a := -a
  abs a := if a.slt 0#64 then -a else a
  lt a b := a.slt b
  le a b := a.sle b
  trunc a := a.toInt
  log2 a := BitVec.ofNat 64 a.toNat.log2
  pow b n := BitVec.ofInt 64 (b ^ n.toNat)
  zeroT := 0#64
  addT a b := a + b
  subT a b := a - b
  toD := id
  ofD := id

def toyCodec : Codec (BitVec 64) := wordCodec 8

end CpSZ
