import Verif.Drivers
import Verif.ThreeD.Unstructured

/-!
# The driver of the mode for unstructured meshes

test/sz_compress_cp_preserve_3d_unstructured_test.cpp, from the files of the mesh and of the data to
the file `*.out`.  The numbers of points and tetrahedra are natural numbers; messages and clock are
left out.
-/

namespace CpSZ.Drivers

open CpSZ CpSZ.Extract

variable {T D : Type}

/-- A component array as it lies in the file: the three components of a vertex one after the other.
(test/sz_compress_cp_preserve_3d_unstructured_test.cpp L45, L47.) -/
def interleave (n : Nat) (d : Nat → Nat → T) : List T :=
  (List.range (3 * n)).map fun i => d (i % 3) (i / 3)

/-- `data[3*q + k]` (src/sz_compress_cp_preserve_3d.cpp L1049-1053). -/
def viewU (junk : T) (ds : List T) : Nat → Nat → T := fun k q => ds.getD (3 * q + k) junk

/-- `tets_ind[k]` (src/sz_compress_cp_preserve_3d.cpp L994-1005). -/
def indsOf (ts : List (BitVec 32)) : Nat → Int := fun k => (ts.getD k 0#32).toInt

/-- `main` of test/sz_compress_cp_preserve_3d_unstructured_test.cpp L8-54: `comp n m inds data` is the
compressor for `n` points and `m` tetrahedra, `dec n m0` the decompressor.  `none` is undefined
behaviour, a failing call or a failing `assert`: a file that does not exist, a number of indices that
is no multiple of 4 or a number of coordinates that is no multiple of 3, data for fewer vertices
than there are points, no points at all (`verify` reads the first element), a block that is written
beyond its end.  The number of data is not compared with the number of points. -/
def driveU (comp : Nat → Nat → (Nat → Int) → (Nat → Nat → T) → Option (Out T))
    (dec : Nat → (Nat → Nat → T) → List Byte → Option (Nat → Nat → T)) (c : Codec T)
    (lossless : List Byte → Option (List Byte)) (junk : T) (m0 : Nat → Nat → T)
    (points data tets : String) (fs : FS) : Option FS := do
  let ts ← fs.read (wordCodec 4) tets
  if ts.length % 4 = 0 then
    let ps ← fs.read c points
    if ps.length % 3 = 0 then
      let n := ps.length / 3
      let ds ← fs.read c data
      if 0 < n ∧ 3 * n ≤ ds.length then
        let out ← comp n (ts.length / 4) (indsOf ts) (viewU junk ds)
        if out.bytes.length ≤ out.alloc then
          let buf ← lossless (out.bytes.take out.reported)
          let d ← dec n m0 buf
          return fs.write (data ++ ".out") (writeArray c (interleave n d))
        else none
      else none
    else none
  else none

/-- `sz_compress_cp_preserve_3d_unstructured` (src/sz_compress_cp_preserve_3d.cpp L1009-1145); the
block has `3*n*sizeof(T)` bytes (L1118).  `points` is not used. -/
def compU (L : VMode.LOps T D) (c : Codec T) (E1 E2 : Env) (logBase thr tiny : D)
    (base radius : Int) (maxEb : D)
    (derive : (Nat → T) → (Nat → T) → (Nat → T) → (Nat → T) → D) (n m : Nat) (inds : Nat → Int)
    (f : Nat → Nat → T) : Option (Out T) := do
  let adj ← ThreeD.pointTets n m inds
  let x ← ThreeD.compressBytesU L c E1 E2
    (ThreeD.logMode3 L logBase thr (ThreeD.predPrev L.toOps)) base radius
    (ThreeD.planLog3 L tiny 0 fun f p => some (ThreeD.boundU L.toDOps inds adj maxEb derive f p)) n f
  return ⟨x.1, x.2, x.2.length, 3 * n * c.size⟩

/-- `sz_decompress_cp_preserve_3d_unstructured` (src/sz_decompress_cp_preserve_3d.cpp L120-196). -/
def decU (L : VMode.LOps T D) (c : Codec T) (logBase thr : D) (n : Nat) (m0 : Nat → Nat → T)
    (bs : List Byte) : Option (Nat → Nat → T) :=
  ThreeD.decompressBytesU L c (ThreeD.logMode3 L logBase thr (ThreeD.predPrev L.toOps)) n m0 bs

end CpSZ.Drivers
