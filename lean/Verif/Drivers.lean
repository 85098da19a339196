import Verif.Lossless
import Verif.Extract.Files
import Verif.Online2D.Bytes
import Verif.Sz3.Model
import Verif.VMode.Log
import Verif.ThreeD.Modes
import Verif.Offline2D.Model

/-!
# The drivers of the critical-point preserving modes

test/sz_compress_cp_preserve_2d_test.cpp and test/sz_compress_cp_preserve_3d_test.cpp, from the files
of the components to the files `*.out`.  The grid sizes are natural numbers.  The messages, the
clock and `exit` are left out; of `verify` (include/utils.hpp L51-108) only the elements it reads
matter here (its figures are in Verif/Verify.lean).
-/

namespace CpSZ.Drivers

open CpSZ CpSZ.Extract CpSZ.Block

variable {T F D : Type}

/-- What a compressor leaves behind: its reconstruction, the bytes written through
`compressed_pos`, the value of `compressed_size` and the size of the allocated block. -/
structure Out (T : Type) where
  recon : Nat → Nat → T
  bytes : List Byte
  reported : Nat
  alloc : Nat

/-- A compressor together with the decompressor a driver calls: `n` vertices, component `k` of vertex
`q` is `f k q`; `m0` is the content of the freshly allocated outputs. -/
structure Mode (T : Type) where
  n : Nat
  compress : (Nat → Nat → T) → Option (Out T)
  decompress : (m0 : Nat → Nat → T) → List Byte → Option (Nat → Nat → T)

/-- The arrays that a compressor sees; what lies behind the end is never read by the code, here it
is `junk`. -/
def view (junk : T) (inputs : List (List T)) : Nat → Nat → T :=
  fun k q => (inputs.getD k []).getD q junk

/-- The calls of `writefile` (test/sz_compress_cp_preserve_2d_test.cpp L51-52,
test/sz_compress_cp_preserve_3d_test.cpp L53-55). -/
def writeOuts (c : Codec T) (num : Nat) (d : Nat → Nat → T) : List String → Nat → FS → FS
  | [], _, fs => fs
  | name :: names, k, fs =>
    writeOuts c num d names (k + 1)
      (fs.write (name ++ ".out") (writeArray c ((List.range num).map (d k))))

/-- `main` of test/sz_compress_cp_preserve_2d_test.cpp L7-58 (two names) and
test/sz_compress_cp_preserve_3d_test.cpp L7-63 (three names).  `lossless` is `sz_lossless_compress`
followed by `sz_lossless_decompress`.  `none` is undefined behaviour or a failing call: a file that
does not exist, arrays that are shorter than the grid, a block that is written beyond its end, `verify`
and `writefile` reading more elements than the arrays have.  `num_elements` is the one of the file read
last. -/
def drive (M : Mode T) (c : Codec T) (lossless : List Byte → Option (List Byte)) (junk : T)
    (m0 : Nat → Nat → T) (names : List String) (fs : FS) : Option FS := do
  let inputs ← names.mapM (fs.read c)
  let num := (inputs.getLastD []).length
  if inputs.all fun x => M.n ≤ x.length then
    let out ← M.compress (view junk inputs)
    if out.bytes.length ≤ out.alloc then
      let buf ← lossless (out.bytes.take out.reported)
      let d ← M.decompress m0 buf
      if 0 < num ∧ num ≤ M.n ∧ (inputs.all fun x => num ≤ x.length) then
        return writeOuts c num d names 0 fs
      else none
    else none
  else none

/-! ### The modes -/

/-- Two arrays as a field. -/
def toField (f : Nat → Nat → T) : Online2D.Field T := ⟨f 0, f 1⟩

/-- A field as two arrays. -/
def ofField (f : Online2D.Field T) : Nat → Nat → T := fun k => if k = 0 then f.u else f.v

/-- `sz3_compress_cp_preserve_2d_online_abs` and `sz3_decompress_cp_preserve_2d_online`, the pair that is
active in the 2D driver (test/sz_compress_cp_preserve_2d_test.cpp L27, L43); the block has `2*num_elements*sizeof(T)` bytes
(src/sz_compress_cp_preserve_2d.cpp L1798). -/
def modeSz3 (S : Sz3.SOps T D) (c : Codec T) (cD : Codec D) (E1 E2 : Env) (P : Sz3.Par D)
    (r1 r2 : Nat) (bound : Sz3.Fld T → Sz3.Ev → D → Option D) : Mode T where
  n := r1 * r2
  compress f := (Sz3.compressBytes S c cD E1 E2 P r1 r2 bound (toField f)).map fun x =>
    ⟨ofField x.1, x.2, x.2.length, 2 * (r1 * r2) * c.size⟩
  decompress m0 bs := (Sz3.decompressBytes S c cD r1 r2 (toField m0) bs).map ofField

/-- `sz_compress_cp_preserve_2d_online` and `..._online_abs` with
`sz_decompress_cp_preserve_2d_online` (2D driver L22-23, L41); the blocks have
`2*num_elements*sizeof(T)` bytes (src/sz_compress_cp_preserve_2d.cpp L699, L1227). -/
def modeOnline (O : Ops T D) (c : Codec T) (cD : Codec D) (E1 E2 : Env) (P : Online2D.Par D)
    (r1 r2 : Nat) (absEb : D → T → D) (bound : Online2D.Field T → Nat → Option D) : Mode T where
  n := r1 * r2
  compress f := (Online2D.compressBytes O c cD E1 E2 P r1 r2 absEb bound (toField f)).map fun x =>
    ⟨ofField x.1, x.2, x.2.length, 2 * (r1 * r2) * c.size⟩
  decompress m0 bs :=
    (Online2D.decompressBytes O c cD P.logBase r1 r2 (toField m0) bs).map ofField

/-- `sz_compress_cp_preserve_2d_online_log` with `sz_decompress_cp_preserve_2d_online_log` (2D driver
L26, L42); the block has `2*num_elements*sizeof(T)` bytes
(src/sz_compress_cp_preserve_2d.cpp L964). -/
def modeLog2 (L : VMode.LOps T D) (c : Codec T) (E1 E2 : Env) (logBase thr : D) (r1 r2 : Nat)
    (base radius : Int) (bound : Online2D.Field T → Nat → Option D) : Mode T where
  n := r1 * r2
  compress f := (VMode.compressBytes L c E1 E2 (2 * 1024) false (VMode.mode2 L logBase thr r2) base
      radius (VMode.plan2 L bound) (r1 * r2) (VMode.arr2 (toField f))).map fun x =>
    ⟨x.1, x.2, x.2.length, 2 * (r1 * r2) * c.size⟩
  decompress m0 bs := VMode.decompressBytes L c (2 * 1024) false 2 (VMode.mode2 L logBase thr r2)
    (r1 * r2) m0 bs

/-- `sz_compress_cp_preserve_3d_online_log` with `sz_decompress_cp_preserve_3d_online_log` (3D driver
L27, L41); the block has `3*num_elements*sizeof(T)` bytes
(src/sz_compress_cp_preserve_3d.cpp L936). -/
def modeLog3 (L : VMode.LOps T D) (c : Codec T) (E1 E2 : Env) (logBase thr tiny : D)
    (r1 r2 r3 : Nat) (base radius : Int) (bound : VMode.Arr T → Nat → Option D) : Mode T where
  n := r1 * r2 * r3
  compress f := (VMode.compressBytes L c E1 E2 (2 * 256) true
      (ThreeD.logMode3 L logBase thr (ThreeD.lorenzo3 L.toOps r2 r3)) base radius
      (ThreeD.planLog3 L tiny (ThreeD.escMax L.toDOps logBase thr) bound) (r1 * r2 * r3) f).map fun x =>
    ⟨x.1, x.2, x.2.length, 3 * (r1 * r2 * r3) * c.size⟩
  decompress m0 bs := VMode.decompressBytes L c (2 * 256) true 3
    (ThreeD.logMode3 L logBase thr (ThreeD.lorenzo3 L.toOps r2 r3)) (r1 * r2 * r3) m0 bs

/-- `sz_compress_cp_preserve_3d_online_abs` and `sz_decompress_cp_preserve_3d_online_abs`, the pair that
is active in the 3D driver (L28, L42); the block has `3*num_elements*sizeof(T)` bytes
(src/sz_compress_cp_preserve_3d.cpp L1455). -/
def modeAbs3 (O : Ops T D) (c : Codec T) (cD : Codec D) (E1 E2 : Env) (logBase thr lb : D)
    (r1 r2 r3 : Nat) (base radius : Int)
    (plan : VMode.State T → Nat → Option (VMode.Plan D)) : Mode T where
  n := r1 * r2 * r3
  compress f := (ThreeD.compressBytesAbs3 c cD E1 E2 O logBase thr r2 r3 base radius plan
      (r1 * r2 * r3) f).map fun x => ⟨x.1, x.2, x.2.length, 3 * (r1 * r2 * r3) * c.size⟩
  decompress m0 bs := ThreeD.decompressBytesAbs3 c cD O lb r2 r3 (r1 * r2 * r3) m0 bs

/-- `sz_compress_cp_preserve_2d_offline` and `sz_decompress_cp_preserve_2d_offline` (2D driver L20,
L39) after the bounds `eb`; the block has `compressed_size` bytes
(src/sz_compress_cp_preserve_2d.cpp L246-247).  The compressor keeps no reconstruction; `recon` is its
input. -/
def modeOffline (O : Offline2D.OOps T D) (Q : Offline2D.QPar D) (B : BOps T F D) (f : Fmt T F D)
    (E : Offline2D.Envs) (eb : (Nat → T) → (Nat → T) → Option (Nat → D)) (r1 r2 bs : Nat)
    (indep : Bool) : Mode T where
  n := r1 * r2
  compress g := do
    let e ← eb (g 0) (g 1)
    let r ← Offline2D.compressOff O Q B f E (g 0) (g 1) e r1 r2 bs indep
    return ⟨g, r.bytes, r.size, r.size⟩
  decompress m0 bytes :=
    (Offline2D.decompressOff O Q.logBase B f r1 r2 (m0 0) (m0 1) bytes).map fun x =>
      fun k => if k = 0 then x.1 else x.2

end CpSZ.Drivers
