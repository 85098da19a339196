import Verif.Bytes
import Verif.Extract.Report
/-
The files in which the extraction tools keep critical points: `readfile`, `writefile`,
`record_criticalpoints`, `read_criticalpoints`, and the files a run of the 2D tool writes
(test/cp_extraction_2d.cpp L149-218, L228-231, L300-310; test/cp_extraction_3d.cpp L211-281,
L304-307, L383-390).  A file system is a partial map from names to contents; failing writes are not
modelled.  `double` is an arbitrary type with a codec.
-/

namespace CpSZ.Extract

/-- What a run sees of the file system.  (test/cp_extraction_2d.cpp L149-171;
test/cp_extraction_3d.cpp L211-233.) -/
abbrev FS := String → Option (List Byte)

/-- `writefile` (test/cp_extraction_2d.cpp L166-171, test/cp_extraction_3d.cpp L228-233). -/
def FS.write (fs : FS) (name : String) (bs : List Byte) : FS :=
  fun n => if n = name then some bs else fs n

/-- `readfile` (test/cp_extraction_2d.cpp L149-164, test/cp_extraction_3d.cpp L211-226): as many
elements as fit into the length of the file; a missing file gives the null pointer (`none`). -/
def FS.read {α : Type} (fs : FS) (c : Codec α) (name : String) : Option (List α) := do
  let bs ← fs name
  let (xs, _) ← readArray c (bs.length / c.size) bs
  return xs

/-- `critical_point_t` (test/cp_extraction_2d.cpp L16-29, test/cp_extraction_3d.cpp L23-28) without
the fields `mu` and `v`, which no function of the tools reads or sets for the points in the maps. -/
structure Pt (D : Type) where
  x : List D
  type : BitVec 32
  sid : BitVec 64
  deriving DecidableEq

/-- The map key of a simplex number: conversion of `size_t` to the key type `int`, as the pattern of
32 bits. -/
def Pt.key {D : Type} (p : Pt D) : Nat := p.sid.toNat % 2 ^ 32

variable {D : Type}

/-- `record_criticalpoints` (test/cp_extraction_2d.cpp L195-218,
test/cp_extraction_3d.cpp L235-259). -/
def record (cd : Codec D) (fs : FS) (pre : String) (cps : List (Pt D)) (writeSid : Bool) : FS :=
  let fs := fs.write (pre ++ "_pos.dat") (writeArray cd (cps.flatMap (·.x)))
  let fs := fs.write (pre ++ "_type.dat") (writeArray (wordCodec 4) (cps.map (·.type)))
  if writeSid then fs.write (pre ++ "_sid.dat") (writeArray (wordCodec 8) (cps.map (·.sid))) else fs

/-- `cps.insert(std::make_pair(k, p))`: an entry that is present is kept.
(test/cp_extraction_2d.cpp L190; test/cp_extraction_3d.cpp L273.) -/
def insertNew {C : Type} (l : List (Nat × C)) (e : Nat × C) : List (Nat × C) :=
  if l.any (fun x => x.1 == e.1) then l else l ++ [e]

/-- Element `i` of the arrays read, `d` coordinates (the loop body of `read_criticalpoints`); reading
outside an array is undefined.  (test/cp_extraction_2d.cpp L186-189;
test/cp_extraction_3d.cpp L269-272.) -/
def ptAt (d : Nat) (pos : List D) (ty : List (BitVec 32)) (sid : List (BitVec 64)) (i : Nat) :
    Option (Pt D) := do
  let x ← (List.range d).mapM fun k => pos[d * i + k]?
  let t ← ty[i]?
  let s ← sid[i]?
  return ⟨x, t, s⟩

/-- `read_criticalpoints` (test/cp_extraction_2d.cpp L178-193 with `d = 2`,
test/cp_extraction_3d.cpp L261-276 with `d = 3`).  The number of points is that of the file of simplex
numbers, read last.  A null pointer is `none` here even if no element is read through it. -/
def readPts (d : Nat) (cd : Codec D) (fs : FS) (pre : String) : Option (List (Nat × Pt D)) := do
  let pos ← fs.read cd (pre ++ "_pos.dat")
  let ty ← fs.read (wordCodec 4) (pre ++ "_type.dat")
  let sid ← fs.read (wordCodec 8) (pre ++ "_sid.dat")
  let ps ← (List.range sid.length).mapM (ptAt d pos ty sid)
  return ps.foldl (fun l p => insertNew l (p.key, p)) []

/-- `file_exists(cp_prefix + "_sid.dat")` with `cp_prefix = "origin_"`: whether the tools find
stored original points (test/cp_extraction_3d.cpp L304-305; switched off in the 2D tool, L228-229). -/
def cached (fs : FS) : Bool := (fs ("origin_" ++ "_sid.dat")).isSome

/-- The files written at the end of the 2D tool (test/cp_extraction_2d.cpp L302-310; `cp_file` is
false there); the 3D tool writes none (L383-390 are comments). -/
def writes2 (cd : Codec D) (fs : FS) (pre : String) (origin m fp fn ft : List (Pt D)) : FS :=
  let fs := record cd fs "origin_M" origin true
  let fs := if m.isEmpty then fs else record cd fs (pre ++ "_M") m false
  let fs := if fp.isEmpty then fs else record cd fs (pre ++ "_FP") fp false
  let fs := if fn.isEmpty then fs else record cd fs (pre ++ "_FN") fn false
  if ft.isEmpty then fs else record cd fs (pre ++ "_FT") ft false

end CpSZ.Extract
