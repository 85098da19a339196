import Verif.Block.Codec
import Verif.BitPack
/-
The 2D offline modes: src/sz_compress_cp_preserve_2d.cpp L172-367 and
src/sz_decompress_cp_preserve_2d.cpp L8-99.  Bounds are computed for all vertices first; the
components then go through the block codec with one bound per point.
-/

namespace CpSZ.Offline2D

open CpSZ.Block

variable {T F D : Type}

/-! ### Bounds of all vertices -/

/-- `offset_upper` (`false`) and `offset_lower` (`true`)
(src/sz_compress_cp_preserve_2d.cpp L186-187). -/
def cellOff (r2 : Nat) (k : Bool) : List Nat :=
  if k then [0, 1, r2 + 1] else [0, r2, r2 + 1]

/-- The three updates `eb[o] = MINF(eb[o], max_cur_eb)`
(src/sz_compress_cp_preserve_2d.cpp L201-203). -/
def lower (lt : D → D → Bool) (cur : D) (eb : Nat → D) (ps : List Nat) : Nat → D :=
  ps.foldl (fun eb p q => if q = p then (if lt (eb p) cur then eb p else cur) else eb q) eb

/-- The loops of src/sz_compress_cp_preserve_2d.cpp L189-212.  `cur p k` is the bound of triangle
`k` of the cell with first vertex `p`, L198-200.  The model covers grids with at least one row and
one column; for none the `size_t` loop limit wraps around. -/
def ebSweep (lt : D → D → Bool) (cur : Nat → Bool → D) (r1 r2 : Nat) (eb0 : D) : Nat → D :=
  (List.range (r1 - 1)).foldl (fun eb i =>
    (List.range (r2 - 1)).foldl (fun eb j =>
      [false, true].foldl (fun eb k =>
        lower lt (cur (i * r2 + j) k) eb ((cellOff r2 k).map (i * r2 + j + ·))) eb) eb)
    (fun _ => eb0)

/-! ### Arithmetic -/

/-- The arithmetic of the modes on values of type `T` and `double`s `D`.

* `absMul x e` — `fabs(x) * e` (src/sz_compress_cp_preserve_2d.cpp L222, L228);
* `log1p e` — `log2(1 + e)` (L332);
* `log2f`, `exp2`, `neg` — as in the code, result converted to `T`;
* `low` — the value `-100` (include/sz_cp_preserve_utils.hpp L145);
* `isLow x` — `x < -99` (src/sz_decompress_cp_preserve_2d.cpp L88, L93). -/
structure OOps (T D : Type) where
  d : DOps D
  absMul : T → D → D
  log1p : D → D
  zero : T
  isZero : T → Bool
  pos : T → Bool
  neg : T → T
  log2f : T → T
  exp2 : T → T
  low : T
  isLow : T → Bool

/-- Quantiser settings: `base`, `log2(base)` and `threshold`
(src/sz_compress_cp_preserve_2d.cpp L218-220, L328-330). -/
structure QPar (D : Type) where
  base : Nat
  logBase : D
  thr : D

/-- Bound of the decompressor (src/sz_decompress_cp_preserve_2d.cpp L31-32, L38-39, L77-78). -/
def decBound (O : DOps D) (Q : QPar D) (c : Int) : D :=
  if c = 0 then O.ofInt 0 else O.mul (O.pow Q.base c) Q.thr

/-! ### Relative mode -/

/-- Quantised bound and code of one component (src/sz_compress_cp_preserve_2d.cpp L222-225):
`eb_u[i]`, `eb_quant_index`. -/
def quantRel (O : OOps T D) (Q : QPar D) (x : T) (e : D) : D × Int :=
  let r := ebQuant O.d Q.base Q.logBase Q.thr (O.absMul x e)
  (if O.d.lt r.1 Q.thr then O.d.ofInt 0 else r.1, r.2)

/-- The first argument's codes: `eb_quant_index` (src/sz_compress_cp_preserve_2d.cpp L221-232),
first `n` for `U`, then `V`. -/
def codesRel (O : OOps T D) (Q : QPar D) (U V : Nat → T) (eb : Nat → D) (n : Nat) : List Int :=
  (List.range n).map (fun i => (quantRel O Q (U i) (eb i)).2) ++
    (List.range n).map (fun i => (quantRel O Q (V i) (eb i)).2)

/-- Environments of the five entropy coder calls.  (src/sz_compress_cp_preserve_2d.cpp L214-262.) -/
structure Envs where
  eb : Env
  u1 : Env
  u2 : Env
  v1 : Env
  v2 : Env

/-- Result of a compressor: the bytes written through `compressed_pos` and the value of
`compressed_size`, which is also the size of the allocation. 
(src/sz_compress_cp_preserve_2d.cpp L214-262.) -/
structure Result where
  bytes : List Byte
  size : Nat

/-- `sz_compress_cp_preserve_2d_offline` after the bounds
(src/sz_compress_cp_preserve_2d.cpp L214-262); `eb` is `ebSweep`, `bs` the block size of
`sz_compress_2d_with_eb`, `indep` its flag.
`2*1024` states. -/
def compressOff (O : OOps T D) (Q : QPar D) (B : BOps T F D) (f : Fmt T F D) (E : Envs)
    (U V : Nat → T) (eb : Nat → D) (r1 r2 bs : Nat) (indep : Bool) : Option Result := do
  let c ← encInts E.eb 2048 (codesRel O Q U V eb (r1 * r2))
  let u ← compressEb2 B f E.u1 E.u2 U (fun i => (quantRel O Q (U i) (eb i)).1) r1 r2 bs indep
  let v ← compressEb2 B f E.v1 E.v2 V (fun i => (quantRel O Q (V i) (eb i)).1) r1 r2 bs indep
  return ⟨leBytes 4 Q.base ++ (f.cD.enc Q.thr ++ (leBytes 8 c.length ++ (leBytes 8 u.length ++
      (leBytes 8 v.length ++ (c ++ (u ++ v)))))),
    4 + 8 + c.length + 8 + u.length + 8 + v.length⟩

/-- `sz_decompress_cp_preserve_2d_offline` (src/sz_decompress_cp_preserve_2d.cpp L8-44); `o1`,
`o2` are the contents of the freshly allocated outputs. -/
def decompressOff (O : OOps T D) (logBase : D) (B : BOps T F D) (f : Fmt T F D) (r1 r2 : Nat)
    (o1 o2 : Nat → T) (bytes : List Byte) : Option ((Nat → T) × (Nat → T)) := do
  let (base, bytes) ← readLE 4 bytes
  let (thr, bytes) ← readVar f.cD bytes
  let (_, bytes) ← readLE 8 bytes
  let (us, bytes) ← readLE 8 bytes
  let (_, bytes) ← readLE 8 bytes
  let (type, bytes) ← decInts 2048 (2 * (r1 * r2)) bytes
  let U ← decompressEb2 B f (fun i => decBound O.d ⟨base, logBase, thr⟩ (type.getD i 0))
    r1 r2 o1 bytes
  let V ← decompressEb2 B f
    (fun i => decBound O.d ⟨base, logBase, thr⟩ (type.getD (r1 * r2 + i) 0))
    r1 r2 o2 (bytes.drop us)
  return (U, V)

/-! ### Logarithmic mode -/

/-- Quantised bound and code of one vertex (src/sz_compress_cp_preserve_2d.cpp L331-335). -/
def quantLog (O : OOps T D) (Q : QPar D) (e : D) : D × Int :=
  ebQuant O.d Q.base Q.logBase Q.thr (O.log1p e)

/-- The codes of the bounds (src/sz_compress_cp_preserve_2d.cpp L331-335). -/
def codesLog (O : OOps T D) (Q : QPar D) (eb : Nat → D) (n : Nat) : List Int :=
  (List.range n).map fun i => (quantLog O Q (eb i)).2

/-- `sign[i]` of `log_transform` (include/sz_cp_preserve_utils.hpp L139-146). -/
def signOf (O : OOps T D) (x : T) : Bool := !O.isZero x && O.pos x

/-- `log_data[i]` of `log_transform`.  (include/sz_cp_preserve_utils.hpp L139-146.) -/
def logOf (O : OOps T D) (x : T) : T :=
  if O.isZero x then O.low else O.log2f (if O.pos x then x else O.neg x)

/-- The sign array of `log_transform` (include/sz_cp_preserve_utils.hpp L133-149). -/
def signs (O : OOps T D) (data : Nat → T) (n : Nat) : List Byte :=
  (List.range n).map fun i => if signOf O (data i) then 1#8 else 0#8

/-- `sz_compress_cp_preserve_2d_offline_log` after the bounds
(src/sz_compress_cp_preserve_2d.cpp L315-367). -/
def compressLog (O : OOps T D) (Q : QPar D) (B : BOps T F D) (f : Fmt T F D) (E : Envs)
    (U V : Nat → T) (eb : Nat → D) (r1 r2 bs : Nat) (indep : Bool) : Option Result := do
  let c ← encInts E.eb 2048 (codesLog O Q eb (r1 * r2))
  let u ← compressEb2 B f E.u1 E.u2 (fun i => logOf O (U i)) (fun i => (quantLog O Q (eb i)).1)
    r1 r2 bs indep
  let v ← compressEb2 B f E.v1 E.v2 (fun i => logOf O (V i)) (fun i => (quantLog O Q (eb i)).1)
    r1 r2 bs indep
  return ⟨leBytes 4 Q.base ++ (f.cD.enc Q.thr ++ (leBytes 8 c.length ++ (leBytes 8 u.length ++
      (leBytes 8 v.length ++ (c ++ (packFlags (signs O U (r1 * r2)) ++
        (packFlags (signs O V (r1 * r2)) ++ (u ++ v)))))))),
    4 + 2 * ((r1 * r2 - 1) / 8 + 1) + 8 + 8 + c.length + 8 + u.length + 8 + v.length⟩

/-- One decoded value (src/sz_decompress_cp_preserve_2d.cpp L88-89, L93-94). -/
def post (O : OOps T D) (sign : Bool) (l : T) : T :=
  if O.isLow l then O.zero else if sign then O.exp2 l else O.neg (O.exp2 l)

/-- `sz_decompress_cp_preserve_2d_offline_log` (src/sz_decompress_cp_preserve_2d.cpp L54-99). -/
def decompressLog (O : OOps T D) (logBase : D) (B : BOps T F D) (f : Fmt T F D) (r1 r2 : Nat)
    (o1 o2 : Nat → T) (bytes : List Byte) : Option ((Nat → T) × (Nat → T)) := do
  let (base, bytes) ← readLE 4 bytes
  let (thr, bytes) ← readVar f.cD bytes
  let (_, bytes) ← readLE 8 bytes
  let (us, bytes) ← readLE 8 bytes
  let (_, bytes) ← readLE 8 bytes
  let (type, bytes) ← decInts 2048 (r1 * r2) bytes
  let (su, bytes) ← unpackFlags (r1 * r2) ((r1 * r2 - 1) / 8 + 1) bytes
  let (sv, bytes) ← unpackFlags (r1 * r2) ((r1 * r2 - 1) / 8 + 1) bytes
  let U ← decompressEb2 B f (fun i => decBound O.d ⟨base, logBase, thr⟩ (type.getD i 0))
    r1 r2 o1 bytes
  let V ← decompressEb2 B f (fun i => decBound O.d ⟨base, logBase, thr⟩ (type.getD i 0))
    r1 r2 o2 (bytes.drop us)
  return (fun i => post O (su.getD i 0#8 != 0#8) (U i),
    fun i => post O (sv.getD i 0#8 != 0#8) (V i))

/-! ### The traversals without bytes -/

/-- What the traversal of `sz_decompress_2d_with_eb` with bounds `precD` makes of the symbols
of `sz_compress_2d_with_eb` with bounds `precC`.  (src/sz_compress_3d.cpp L196-236;
src/sz_decompress_3d.cpp L125-155.) -/
def runEb (B : BOps T F D) (data : Nat → T) (precC precD : Nat → D) (r1 r2 bs : Nat)
    (out0 : Nat → T) : Option (Nat → T) :=
  (runDec (cfg2 B r2 bs (false, B.zeroT) 32768 precD true B.tenth
      (fun _ _ _ _ => none)) (planD2 r1 r2 bs)
    ⟨fun _ => B.zeroT, none, (outEb2 B data precC r1 r2 bs).ind,
      (outEb2 B data precC r1 r2 bs).coefs, (outEb2 B data precC r1 r2 bs).ty,
      (outEb2 B data precC r1 r2 bs).un, out0⟩).map (·.out)

/-- Relative mode: decompressor after compressor for one component.
(src/sz_compress_cp_preserve_2d.cpp L172-262; src/sz_decompress_cp_preserve_2d.cpp L8-44.) -/
def runRel (O : OOps T D) (Q : QPar D) (B : BOps T F D) (data : Nat → T) (eb : Nat → D)
    (r1 r2 bs : Nat) (out0 : Nat → T) : Option (Nat → T) :=
  runEb B data (fun i => (quantRel O Q (data i) (eb i)).1)
    (fun i => decBound O.d Q (quantRel O Q (data i) (eb i)).2) r1 r2 bs out0

/-- Logarithmic mode: decompressor after compressor for one component.
(src/sz_compress_cp_preserve_2d.cpp L272-367; src/sz_decompress_cp_preserve_2d.cpp L54-99.) -/
def runLog (O : OOps T D) (Q : QPar D) (B : BOps T F D) (data : Nat → T) (eb : Nat → D)
    (r1 r2 bs : Nat) (out0 : Nat → T) : Option (Nat → T) :=
  (runEb B (fun i => logOf O (data i)) (fun i => (quantLog O Q (eb i)).1)
    (fun i => decBound O.d Q (quantLog O Q (eb i)).2) r1 r2 bs out0).map
      fun o p => post O (signOf O (data p)) (o p)

end CpSZ.Offline2D
