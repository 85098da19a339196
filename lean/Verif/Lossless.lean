import Verif.FloatErr
import Verif.Block.Codec

/-!
# The lossless stage and the drivers around `sz_compress_2d_with_eb`

src/sz_lossless.cpp wraps zstd.  zstd itself is not part of the repository: it is a pair of
functions, about which only the promises of its manual are assumed (`Contract`).
-/

namespace CpSZ.Lossless

open CpSZ.Block

/-- `ZSTD_compress(dst, cap, src, |src|, level)` and `ZSTD_decompress(dst, cap, src, |src|)`: the
bytes written to `dst`, or the error code that is returned as a size. -/
structure Zstd where
  compress : (level cap : Nat) → List Byte → Except Nat (List Byte)
  decompress : (cap : Nat) → List Byte → Except Nat (List Byte)

/-- `ZSTD_COMPRESSBOUND` of zstd.h. -/
def compressBound (n : Nat) : Nat :=
  n + n / 2 ^ 8 + (if n < 2 ^ 17 then (2 ^ 17 - n) / 2 ^ 11 else 0)

/-- What the manual of zstd promises: never more than `cap` bytes are written; compression
succeeds if `cap` is at least `ZSTD_compressBound`; what was compressed decompresses, into a
block that is large enough, to the original; error codes are the 120 largest values of `size_t`. -/
structure Contract (Z : Zstd) : Prop where
  fits : ∀ l cap x y, Z.compress l cap x = .ok y → y.length ≤ cap
  succeeds : ∀ l cap x, compressBound x.length ≤ cap → ∃ y, Z.compress l cap x = .ok y
  inverse : ∀ l cap x y, Z.compress l cap x = .ok y → ∀ cap', x.length ≤ cap' →
    Z.decompress cap' y = .ok x
  dfits : ∀ cap x y, Z.decompress cap x = .ok y → y.length ≤ cap
  error : ∀ l cap x e, Z.compress l cap x = .error e → 2 ^ 64 - 120 ≤ e

/-- The double literal `1.2`. -/
noncomputable def c12 : ℝ := 5404319552844595 / 4503599627370496

/-- `estimatedCompressedSize` (src/sz_lossless.cpp L18-21): the length is converted to `double`,
multiplied and truncated; `rD` rounds to `double`.  Lengths of `2^63` and more, for which the conversion
back may overflow, are not considered. -/
noncomputable def estimate (rD : ℝ → ℝ) (n : Nat) : Nat :=
  if n < 100 then 200 else ⌊rD (rD n * c12)⌋₊

/-- A block from `malloc`: its content is whatever `junk` says.  (src/sz_lossless.cpp L11-62.) -/
def fresh (junk : Nat → Byte) (n : Nat) : List Byte := (List.range n).map junk

/-- A block after `x` was written to its beginning.  (src/sz_lossless.cpp L11-62.) -/
def over (x block : List Byte) : List Byte := x ++ block.drop x.length

/-- `ZSTD_COMPRESSOR` (include/sz_lossless.hpp L9). -/
def ZSTD_COMPRESSOR : Nat := 1

/-- `sz_lossless_compress` (src/sz_lossless.cpp L11-29): the returned size and the new content of
`*compressBytes` (`none`: the pointer is not set).  `cap` is the capacity as a function of the
length. -/
def losslessCompress (Z : Zstd) (cap : Nat → Nat) (junk : Nat → Byte) (comp level : Nat)
    (data : List Byte) : Nat × Option (List Byte) :=
  if comp = ZSTD_COMPRESSOR then
    match Z.compress level (cap data.length) data with
    | .ok y => (y.length, some (over y (fresh junk (cap data.length))))
    | .error e => (e, some (fresh junk (cap data.length)))
  else (0, none)

/-- `sz_lossless_decompress` (src/sz_lossless.cpp L31-45) on a block `buf` of which `cmpSize` bytes
are passed to zstd; reading beyond the block is `none`.  The result of `ZSTD_decompress` is
ignored. -/
def losslessDecompress (Z : Zstd) (junk : Nat → Byte) (comp : Nat) (buf : List Byte)
    (cmpSize target : Nat) : Option (Nat × Option (List Byte)) :=
  if comp = ZSTD_COMPRESSOR then
    if cmpSize ≤ buf.length then
      match Z.decompress target (buf.take cmpSize) with
      | .ok x => some (target, some (over x (fresh junk target)))
      | .error _ => some (target, some (fresh junk target))
    else none
  else some (0, none)

/-- `sz_lossless_decompress65536bytes` (src/sz_lossless.cpp L47-62): the same with a zeroed block of
65536 bytes. -/
def losslessDecompress64k (Z : Zstd) (comp : Nat) (buf : List Byte) (cmpSize : Nat) :
    Option (Nat × Option (List Byte)) :=
  if comp = ZSTD_COMPRESSOR then
    if cmpSize ≤ buf.length then
      match Z.decompress 65536 (buf.take cmpSize) with
      | .ok x => some (65536, some (over x (fresh (fun _ => 0) 65536)))
      | .error _ => some (65536, some (fresh (fun _ => 0) 65536))
    else none
  else some (0, none)

/-- Both wrappers in a row, as every driver in test/ calls them: compress a buffer, free it,
decompress into a block of the old size.  (test/sz_compress_2d_with_eb.cpp L30-79.) -/
def through (Z : Zstd) (cap : Nat → Nat) (j1 j2 : Nat → Byte) (data : List Byte) :
    Option (List Byte) :=
  match losslessCompress Z cap j1 ZSTD_COMPRESSOR 3 data with
  | (size, some buf) =>
    match losslessDecompress Z j2 ZSTD_COMPRESSOR buf size data.length with
    | some (_, some out) => some out
    | _ => none
  | _ => none

/-! ### Drivers -/

variable {T F D : Type}

/-- What the final loop of a driver finds.  (test/sz_compress_2d_with_eb.cpp L69-74.) -/
inductive Outcome
  | ok
  /-- `exit(0)` after the message about element `i` -/
  | violated (i : Nat)
  deriving DecidableEq

/-- The final loop: stop at the first element with `bad i`. 
(test/sz_compress_2d_with_eb.cpp L69-74.) -/
def check (bad : Nat → Bool) (n : Nat) : Outcome :=
  match (List.range n).find? bad with
  | some i => .violated i
  | none => .ok

theorem check_ok {bad : Nat → Bool} {n : Nat} (h : ∀ i < n, bad i = false) :
    check bad n = .ok := by
  unfold check
  rw [List.find?_eq_none.2 fun i hi => by simp [h i (List.mem_range.1 hi)]]

/-- `main` of test/sz_compress_2d_with_eb.cpp (L30-79) after the bounds are read and, on request,
quantised (`prec`): compression with the default block size 12, both lossless wrappers, decompression
and the comparison `fabs(data[i] - dec_data[i]) > eb[i]` of L69-74.  The number of elements is taken to be
`r1*r2`.  `gt` is `>` on `double`. -/
def driverEb2 (B : BOps T F D) (f : Fmt T F D) (gt : D → D → Bool) (Z : Zstd) (cap : Nat → Nat)
    (j1 j2 : Nat → Byte) (E1 E2 : Env) (data : Nat → T) (prec : Nat → D) (r1 r2 : Nat)
    (out0 : Nat → T) : Option Outcome := do
  let bytes ← compressEb2 B f E1 E2 data prec r1 r2 12 false
  let bytes' ← through Z cap j1 j2 bytes
  let dec ← decompressEb2 B f prec r1 r2 out0 bytes'
  return check (fun i => gt (B.O.dist (data i) (dec i)) (prec i)) (r1 * r2)

/-- `quantize_and_compress_eb` (test/sz_compress_2d_with_eb.cpp L11-28), effect on the bounds: they are
replaced by their quantised values, base 2. -/
def quantEbs (O : DOps D) (log2of2 thr : D) (eb : Nat → D) : Nat → D :=
  fun i => (ebQuant O 2 log2of2 thr (eb i)).1

/-- `quantize_and_compress_eb` (test/sz_compress_2d_with_eb.cpp L15-21): the bytes written to `tmp`, a
block of `4*n` bytes. -/
def quantEbBytes (O : DOps D) (E : Env) (log2of2 thr : D) (eb : Nat → D) (n : Nat) :
    Option (List Byte) :=
  encInts E (2 * 1024) ((List.range n).map fun i => (ebQuant O 2 log2of2 thr (eb i)).2)

/-- Bounds in test/sz_compress_test_with_eb.cpp (L38-58): `tmp[i]*fabs(data[i])`, zero below the
threshold, otherwise rounded down to a power of `inc` times the threshold with an exponent of at most
255. -/
def relBound (O : DOps D) (logInc thr : D) (inc : Int) (rel x : D) : D :=
  let p := O.mul rel (O.abs x)
  if O.lt p thr then O.ofInt 0
  else
    let id := O.trunc (O.div (O.log2 (O.div p thr)) logInc)
    let id := if 255 < id then 255 else id
    O.mul (O.pow inc id) thr

/-- The comparison of test/sz_compress_test_with_eb.cpp L89-91: `precisions[i] > 0` and
`fabs((dec_data[i] - data[i])/data[i]) > tmp[i]`. -/
def relBad (O : DOps D) (prec rel data dec : D) : Bool :=
  O.lt (O.ofInt 0) prec && O.lt rel (O.abs (O.div (O.sub dec data) data))

end CpSZ.Lossless
