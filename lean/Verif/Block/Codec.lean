import Verif.Stream
import Verif.Props.Bytes
import Verif.Block.Engine
/-
The compressed streams of the block codecs and the public functions
`sz_compress_2d_with_eb`, `sz_compress_2d`, `sz_compress_3d` (src/sz_compress_3d.cpp L79-120,
L196-236, L395-436) and `sz_decompress_2d_with_eb`, `sz_decompress_2d`, `sz_decompress_3d`
(src/sz_decompress_3d.cpp L45-77, L124-155, L254-287).
-/

namespace CpSZ.Block

variable {T F D : Type}

/-- Object representations.  `mean` is that of `struct meanInfo` (include/sz_def.hpp L137-145;
padding included).  `skip` is the element size by which the decompressor advances over the
unpredictable values. -/
structure Fmt (T F D : Type) where
  cT : Codec T
  cF : Codec F
  cD : Codec D
  cM : Codec (Bool × T)
  skip : Nat

/-- Header fields; `prec` is only present in the formats with one global precision.
(src/sz_compress_3d.cpp L102-108, L216-221.) -/
structure Hdr (T D : Type) where
  bs : Nat
  prec : Option D
  indep : Bool
  radius : Nat
  mean : Bool × T

/-- `encode_regression_coefficients(_2d)` (src/sz_compression_utils.cpp L3-15), called only if
`reg_count` is not zero. -/
def encCoefBytes (f : Fmt T F D) (E : Env) (regCap : Nat) (o : Out T F) : Option (List Byte) :=
  if o.coefs.length = 0 then some []
  else
    match encInts E (2 * regCap) o.rty with
    | none => none
    | some b => some (leBytes 8 o.run.length ++ (writeArray f.cF o.run ++ b))

/-- The stream in the order in which it is written.  (src/sz_compress_3d.cpp L102-112 and its copies
for the other codecs; src/sz_compression_utils.cpp L3-15.) -/
def encodeStream (f : Fmt T F D) (E1 E2 : Env) (cap regCap : Nat) (h : Hdr T D) (o : Out T F) :
    Option (List Byte) :=
  match encCoefBytes f E1 regCap o, encInts E2 (2 * cap) o.ty with
  | some b1, some b2 =>
    some (leBytes 4 h.bs ++ ((match h.prec with | none => [] | some p => f.cD.enc p) ++
      ((if h.indep then 1#8 else 0#8) :: (leBytes 4 h.radius ++ (f.cM.enc h.mean ++
        (leBytes 8 o.coefs.length ++ (leBytes 8 o.un.length ++ (writeArray f.cT o.un ++
          (packFlags (o.ind.map fun i => if i then 1#8 else 0#8) ++ (b1 ++ b2))))))))))
  | _, _ => none

/-- What the decompressor reads: header, indicators, coefficients, codes, unpredictable
values.  (src/sz_decompress_3d.cpp L46-76 and its copies.) -/
structure Parsed (T F D : Type) where
  hdr : Hdr T D
  ind : List Bool
  coefs : List (List F)
  ty : List Int
  un : List T

/-- `decode_regression_coefficients(_2d)` (src/sz_decompression_utils.cpp L3-57). -/
def decCoefBytes (f : Fmt T F D) (C : QOps F F D) (zeroF : F) (regRadius : Int) (regCap cnt : Nat)
    (precs : List D) (bs : List Byte) : Option (List (List F) × List Byte) :=
  if cnt = 0 then some ([], bs)
  else
    match readLE 8 bs with
    | none => none
    | some (n, bs) =>
    match readArray f.cF n bs with
    | none => none
    | some (un, bs) =>
    match decInts (2 * regCap) (precs.length * cnt) bs with
    | none => none
    | some (ts, bs) =>
    match decCoefs C regRadius precs cnt (List.replicate precs.length zeroF) ts un with
    | none => none
    | some cs => some (cs, bs)

/-- Reading the stream: `n` elements, `nb bs` blocks, `precs` computes the precisions of the
coefficients from block size and global precision.  (src/sz_decompress_3d.cpp L46-76 and its copies;
src/sz_decompression_utils.cpp L1-57.) -/
def decodeStream (f : Fmt T F D) (C : QOps F F D) (zeroF : F) (regRadius : Int) (regCap : Nat)
    (withPrec : Bool) (n : Nat) (nb : Nat → Nat) (precs : Nat → Option D → List D)
    (bs : List Byte) : Option (Parsed T F D) :=
  match readLE 4 bs with
  | none => none
  | some (blk, bs) =>
  match (if withPrec then (readVar f.cD bs).map (fun r => (some r.1, r.2)) else some (none, bs)) with
  | none => none
  | some (prec, bs) =>
  match readLE 1 bs with
  | none => none
  | some (ib, bs) =>
  match readLE 4 bs with
  | none => none
  | some (radius, bs) =>
  match readVar f.cM bs with
  | none => none
  | some (mean, bs) =>
  match readLE 8 bs with
  | none => none
  | some (rc, bs) =>
  match readLE 8 bs with
  | none => none
  | some (uc, bs) =>
  match readArray f.cT uc bs with
  | none => none
  | some (un, _) =>
  match unpackFlags (nb blk) ((nb blk - 1) / 8 + 1) (bs.drop (uc * f.skip)) with
  | none => none
  | some (ind, bs) =>
  match decCoefBytes f C zeroF regRadius regCap rc (precs blk prec) bs with
  | none => none
  | some (coefs, bs) =>
  match decInts (4 * radius) n bs with
  | none => none
  | some (ty, _) =>
    some ⟨⟨blk, prec, ib != 0, radius, mean⟩, ind.map (fun b => b != 0#8), coefs, ty, un⟩

/-- No code word of this array is longer than 64 bits. -/
def DepthOK (E : Env) (stateNum : Nat) (l : List Int) : Prop :=
  ∀ t, Huff.buildTree E.swap stateNum (l.map Int.toNat) = some t → t.depth ≤ 64

theorem packed_flags (l : List Bool) (rest : List Byte) (h : l ≠ []) :
    unpackFlags l.length ((l.length - 1) / 8 + 1)
      (packFlags (l.map fun i => if i then 1#8 else 0#8) ++ rest) =
      some (l.map fun i => if i then 1#8 else 0#8, rest) := by
  have hpos : 0 < l.length := List.length_pos_iff.2 h
  have e : (l.length - 1) / 8 + 1 = flagBytes l.length := by
    unfold flagBytes; split <;> omega
  have := C08_sign_bitmap_exact (l.map fun i => if i then 1#8 else 0#8) rest (by simpa using h)
    (by
      intro f hf
      obtain ⟨i, -, rfl⟩ := List.mem_map.1 hf
      cases i <;> simp)
  rw [List.length_map] at this
  rw [e, this]

/-- The coefficients are read back. -/
theorem coef_bytes (f : Fmt T F D) (C : QOps F F D) (zeroF : F) (regRadius : Int) (regCap : Nat)
    (E1 : Env) (hreg2 : 2 * regCap ≤ 2 ^ 26) (o : Out T F) (ps : List D) (hps : 0 < ps.length)
    (hrl : o.rty.length = ps.length * o.coefs.length)
    (hrc : ∀ t ∈ o.rty, 0 ≤ t ∧ t < (2 * regCap : Nat))
    (hru : o.run.length ≤ o.rty.length) (hcl : ps.length * o.coefs.length < 2 ^ 60)
    (hd1 : o.coefs.length ≠ 0 → DepthOK E1 (2 * regCap) o.rty)
    (hdec : decCoefs C regRadius ps o.coefs.length (List.replicate ps.length zeroF) o.rty o.run =
      some o.coefs) :
    ∃ b1, encCoefBytes f E1 regCap o = some b1 ∧ ∀ rest,
      decCoefBytes f C zeroF regRadius regCap o.coefs.length ps (b1 ++ rest) =
        some (o.coefs, rest) := by
  by_cases h0 : o.coefs.length = 0
  · refine ⟨[], by simp [encCoefBytes, h0], fun rest => ?_⟩
    have : o.coefs = [] := List.length_eq_zero_iff.1 h0
    simp [decCoefBytes, this]
  · have f1 : Fits E1 (2 * regCap) o.rty := by
      refine ⟨?_, by omega, hreg2, hrc, hd1 h0⟩
      intro h1
      rw [h1] at hrl
      simp only [List.length_nil] at hrl
      have := Nat.mul_pos hps (Nat.pos_of_ne_zero h0)
      omega
    obtain ⟨b, e, r⟩ := ints_roundtrip E1 _ _ f1
    refine ⟨leBytes 8 o.run.length ++ (writeArray f.cF o.run ++ b),
      by simp only [encCoefBytes, h0, if_false, e], fun rest => ?_⟩
    simp only [decCoefBytes, h0, if_false, List.append_assoc]
    rw [readLE_leBytes (by omega)]
    simp only [readArray_writeArray]
    rw [hrl] at r
    simp only [r, hdec]

/-- Everything that is written is read back, provided the cursor is advanced by the size of
the unpredictable values. -/
theorem stream_roundtrip (f : Fmt T F D) (hskip : f.skip = f.cT.size) (C : QOps F F D)
    (zeroF : F) (regRadius : Int) (regCap : Nat) (E1 E2 : Env) (cap : Nat) (h : Hdr T D)
    (o : Out T F) (n : Nat) (nb : Nat → Nat) (precs : Nat → Option D → List D)
    (hbs : h.bs < 2 ^ 31) (hrad : h.radius < 2 ^ 31) (hcap : cap = 2 * h.radius)
    (hcap2 : 2 * cap ≤ 2 ^ 26) (hreg2 : 2 * regCap ≤ 2 ^ 26)
    (hn : n < 2 ^ 60) (hn0 : n ≠ 0)
    (hty : o.ty.length = n) (hcodes : ∀ t ∈ o.ty, 0 ≤ t ∧ t < (2 * cap : Nat))
    (hd2 : DepthOK E2 (2 * cap) o.ty)
    (hun : o.un.length ≤ n) (hind : o.ind.length = nb h.bs) (hind0 : o.ind ≠ [])
    (hcl : (precs h.bs h.prec).length * o.coefs.length < 2 ^ 60)
    (hclen : o.coefs.length < 2 ^ 60)
    (hprecs : 0 < (precs h.bs h.prec).length)
    (hrl : o.rty.length = (precs h.bs h.prec).length * o.coefs.length)
    (hrc : ∀ t ∈ o.rty, 0 ≤ t ∧ t < (2 * regCap : Nat))
    (hru : o.run.length ≤ o.rty.length)
    (hd1 : o.coefs.length ≠ 0 → DepthOK E1 (2 * regCap) o.rty)
    (hdec : decCoefs C regRadius (precs h.bs h.prec) o.coefs.length
      (List.replicate (precs h.bs h.prec).length zeroF) o.rty o.run = some o.coefs) :
    ∃ bytes, encodeStream f E1 E2 cap regCap h o = some bytes ∧
      ∀ rest, decodeStream f C zeroF regRadius regCap h.prec.isSome n nb precs (bytes ++ rest) =
        some ⟨h, o.ind, o.coefs, o.ty, o.un⟩ := by
  have f2 : Fits E2 (2 * cap) o.ty := by
    refine ⟨?_, by omega, hcap2, hcodes, hd2⟩
    intro h0
    rw [h0] at hty
    simp at hty
    omega
  obtain ⟨b2, e2, r2⟩ := ints_roundtrip E2 _ _ f2
  obtain ⟨b1, e1, r1⟩ : ∃ b1, encCoefBytes f E1 regCap o = some b1 ∧ ∀ rest,
      decCoefBytes f C zeroF regRadius regCap o.coefs.length (precs h.bs h.prec) (b1 ++ rest) =
        some (o.coefs, rest) :=
    coef_bytes f C zeroF regRadius regCap E1 hreg2 o _ hprecs hrl hrc hru hcl hd1 hdec
  refine ⟨leBytes 4 h.bs ++ ((match h.prec with | none => [] | some p => f.cD.enc p) ++
      ((if h.indep then 1#8 else 0#8) :: (leBytes 4 h.radius ++ (f.cM.enc h.mean ++
        (leBytes 8 o.coefs.length ++ (leBytes 8 o.un.length ++ (writeArray f.cT o.un ++
          (packFlags (o.ind.map fun i => if i then 1#8 else 0#8) ++ (b1 ++ b2))))))))),
    by simp only [encodeStream, e1, e2], fun rest => ?_⟩
  unfold decodeStream
  simp only [List.append_assoc, List.cons_append]
  rw [readLE_leBytes (by omega)]
  have hp : ∀ X, (if h.prec.isSome = true then
      (readVar f.cD ((match h.prec with | none => [] | some p => f.cD.enc p) ++ X)).map
        (fun r => (some r.1, r.2))
      else some (none, (match h.prec with | none => [] | some p => f.cD.enc p) ++ X)) =
      some (h.prec, X) := by
    intro X
    cases h.prec with
    | none => rfl
    | some p => simp [readVar_enc]
  simp only [hp]
  have hb : ∀ X : List Byte, readLE 1 ((if h.indep = true then 1#8 else 0#8) :: X) =
      some (if h.indep then 1 else 0, X) := by
    intro X
    cases h.indep <;> simp [readLE, takeBytes, leVal]
  simp only [hb]
  rw [readLE_leBytes (by omega)]
  simp only [readVar_enc]
  rw [readLE_leBytes (by omega)]
  simp only
  rw [readLE_leBytes (by omega)]
  simp only [readArray_writeArray]
  have hdrop : ∀ X, (writeArray f.cT o.un ++ X).drop (o.un.length * f.skip) = X := by
    intro X
    rw [hskip, ← writeArray_length, List.drop_left]
  rw [hdrop, ← hind, packed_flags o.ind _ hind0]
  simp only [r1]
  have : 4 * h.radius = 2 * cap := by omega
  rw [this, ← hty, r2]
  obtain ⟨bs, prec, indep, radius, mean⟩ := h
  simp only [List.map_map, Option.some.injEq, Parsed.mk.injEq, Hdr.mk.injEq, and_true, true_and]
  refine ⟨by cases indep <;> rfl, ?_⟩
  conv => rhs; rw [← List.map_id o.ind]
  apply List.map_congr_left
  intro i _
  cases i <;> rfl

/-! ### The public functions -/

/-- Arithmetic of the block codecs: `lor2` and `lor3` are the conversions to `float` of
`lorenzo_predict_2d` and `lorenzo_predict_3d`, `reg2` and `reg3` those of
`regression_predict_2d` and `regression_predict_3d` (include/sz_prediction.hpp);
`regPrec n precision` is `rel_param_err` for `n` coefficients, `divB` is the division by the
block size.  (include/sz_prediction.hpp L4-28; src/sz_compress_3d.cpp L24-28.) -/
structure BOps (T F D : Type) where
  O : QOps T F D
  C : QOps F F D
  isZero : D → Bool
  zeroT : T
  zeroF : F
  zeroD : D
  tenth : D
  lor2 : T → T → T → F
  lor3 : T → T → T → T → T → T → T → F
  reg2 : F → F → F → Nat → Nat → F
  reg3 : F → F → F → F → Nat → Nat → Nat → F
  regPrec : Nat → D → D
  divB : D → Nat → D

/-- `lorenzo_predict_2d(cur_buffer_pos, buffer_dim0_offset)`.  (include/sz_prediction.hpp L10-14.)
-/
def lorAt2 (B : BOps T F D) (off : Nat) (buf : Nat → T) (p : Nat) : F :=
  B.lor2 (buf (p - 1)) (buf (p - off)) (buf (p - off - 1))

/-- `lorenzo_predict_3d(cur_buffer_pos, buffer_dim0_offset, buffer_dim1_offset)`.
(include/sz_prediction.hpp L22-28.) -/
def lorAt3 (B : BOps T F D) (off0 off1 : Nat) (buf : Nat → T) (p : Nat) : F :=
  B.lor3 (buf (p - 1)) (buf (p - off1)) (buf (p - off0)) (buf (p - off1 - 1))
    (buf (p - off0 - 1)) (buf (p - off0 - off1)) (buf (p - off0 - off1 - 1))

/-- `regression_predict_2d`; the coefficients are always three.  (include/sz_prediction.hpp L4-8.)
-/
def regAt2 (B : BOps T F D) : List F → Pt → F
  | [a, b, c], p => B.reg2 a b c p.x p.y
  | _, _ => B.zeroF

/-- `regression_predict_3d`; the coefficients are always four.  (include/sz_prediction.hpp L16-20.)
-/
def regAt3 (B : BOps T F D) : List F → Pt → F
  | [a, b, c, d], p => B.reg3 a b c d p.x p.y p.z
  | _, _ => B.zeroF

/-- `reg_precisions` (src/sz_compress_3d.cpp L24-28, L333-336,
src/sz_decompression_utils.cpp L13-17, L41-45). -/
def regPrecs (B : BOps T F D) (n : Nat) (prec : D) (bs : Nat) : List D :=
  List.replicate (n - 1) (B.divB (B.regPrec n prec) bs) ++ [B.regPrec n prec]

/-- Configuration shared by compressor and decompressor in 2D.  (src/sz_compress_3d.cpp L11-76;
src/sz_decompress_3d.cpp L5-43.) -/
def cfg2 (B : BOps T F D) (d2 bs : Nat) (mean : Bool × T) (radius : Nat) (prec : Nat → D)
    (zeroCheck : Bool) (regPrec : D) (sel : Nat → Nat → Nat → Nat → Option (List F)) :
    Cfg T F D where
  O := B.O
  C := B.C
  isZero := B.isZero
  lor := lorAt2 B (d2 + 1)
  reg := regAt2 B
  mean := if mean.1 then some mean.2 else none
  capL := if mean.1 then 2 * radius - 2 else 2 * radius
  cap := 2 * radius
  radius := radius
  prec := prec
  zeroCheck := zeroCheck
  writeReg := true
  sel := sel
  regPrecs := regPrecs B 3 regPrec bs
  regRadius := 32768

/-- Configuration in 3D.  (src/sz_compress_3d.cpp L318-392; src/sz_decompress_3d.cpp L164-252.) -/
def cfg3 (B : BOps T F D) (d2 d3 bs : Nat) (indep : Bool) (mean : Bool × T) (radius : Nat)
    (prec : Nat → D) (regPrec : D) (sel : Nat → Nat → Nat → Nat → Option (List F)) :
    Cfg T F D where
  O := B.O
  C := B.C
  isZero := B.isZero
  lor := if indep then lorAt3 B ((bs + 1) * (bs + 1)) (bs + 1)
    else lorAt3 B ((d2 + 1) * (d3 + 1)) (d3 + 1)
  reg := regAt3 B
  mean := if mean.1 then some mean.2 else none
  capL := if mean.1 then 2 * radius - 2 else 2 * radius
  cap := 2 * radius
  radius := radius
  prec := prec
  zeroCheck := false
  writeReg := !indep
  sel := sel
  regPrecs := regPrecs B 4 regPrec bs
  regRadius := 32768

/-- Initial state of the compressor: `memset(pred_buffer, 0, ...)`, `reg_params[i] = 0`.
(src/sz_compress_3d.cpp L19-22, L31-32.) -/
def initSt (B : BOps T F D) (n : Nat) : St T F :=
  ⟨fun _ => B.zeroT, none, List.replicate n B.zeroF⟩

/-- `sz_compress_2d_with_eb` (src/sz_compress_3d.cpp L196-236): capacity 65536, no mean, no
regression. -/
def outEb2 (B : BOps T F D) (data : Nat → T) (prec : Nat → D) (r1 r2 bs : Nat) : Out T F :=
  runEnc (cfg2 B r2 bs (false, B.zeroT) 32768 prec true B.tenth (fun _ _ _ _ => none)) data
    (planC2 r1 r2 bs) (initSt B 3)

/-- `sz_compress_2d_with_eb`: the stream (src/sz_compress_3d.cpp L196-236). -/
def compressEb2 (B : BOps T F D) (f : Fmt T F D) (E1 E2 : Env) (data : Nat → T)
    (prec : Nat → D) (r1 r2 bs : Nat) (indep : Bool) : Option (List Byte) :=
  encodeStream f E1 E2 65536 65536 ⟨bs, none, indep, 32768, (false, B.zeroT)⟩
    (outEb2 B data prec r1 r2 bs)

/-- `sz_decompress_2d_with_eb` (src/sz_decompress_3d.cpp L124-155); `out0` is the content of
the freshly allocated output. -/
def decompressEb2 (B : BOps T F D) (f : Fmt T F D) (prec : Nat → D) (r1 r2 : Nat)
    (out0 : Nat → T) (bs : List Byte) : Option (Nat → T) :=
  match decodeStream f B.C B.zeroF 32768 65536 false (r1 * r2)
    (fun b => numBlk r1 b * numBlk r2 b) (fun b _ => regPrecs B 3 B.tenth b) bs with
  | none => none
  | some p =>
    match runDec (cfg2 B r2 p.hdr.bs p.hdr.mean p.hdr.radius prec true B.tenth
        (fun _ _ _ _ => none)) (planD2 r1 r2 p.hdr.bs)
        ⟨fun _ => B.zeroT, none, p.ind, p.coefs, p.ty, p.un, out0⟩ with
    | none => none
    | some d => some d.out

/-- `sz_compress_2d` (src/sz_compress_3d.cpp L79-120): capacity 32768, no mean.  The
overflow of the array of unpredictable values is the subject of C36. -/
def out2 (B : BOps T F D) (data : Nat → T) (prec : D) (r1 r2 bs : Nat)
    (sel : Nat → Nat → Nat → Nat → Option (List F)) : Out T F :=
  runEnc (cfg2 B r2 bs (false, B.zeroT) 16384 (fun _ => prec) false prec sel) data
    (planC2 r1 r2 bs) (initSt B 3)

/-- `sz_compress_2d`: the stream (src/sz_compress_3d.cpp L79-120). -/
def compress2 (B : BOps T F D) (f : Fmt T F D) (E1 E2 : Env) (data : Nat → T) (prec : D)
    (r1 r2 bs : Nat) (indep : Bool) (sel : Nat → Nat → Nat → Nat → Option (List F)) :
    Option (List Byte) :=
  encodeStream f E1 E2 32768 65536 ⟨bs, some prec, indep, 16384, (false, B.zeroT)⟩
    (out2 B data prec r1 r2 bs sel)

/-- `sz_decompress_2d` (src/sz_decompress_3d.cpp L45-77). -/
def decompress2 (B : BOps T F D) (f : Fmt T F D) (r1 r2 : Nat) (out0 : Nat → T)
    (bs : List Byte) : Option (Nat → T) :=
  match decodeStream f B.C B.zeroF 32768 65536 true (r1 * r2)
    (fun b => numBlk r1 b * numBlk r2 b) (fun b p => regPrecs B 3 (p.getD B.zeroD) b) bs with
  | none => none
  | some p =>
    match runDec (cfg2 B r2 p.hdr.bs p.hdr.mean p.hdr.radius (fun _ => p.hdr.prec.getD B.zeroD)
        false (p.hdr.prec.getD B.zeroD) (fun _ _ _ _ => none)) (planD2 r1 r2 p.hdr.bs)
        ⟨fun _ => B.zeroT, none, p.ind, p.coefs, p.ty, p.un, out0⟩ with
    | none => none
    | some d => some d.out

/-- Block loops of the 3D codec.  (src/sz_compress_3d.cpp L344-388.) -/
def plan3d (indep : Bool) (r1 r2 r3 bs : Nat) : List Ev :=
  if indep then plan3i r1 r2 r3 bs else plan3 r1 r2 r3 bs

/-- `sz_compress_3d` (src/sz_compress_3d.cpp L395-436); capacity and mean come from
`optimize_quant_invl_3d`, which is arbitrary here. -/
def out3 (B : BOps T F D) (data : Nat → T) (prec : D) (r1 r2 r3 bs : Nat) (indep : Bool)
    (radius : Nat) (mean : Bool × T) (sel : Nat → Nat → Nat → Nat → Option (List F)) : Out T F :=
  runEnc (cfg3 B r2 r3 bs indep mean radius (fun _ => prec) prec sel) data
    (plan3d indep r1 r2 r3 bs) (initSt B 4)

/-- `sz_compress_3d`: the stream (src/sz_compress_3d.cpp L395-436). -/
def compress3 (B : BOps T F D) (f : Fmt T F D) (E1 E2 : Env) (data : Nat → T) (prec : D)
    (r1 r2 r3 bs : Nat) (indep : Bool) (radius : Nat) (mean : Bool × T)
    (sel : Nat → Nat → Nat → Nat → Option (List F)) : Option (List Byte) :=
  encodeStream f E1 E2 (2 * radius) 65536 ⟨bs, some prec, indep, radius, mean⟩
    (out3 B data prec r1 r2 r3 bs indep radius mean sel)

/-- `sz_decompress_3d` (src/sz_decompress_3d.cpp L254-287). -/
def decompress3 (B : BOps T F D) (f : Fmt T F D) (r1 r2 r3 : Nat) (out0 : Nat → T)
    (bs : List Byte) : Option (Nat → T) :=
  match decodeStream f B.C B.zeroF 32768 65536 true (r1 * r2 * r3)
    (fun b => numBlk r1 b * numBlk r2 b * numBlk r3 b)
    (fun b p => regPrecs B 4 (p.getD B.zeroD) b) bs with
  | none => none
  | some p =>
    match runDec (cfg3 B r2 r3 p.hdr.bs p.hdr.indep p.hdr.mean p.hdr.radius
        (fun _ => p.hdr.prec.getD B.zeroD) (p.hdr.prec.getD B.zeroD) (fun _ _ _ _ => none))
        (plan3d p.hdr.indep r1 r2 r3 p.hdr.bs)
        ⟨fun _ => B.zeroT, none, p.ind, p.coefs, p.ty, p.un, out0⟩ with
    | none => none
    | some d => some d.out

theorem runDec_congr (G G' : Cfg T F D) (h1 : G.O = G'.O) (h2 : G.lor = G'.lor)
    (h3 : G.reg = G'.reg) (h4 : G.mean = G'.mean) (h5 : G.prec = G'.prec)
    (h6 : G.radius = G'.radius) (h7 : G.writeReg = G'.writeReg) (es : List Ev)
    (s : DSt T F) : runDec G es s = runDec G' es s := by
  have he : decEv G = decEv G' := by
    funext s e
    cases e with
    | start => rfl
    | copy => rfl
    | pt p =>
      cases G
      cases G'
      simp only at h1 h2 h3 h4 h5 h6 h7
      subst h1 h2 h3 h4 h5 h6 h7
      rfl
  induction es generalizing s with
  | nil => rfl
  | cons e es ih => simp only [runDec, he, ih]

theorem numBlk_le (d bs : Nat) (hd : 0 < d) : numBlk d bs ≤ d := by
  unfold numBlk
  have := Nat.div_le_self (d - 1) bs
  omega

theorem starts2 (r1 r2 bs : Nat) :
    starts (planC2 r1 r2 bs) = numBlk r1 bs * numBlk r2 bs := by
  have h0 : ∀ n m (g : Nat → Nat → Pt), starts ((List.range n).flatMap fun x =>
      (List.range m).flatMap fun y => [Ev.pt (g x y)]) = 0 := by
    intro n m g
    rw [starts_flatMap _ _ 0, Nat.mul_zero]
    intro x _
    rw [starts_flatMap _ _ 0, Nat.mul_zero]
    intro y _
    rfl
  have h1 : ∀ i j, starts (blk2 r1 r2 bs i j) = 1 := fun i j => by
    unfold blk2
    simp only [starts, h0]
  rw [planC2_closed, starts_flatMap _ _ (numBlk r2 bs)]
  · rw [List.length_range]
  · intro i _
    rw [starts_append, starts_flatMap _ _ 1 (fun j _ => h1 i j), List.length_range, Nat.mul_one]
    rfl

theorem starts3 (indep : Bool) (r1 r2 r3 bs : Nat) (h3 : 0 < r3) (hb : 0 < bs) :
    starts (plan3d indep r1 r2 r3 bs) = numBlk r1 bs * numBlk r2 bs * numBlk r3 bs := by
  have h0 : ∀ n m l (g : Nat → Nat → Nat → Pt), starts ((List.range n).flatMap fun x =>
      (List.range m).flatMap fun y => (List.range l).flatMap fun z => [Ev.pt (g x y z)]) = 0 := by
    intro n m l g
    rw [starts_flatMap _ _ 0, Nat.mul_zero]
    intro x _
    rw [starts_flatMap _ _ 0, Nat.mul_zero]
    intro y _
    rw [starts_flatMap _ _ 0, Nat.mul_zero]
    intro z _
    rfl
  have h1 : ∀ a b c i j k, starts (blk3 r1 r2 r3 bs a b c i j k) = 1 := fun a b c i j k => by
    unfold blk3
    simp only [starts, h0]
  unfold plan3d
  cases indep
  · simp only [Bool.false_eq_true, if_false]
    rw [plan3_closed _ _ _ _ h3 hb, starts_flatMap _ _ (numBlk r2 bs * numBlk r3 bs)]
    · rw [List.length_range, Nat.mul_assoc]
    · intro i _
      rw [starts_append, starts_flatMap _ _ (numBlk r3 bs), List.length_range]
      · rfl
      · intro j _
        rw [starts_flatMap _ _ 1 (fun k _ => h1 _ _ _ i j k), List.length_range, Nat.mul_one]
  · simp only [if_true]
    rw [plan3i_closed _ _ _ _ h3 hb, starts_flatMap _ _ (numBlk r2 bs * numBlk r3 bs)]
    · rw [List.length_range, Nat.mul_assoc]
    · intro i _
      rw [starts_flatMap _ _ (numBlk r3 bs), List.length_range]
      intro j _
      rw [starts_flatMap _ _ 1 (fun k _ => h1 _ _ _ i j k), List.length_range, Nat.mul_one]

theorem regPrecs_length (B : BOps T F D) (n : Nat) (hn : 0 < n) (prec : D) (bs : Nat) :
    (regPrecs B n prec bs).length = n := by
  simp [regPrecs]; omega

/-- From a traversal that visits every position once: decoding what was encoded gives an
array whose every value is acceptable. -/
theorem run_roundtrip (G G' : Cfg T F D) (n : Nat) (hG : Good G (· < n))
    (e1 : G.O = G'.O) (e2 : G.lor = G'.lor) (e3 : G.reg = G'.reg) (e4 : G.mean = G'.mean)
    (e5 : G.prec = G'.prec) (e6 : G.radius = G'.radius) (e7 : G.writeReg = G'.writeReg)
    (data : Nat → T) (es : List Ev) (hperm : (positions es).Perm (List.range n))
    (s : St T F) (out0 : Nat → T) :
    ∃ d, runDec G' es ⟨s.buf, s.mode, (runEnc G data es s).ind, (runEnc G data es s).coefs,
      (runEnc G data es s).ty, (runEnc G data es s).un, out0⟩ = some d ∧
      (∀ p < n, Accept G data p (d.out p)) ∧ (∀ p, n ≤ p → d.out p = out0 p) ∧
      d.out = writes out0 (runEnc G data es s).recon := by
  have hpos : ∀ p ∈ positions es, p < n := fun p hp => List.mem_range.1 (hperm.mem_iff.1 hp)
  obtain ⟨d, h1, -, -, -, -, h2⟩ := lockstep G (· < n) hG data es hpos s [] [] [] [] out0
  simp only [List.append_nil] at h1
  rw [runDec_congr G G' e1 e2 e3 e4 e5 e6 e7] at h1
  refine ⟨d, h1, fun p hp => ?_, fun p hp => ?_, h2⟩
  · have hmem : p ∈ (runEnc G data es s).recon.map Prod.fst := by
      rw [runEnc_recon_pos]
      exact hperm.mem_iff.2 (List.mem_range.2 hp)
    obtain ⟨w, hw, rfl⟩ := List.mem_map.1 hmem
    have hnd : ((runEnc G data es s).recon.map Prod.fst).Nodup := by
      rw [runEnc_recon_pos]
      exact hperm.nodup_iff.2 List.nodup_range
    rw [h2, writes_mem _ _ hnd w hw]
    exact runEnc_accept G data es s w hw
  · rw [h2, writes_not_mem]
    rw [runEnc_recon_pos]
    intro hm
    have := hpos p hm
    omega

end CpSZ.Block
