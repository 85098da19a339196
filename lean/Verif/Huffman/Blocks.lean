import Verif.Huffman.Heap

/-!
# Blocks of memory of the critical-point preserving modes

Every compressor and decompressor allocates and frees its arrays in a straight line; only the entropy
coder allocates a number of blocks that depends on the data (Verif/Huffman/Heap.lean).  The functions
are lists of operations on pointer variables.  The automatic objects (`std::vector`), the sizes and the
contents of the blocks are left out.  `none` is undefined behaviour as in Verif/Huffman/Heap.lean.
-/

namespace CpSZ.Huff

/-- The pointer variables; each is named as in the code (src/sz_compress_cp_preserve_2d.cpp L178-260,
L316-365, L549-713, L779-978; src/sz_decompress_cp_preserve_2d.cpp L11-43; src/sz_compress_3d.cpp
L205-234; src/sz_decompress_3d.cpp L143-153). -/
inductive Var
  | eb | eb_u | eb_v | eb_quant_index | data_quant_index | compressed_eb | compressed_u
  | compressed_v | compressed | sign_map_compressed | sign_map | log_U | log_V | log_W
  | decompressed_U | decompressed_V | decompressed_W | type | unpredictable_data | indicator
  | reg_params_type | reg_unpredictable_data | reg_params | pred_buffer | reg_type | U | V | W
  | sign_map_u | sign_map_v | sign_map_w | block_type
  deriving DecidableEq

/-- One operation.  `alloc` is `malloc` or a call of `log_transform` or
`convertByteArray2IntArray_fast_1b_sz`, which return one new block (include/sz_cp_preserve_utils.hpp
L136; src/sz_decompression_utils.cpp L70); `null` is `x = NULL`; `free` of a null pointer has no effect;
`enc` and `dec` are the calls of the entropy coder, `encIf` one that is made if there are symbols. -/
inductive Op
  | alloc (x : Var)
  | null (x : Var)
  | free (x : Var)
  | enc (n : Nat) (s : List Nat)
  | encIf (n : Nat) (s : List Nat)
  | dec (x : Var) (n : Nat)

/-- The pointers and the heap.  (src/sz_compress_cp_preserve_2d.cpp L549-713.) -/
abbrev MState := (Var → Option Nat) × Heap

/-- Assignment to a pointer variable (src/sz_compress_cp_preserve_2d.cpp L549). -/
def setVar {α : Type} (e : Var → α) (x : Var) (v : α) : Var → α := fun y => if y = x then v else e y

/-- Effect of one operation (src/sz_compress_cp_preserve_2d.cpp L549, L696, L707;
src/sz_decompress_cp_preserve_2d.cpp L128). -/
def Op.exec (swap : Nat → Bool) : Op → MState → Option MState
  | .alloc x, (e, h) => some (setVar e x (some h.next), h.malloc)
  | .null x, (e, h) => some (setVar e x none, h)
  | .free x, (e, h) =>
    match e x with
    | none => some (e, h)
    | some b => (h.free b).map fun h' => (e, h')
  | .enc n s, (e, h) => (huffEncodeHeap swap n s h).map fun h' => (e, h')
  | .encIf n s, (e, h) =>
    if s = [] then some (e, h) else (huffEncodeHeap swap n s h).map fun h' => (e, h')
  | .dec x n, (e, h) => (huffDecodeHeap n h).map fun r => (setVar e x (some r.1), r.2)

/-- A sequence of operations (src/sz_compress_cp_preserve_2d.cpp L549-713). -/
def execAll (swap : Nat → Bool) : List Op → MState → Option MState
  | [], m => some m
  | o :: os, m => (o.exec swap m).bind (execAll swap os)

open Op Var

/-- `sz_compress_2d_with_eb` with its result in `r` (src/sz_compress_3d.cpp L131-236), and likewise
`sz_compress_2d` (L10-119) with capacity 65536; `ty` are the
symbols, `rg` those of the regression coefficients. -/
def compress2dEb (r : Var) (ty rg : List Nat) : List Op :=
  [alloc type, alloc unpredictable_data, alloc indicator, alloc reg_params_type,
    alloc reg_unpredictable_data, alloc reg_params, alloc pred_buffer, free pred_buffer,
    free reg_params, alloc r, encIf (2 * 65536) rg, enc (4 * 32768) ty, free indicator,
    free unpredictable_data, free reg_params_type, free reg_unpredictable_data, free type]

/-- `sz_decompress_2d_with_eb` with its result in `r` (src/sz_decompress_3d.cpp L83-155,
src/sz_decompression_utils.cpp L3-29); `reg` says that there are regression blocks. -/
def decompress2dEb (r : Var) (radius : Nat) (reg : Bool) : List Op :=
  [alloc indicator, null reg_params] ++
  (if reg then [dec reg_type (2 * 65536), alloc reg_params, free reg_type] else []) ++
  [dec block_type (4 * radius), alloc r, alloc pred_buffer, free pred_buffer, free indicator,
    free reg_params, free block_type]

/-- `sz_compress_cp_preserve_2d_online` (src/sz_compress_cp_preserve_2d.cpp L549-713), `..._abs`
(L993-1241), `..._abs_relax_FN` (L1333-1529) and `sz3_compress_cp_preserve_2d_online_abs` (L1711-1810, where
`data_quant_index` is called `quantization`). -/
def online2d (es ds : List Nat) (cap : Nat) : List Op :=
  [alloc decompressed_U, alloc decompressed_V, alloc eb_quant_index, alloc data_quant_index,
    free decompressed_U, free decompressed_V, alloc compressed, enc (2 * 1024) es,
    free eb_quant_index, enc (2 * cap) ds, free data_quant_index]

/-- `sz_compress_cp_preserve_2d_online_log` (src/sz_compress_cp_preserve_2d.cpp L779-978). -/
def online2dLog (es ds : List Nat) (cap : Nat) : List Op :=
  [alloc sign_map_compressed, alloc sign_map, alloc log_U, alloc log_V, free sign_map,
    alloc decompressed_U, alloc decompressed_V, alloc eb_quant_index, alloc data_quant_index,
    free log_U, free log_V, free decompressed_U, free decompressed_V, alloc compressed,
    free sign_map_compressed, enc (2 * 1024) es, free eb_quant_index, enc (2 * cap) ds,
    free data_quant_index]

/-- `sz_compress_cp_preserve_2d_bilinear_online_log`
(src/sz_compress_cp_preserve_2d_bilinear.cpp L761-1072): there is an array `eb` more. -/
def bilinear (es ds : List Nat) (cap : Nat) : List Op :=
  [alloc sign_map_compressed, alloc sign_map, alloc log_U, alloc log_V, free sign_map, alloc eb,
    alloc decompressed_U, alloc decompressed_V, alloc eb_quant_index, alloc data_quant_index,
    free log_U, free log_V, free decompressed_U, free decompressed_V, alloc compressed,
    free sign_map_compressed, enc (2 * 1024) es, free eb_quant_index, enc (2 * cap) ds,
    free data_quant_index]

/-- `sz_compress_cp_preserve_2d_offline` (src/sz_compress_cp_preserve_2d.cpp L178-261). -/
def offline2d (es tu ru tv rv : List Nat) : List Op :=
  [alloc eb, alloc eb_u, alloc eb_v, alloc eb_quant_index, free eb, alloc compressed_eb,
    enc (2 * 1024) es] ++ compress2dEb compressed_u tu ru ++ compress2dEb compressed_v tv rv ++
  [free eb_u, free eb_v, alloc compressed, free compressed_eb, free compressed_u, free compressed_v]

/-- `sz_compress_cp_preserve_2d_offline_log` (src/sz_compress_cp_preserve_2d.cpp L278-366). -/
def offline2dLog (es tu ru tv rv : List Nat) : List Op :=
  [alloc eb, alloc sign_map_compressed, alloc sign_map, alloc log_U, alloc log_V, free sign_map,
    alloc eb_quant_index, alloc compressed_eb, enc (2 * 1024) es] ++
  compress2dEb compressed_u tu ru ++ [free log_U] ++ compress2dEb compressed_v tv rv ++
  [free log_V, free eb, alloc compressed, free sign_map_compressed, free compressed_eb,
    free compressed_u, free compressed_v]

/-- `sz_compress_cp_preserve_3d_online_log` (src/sz_compress_cp_preserve_3d.cpp L753-974). -/
def online3dLog (es ds : List Nat) (cap : Nat) : List Op :=
  [alloc sign_map_compressed, alloc sign_map, alloc log_U, alloc log_V, alloc log_W, free sign_map,
    alloc decompressed_U, alloc decompressed_V, alloc decompressed_W, alloc eb_quant_index,
    alloc data_quant_index, free log_U, free log_V, free log_W, free decompressed_U,
    free decompressed_V, free decompressed_W, alloc compressed, free sign_map_compressed,
    enc (2 * 256) es, free eb_quant_index, enc (2 * cap) ds, free data_quant_index]

/-- `sz_compress_cp_preserve_3d_online_abs` (src/sz_compress_cp_preserve_3d.cpp L1309-1475). -/
def online3dAbs (es ds : List Nat) (cap : Nat) : List Op :=
  [alloc decompressed_U, alloc decompressed_V, alloc decompressed_W, alloc eb_quant_index,
    alloc data_quant_index, free decompressed_U, free decompressed_V, free decompressed_W,
    alloc compressed, enc (2 * 1024) es, free eb_quant_index, enc (2 * cap) ds,
    free data_quant_index]

/-- `sz_compress_cp_preserve_3d_offline_log` (src/sz_compress_cp_preserve_3d.cpp L361-573); `eb` is
`eb_offline`. -/
def offline3dLog (es ds : List Nat) (cap : Nat) : List Op :=
  [alloc eb, alloc sign_map_compressed, alloc sign_map, alloc log_U, alloc log_V, alloc log_W,
    free sign_map, alloc decompressed_U, alloc decompressed_V, alloc decompressed_W,
    alloc data_quant_index, alloc eb_quant_index, free eb, free log_U, free log_V, free log_W,
    free decompressed_U, free decompressed_V, free decompressed_W, alloc compressed,
    free sign_map_compressed, enc (2 * 256) es, free eb_quant_index, enc (2 * cap) ds,
    free data_quant_index]

/-- `sz_compress_cp_preserve_3d_unstructured` (src/sz_compress_cp_preserve_3d.cpp L1015-1144); `log_U`
and `decompressed_U` are `log_data` and `dec_data`. -/
def unstructured (es ds : List Nat) (cap : Nat) : List Op :=
  [alloc sign_map, alloc log_U, alloc sign_map_compressed, free sign_map, alloc decompressed_U,
    alloc eb_quant_index, alloc data_quant_index, free decompressed_U, free log_U, alloc compressed,
    free sign_map_compressed, enc (2 * 256) es, free eb_quant_index, enc (2 * cap) ds,
    free data_quant_index]

/-- `sz_decompress_cp_preserve_3d_online_abs` (src/sz_decompress_cp_preserve_3d.cpp L208-279). -/
def decOnline3dAbs (cap : Nat) : List Op :=
  [free U, free V, free W, dec eb_quant_index (2 * 1024), dec data_quant_index (2 * cap), alloc U,
    alloc V, alloc W, free eb_quant_index, free data_quant_index]

/-- `sz_decompress_cp_preserve_3d_unstructured` (src/sz_decompress_cp_preserve_3d.cpp L124-195); `U` is
`data`. -/
def decUnstructured (cap : Nat) : List Op :=
  [free U, alloc sign_map, dec eb_quant_index (2 * 256), dec data_quant_index (2 * cap), alloc U,
    free sign_map, free eb_quant_index, free data_quant_index]

/-- `sz_decompress_cp_preserve_2d_online` (src/sz_decompress_cp_preserve_2d.cpp L112-164) and
`sz3_decompress_cp_preserve_2d_online` (L323-368). -/
def decOnline2d (cap : Nat) : List Op :=
  [free U, free V, dec eb_quant_index (2 * 1024), dec data_quant_index (2 * cap), alloc U, alloc V,
    free eb_quant_index, free data_quant_index]

/-- `sz_decompress_cp_preserve_2d_online_log` (src/sz_decompress_cp_preserve_2d.cpp L178-251). -/
def decOnline2dLog (cap : Nat) : List Op :=
  [free U, free V, alloc sign_map_u, alloc sign_map_v, dec eb_quant_index (2 * 1024),
    dec data_quant_index (2 * cap), alloc U, alloc V, free sign_map_u, free sign_map_v,
    free eb_quant_index, free data_quant_index]

/-- `sz_decompress_cp_preserve_3d_online_log` (src/sz_decompress_cp_preserve_3d.cpp L10-109). -/
def decOnline3dLog (cap : Nat) : List Op :=
  [free U, free V, free W, alloc sign_map_u, alloc sign_map_v, alloc sign_map_w,
    dec eb_quant_index (2 * 256), dec data_quant_index (2 * cap), alloc U, alloc V, alloc W,
    free sign_map_u, free sign_map_v, free sign_map_w, free eb_quant_index, free data_quant_index]

/-- `sz_decompress_cp_preserve_2d_offline` (src/sz_decompress_cp_preserve_2d.cpp L11-43). -/
def decOffline2d (radius : Nat) (ru rv : Bool) : List Op :=
  [free U, free V, dec type (2 * 1024), alloc eb] ++ decompress2dEb U radius ru ++
  decompress2dEb V radius rv ++ [free eb]

/-- `sz_decompress_cp_preserve_2d_offline_log` (src/sz_decompress_cp_preserve_2d.cpp L57-98). -/
def decOffline2dLog (radius : Nat) (ru rv : Bool) : List Op :=
  [free U, free V, dec type (2 * 1024), alloc eb, alloc sign_map_u, alloc sign_map_v] ++
  decompress2dEb U radius ru ++ decompress2dEb V radius rv ++
  [free sign_map_u, free sign_map_v, free eb]

end CpSZ.Huff
