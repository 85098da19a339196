import Verif.Huffman.Top
import Mathlib.Data.Finset.Basic

/-!
# Blocks of memory of the Huffman coder

`malloc` and `free` in src/sz_huffman.cpp, `Huffman_encode_tree_and_data`
(src/sz_compression_utils.cpp L54-82) and `Huffman_decode_tree_and_data`
(src/sz_decompression_utils.cpp L92-108).  Blocks are numbers; sizes and contents are left out (they
are in Verif/Huffman/Model.lean), so is `malloc` returning a null pointer.  `none` is undefined
behaviour: freeing or using a block that is not allocated, a null pointer, an index out of bounds.
-/

namespace CpSZ.Huff

/-- The heap: `next` is a bound of all blocks ever allocated, `live` are the allocated blocks.
(src/sz_huffman.cpp L62-70, L155, L198, L214.) -/
structure Heap where
  next : Nat
  live : Finset Nat

namespace Heap

/-- Blocks to come are new. -/
def Ok (h : Heap) : Prop := ∀ b ∈ h.live, b < h.next

/-- `malloc` returns block `h.next` (src/sz_huffman.cpp L62-70, L155, L198). -/
def malloc (h : Heap) : Heap := ⟨h.next + 1, insert h.next h.live⟩

/-- `free` (src/sz_huffman.cpp L214, L439-442, L712-725). -/
def free (b : Nat) (h : Heap) : Option Heap :=
  if b ∈ h.live then some { h with live := h.live.erase b } else none

/-- Access to a block (src/sz_huffman.cpp L245, L718). -/
def use (b : Nat) (h : Heap) : Option Heap := if b ∈ h.live then some h else none

end Heap

/-- The pointers in a `HuffmanTree` (include/sz_huffman.hpp L29-43) and the one to it; `code` are
the entries of the array in block `codeB`. -/
structure Ptrs where
  self : Nat
  pool : Nat
  qqq : Nat
  codeB : Nat
  cout : Nat
  code : Nat → Option Nat

/-- `createHuffmanTree` (src/sz_huffman.cpp L60-82). -/
def create (h : Heap) : Ptrs × Heap :=
  (⟨h.next, h.next + 1, h.next + 2, h.next + 3, h.next + 4, fun _ => none⟩,
    h.malloc.malloc.malloc.malloc.malloc)

/-- `build_code` (src/sz_huffman.cpp L152-187): the blocks allocated at the leaves. -/
def codePtrs (stateNum : Nat) : HTree → (Nat → Option Nat) → Heap → Option ((Nat → Option Nat) × Heap)
  | .leaf _ c, p, h =>
    if c < stateNum then some (fun x => if x = c then some h.next else p x, h.malloc) else none
  | .node _ l r, p, h =>
    match codePtrs stateNum l p h with
    | none => none
    | some (p', h') => codePtrs stateNum r p' h'

/-- `init` (src/sz_huffman.cpp L195-215): the array of frequencies, the tree, the codes. -/
def initHeap (swap : Nat → Bool) (stateNum : Nat) (s : List Nat) (P : Ptrs) (h : Heap) :
    Option (Ptrs × Heap) :=
  let freq := h.next
  match buildTree swap stateNum s with
  | none => none
  | some t =>
    match codePtrs stateNum t P.code h.malloc with
    | none => none
    | some (p, h) =>
      match h.free freq with
      | none => none
      | some h => some ({ P with code := p }, h)

/-- The four arrays of `convert_HuffTree_to_bytes_anyStates` and
`reconstruct_HuffTree_from_bytes_anyStates`, in each of the three branches, freed at the end; in the
former (`out`) block `*out` is allocated as well (src/sz_huffman.cpp L417-499, L570-649).  With `out`,
the block returned is `*out`. -/
def arraysHeap (out : Bool) (h : Heap) : Option (Nat × Heap) :=
  let b := h.next
  let h := h.malloc.malloc.malloc.malloc
  let h := if out then h.malloc else h
  match h.free b with
  | none => none
  | some h =>
    match h.free (b + 1) with
    | none => none
    | some h =>
      match h.free (b + 2) with
      | none => none
      | some h =>
        match h.free (b + 3) with
        | none => none
        | some h => some (b + 4, h)

/-- `encode` (src/sz_huffman.cpp L225-313) reads the block of the code of every symbol. -/
def encodeHeap (P : Ptrs) : List Nat → Heap → Option Heap
  | [], h => some h
  | c :: cs, h =>
    match P.code c with
    | none => none
    | some b =>
      match h.use b with
      | none => none
      | some h => encodeHeap P cs h

/-- The loop of `SZ_ReleaseHuffman` (src/sz_huffman.cpp L716-720). -/
def freeCodes (p : Nat → Option Nat) : List Nat → Heap → Option Heap
  | [], h => some h
  | i :: is, h =>
    match p i with
    | none => freeCodes p is h
    | some b =>
      match h.free b with
      | none => none
      | some h => freeCodes p is h

/-- `SZ_ReleaseHuffman` (src/sz_huffman.cpp L709-728). -/
def release (stateNum : Nat) (P : Ptrs) (h : Heap) : Option Heap :=
  match h.free P.pool with
  | none => none
  | some h =>
    match h.free P.qqq with
    | none => none
    | some h =>
      match h.use P.codeB with
      | none => none
      | some h =>
        match freeCodes P.code (List.range stateNum) h with
        | none => none
        | some h =>
          match h.free P.codeB with
          | none => none
          | some h =>
            match h.free P.cout with
            | none => none
            | some h => h.free P.self

/-- `Huffman_encode_tree_and_data` (src/sz_compression_utils.cpp L54-82). -/
def huffEncodeHeap (swap : Nat → Bool) (stateNum : Nat) (s : List Nat) (h : Heap) : Option Heap :=
  match initHeap swap stateNum s (create h).1 (create h).2 with
  | none => none
  | some (P, h) =>
    match arraysHeap true h with
    | none => none
    | some (tree, h) =>
      match encodeHeap P s h with
      | none => none
      | some h =>
        match h.free tree with
        | none => none
        | some h => release stateNum P h

/-- `Huffman_decode_tree_and_data` (src/sz_decompression_utils.cpp L92-108): the array returned and the
heap. -/
def huffDecodeHeap (stateNum : Nat) (h : Heap) : Option (Nat × Heap) :=
  let P := (create h).1
  match arraysHeap false (create h).2 with
  | none => none
  | some (_, h) =>
    match release stateNum P h.malloc with
    | none => none
    | some h' => some (h.next, h')

end CpSZ.Huff
