import Verif.Huffman.Top
/-
Entropy coding of arrays of `int`, as used by all compressors.
-/

namespace CpSZ

open Huff

/-- Everything the outcome of one call of `Huffman_encode_tree_and_data` may depend on apart
from its arguments: evaluation order of call arguments, the value of an out-of-range shift,
an uninitialised local and the previous content of the output buffer. 
(src/sz_compression_utils.cpp L61-82.) -/
structure Env where
  swap : Nat → Bool
  ub : BitVec 64
  b0 : Nat
  mem : Mem

/-- The codes as array indices; a negative code would index the frequency table out of
bounds (src/sz_huffman.cpp, `init`).  (src/sz_huffman.cpp L200-204.) -/
def toSyms (l : List Int) : Option (List Nat) :=
  if l.all (fun x => decide (0 ≤ x)) then some (l.map Int.toNat) else none

/-- `Huffman_encode_tree_and_data` on an `int` array (src/sz_compression_utils.cpp L61-82). -/
def encInts (E : Env) (stateNum : Nat) (l : List Int) : Option (List Byte) :=
  match toSyms l with
  | none => none
  | some s => huffEncode E.swap E.ub E.b0 E.mem stateNum s

/-- `Huffman_decode_tree_and_data` (src/sz_decompression_utils.cpp L92-108) returning an
`int` array. -/
def decInts (stateNum n : Nat) (bs : List Byte) : Option (List Int × List Byte) :=
  match huffDecode stateNum n bs with
  | none => none
  | some (s, r) => some (s.map Int.ofNat, r)

/-- The array is acceptable for the entropy coder: not empty, codes in range, and no code
word longer than 64 bits. -/
def Fits (E : Env) (stateNum : Nat) (l : List Int) : Prop :=
  l ≠ [] ∧ l.length < 2 ^ 60 ∧ stateNum ≤ 2 ^ 26 ∧ (∀ x ∈ l, 0 ≤ x ∧ x < stateNum) ∧
    ∀ t, buildTree E.swap stateNum (l.map Int.toNat) = some t → t.depth ≤ 64

theorem ints_roundtrip (E : Env) (stateNum : Nat) (l : List Int) (h : Fits E stateNum l) :
    ∃ bytes, encInts E stateNum l = some bytes ∧
      ∀ rest, decInts stateNum l.length (bytes ++ rest) = some (l, rest) := by
  obtain ⟨h1, h2, h3, h4, h5⟩ := h
  have hs : toSyms l = some (l.map Int.toNat) := by
    unfold toSyms
    rw [if_pos]
    simp only [List.all_eq_true, decide_eq_true_eq]
    exact fun x hx => (h4 x hx).1
  obtain ⟨bytes, hb, hd⟩ := huffman_roundtrip E.swap E.ub E.b0 E.mem stateNum (l.map Int.toNat)
    (by simpa using h1) (by
      intro x hx
      obtain ⟨y, hy, rfl⟩ := List.mem_map.1 hx
      have := h4 y hy
      omega) h3 (by simpa using h2) h5
  refine ⟨bytes, by simp only [encInts, hs, hb], fun rest => ?_⟩
  rw [List.length_map] at hd
  simp only [decInts, hd rest, Option.some.injEq, Prod.mk.injEq, and_true, List.map_map]
  have : l.map (Int.ofNat ∘ Int.toNat) = l.map id := by
    apply List.map_congr_left
    intro x hx
    have := (h4 x hx).1
    simp only [Function.comp_apply, id_eq]
    exact Int.toNat_of_nonneg this
  rw [this, List.map_id]

/-- An array whose codes come from a list of at most 65 numbers is acceptable. -/
theorem fits_of_few (E : Env) (stateNum : Nat) (l cs : List Int) (h1 : l ≠ [])
    (h2 : l.length < 2 ^ 60) (h3 : stateNum ≤ 2 ^ 26) (h4 : ∀ x ∈ l, 0 ≤ x ∧ x < stateNum)
    (hc : cs.length ≤ 65) (hl : ∀ x ∈ l, x ∈ cs) : Fits E stateNum l := by
  refine ⟨h1, h2, h3, h4, fun t ht => ?_⟩
  obtain ⟨t', ht', hnd, hmem⟩ := buildTree_spec E.swap stateNum (l.map Int.toNat)
    (by simpa using h1) (by
      intro x hx
      obtain ⟨y, hy, rfl⟩ := List.mem_map.1 hx
      have := h4 y hy
      omega)
  rw [ht] at ht'
  obtain rfl := Option.some.inj ht'
  have hsub : t.syms.length ≤ (cs.map Int.toNat).length :=
    nodup_subset_length t.syms _ hnd (fun c hc => by
      obtain ⟨y, hy, rfl⟩ := List.mem_map.1 ((hmem c).1 hc)
      exact List.mem_map.2 ⟨y, hl y hy, rfl⟩)
  have := t.depth_lt_syms
  rw [List.length_map] at hsub
  omega

/-- Arrays of 65 or fewer elements are acceptable. -/
theorem fits_of_short (E : Env) (stateNum : Nat) (l : List Int) (h1 : l ≠ [])
    (h2 : l.length ≤ 65) (h3 : stateNum ≤ 2 ^ 26) (h4 : ∀ x ∈ l, 0 ≤ x ∧ x < stateNum) :
    Fits E stateNum l :=
  fits_of_few E stateNum l l h1 (by omega) h3 h4 h2 (fun _ h => h)

end CpSZ
