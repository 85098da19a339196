import Verif.BitPack
/-
Properties C08 (sign bitmaps) and C09 (raw values and headers).
-/

namespace CpSZ

/-- C08.  Packing `n ≥ 1` flags and unpacking with the byte length that the decompressors
compute returns, for each flag, 1 iff the flag was 1, and consumes exactly the packed bytes. -/
theorem C08_sign_bitmap_roundtrip (fs rest : List Byte) (hne : fs ≠ []) :
    (packFlags fs).length = (fs.length + 7) / 8 ∧
    unpackFlags fs.length (flagBytes fs.length) (packFlags fs ++ rest) =
      some (fs.map (fun f => if f = 1#8 then 1#8 else 0#8), rest) := by
  have hpos : 0 < fs.length := List.length_pos_iff.2 hne
  have hfb : flagBytes fs.length = (fs.length + 7) / 8 := by
    unfold flagBytes; split <;> omega
  refine ⟨by unfold packFlags; rw [packLoop_length, hfb], ?_⟩
  obtain ⟨k, hk⟩ : ∃ k, flagBytes fs.length = k + 1 := ⟨flagBytes fs.length - 1, by omega⟩
  have h1 : 8 * k < fs.length := by omega
  have h2 : fs.length ≤ 8 * (k + 1) := by omega
  unfold packFlags unpackFlags
  rw [hk, if_neg (by omega)]
  exact unpackLoop_packLoop k fs rest h1 h2

/-- The round trip is exact for the 0/1 flags the compressors produce. -/
theorem C08_sign_bitmap_exact (fs rest : List Byte) (hne : fs ≠ [])
    (h01 : ∀ f ∈ fs, f = 0#8 ∨ f = 1#8) :
    unpackFlags fs.length (flagBytes fs.length) (packFlags fs ++ rest) = some (fs, rest) := by
  rw [(C08_sign_bitmap_roundtrip fs rest hne).2]
  congr 2
  conv => rhs; rw [← List.map_id fs]
  apply List.map_congr_left
  intro f hf
  rcases h01 f hf with rfl | rfl <;> simp

example : unpackFlags 9 (flagBytes 9)
    (packFlags [1#8, 0#8, 1#8, 1#8, 0#8, 0#8, 1#8, 0#8, 1#8] ++ [7#8]) =
    some ([1#8, 0#8, 1#8, 1#8, 0#8, 0#8, 1#8, 0#8, 1#8], [7#8]) :=
  C08_sign_bitmap_exact [1#8, 0#8, 1#8, 1#8, 0#8, 0#8, 1#8, 0#8, 1#8] [7#8] (by decide)
    (by decide)

/-- C08, empty bitmap: the unpacker's loop bound `byteArrayLength-1` wraps around. -/
theorem C08_empty_bitmap_undefined (rest : List Byte) :
    unpackFlags 0 (flagBytes 0) (packFlags [] ++ rest) = none := rfl

/-- C09.  A count followed by that many raw elements, written with
`write_variable_to_dst`/`write_array_to_dst`, is read back exactly and the cursor ends behind
the last element; for every element type with a fixed width encoding. -/
theorem C09_counted_array_roundtrip {α : Type} (c : Codec α) (xs : List α) (rest : List Byte)
    (hlen : xs.length < 2 ^ 64) :
    (leBytes 8 xs.length ++ writeArray c xs).length = 8 + xs.length * c.size ∧
    ∃ bs, readLE 8 (leBytes 8 xs.length ++ writeArray c xs ++ rest) = some (xs.length, bs) ∧
      readArray c xs.length bs = some (xs, rest) := by
  refine ⟨by simp [writeArray_length], writeArray c xs ++ rest, ?_, ?_⟩
  · rw [List.append_assoc]
    exact readLE_leBytes (by simpa using hlen) _
  · exact readArray_writeArray c xs rest

/-- C09, scalars. -/
theorem C09_variable_roundtrip {α : Type} (c : Codec α) (a : α) (rest : List Byte) :
    readVar c (c.enc a ++ rest) = some (a, rest) := readVar_enc c a rest

/-- C09, fixed width integers such as the base, radius and count fields. -/
theorem C09_integer_roundtrip (k n : Nat) (h : n < 256 ^ k) (rest : List Byte) :
    readLE k (leBytes k n ++ rest) = some (n, rest) := readLE_leBytes h rest

/-- 32-bit words (the representation of `float`) are such an element type. -/
example : ∃ bs, readLE 8 (leBytes 8 2 ++ writeArray (wordCodec 4) [0x3f800000#32, 0xbf000000#32]
      ++ [9#8]) = some (2, bs) ∧
    readArray (wordCodec 4) 2 bs = some ([0x3f800000#32, 0xbf000000#32], [9#8]) :=
  (C09_counted_array_roundtrip (wordCodec 4) [0x3f800000#32, 0xbf000000#32] [9#8]
    (by decide)).2

end CpSZ
