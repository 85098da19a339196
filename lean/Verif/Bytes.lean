/-
Byte streams: fixed width little-endian variables and arrays.

Models `write_variable_to_dst` / `write_array_to_dst`
(include/sz_compression_utils.hpp L35-47) and `read_variable_from_src` /
`read_array_from_src` (include/sz_decompression_utils.hpp L34-48), which are plain
`memcpy`s followed by a pointer increment.  A stream is the list of bytes from the
cursor onwards; reading past the end of the stream is undefined behaviour in C++ and
is the outcome `none` here.
-/

namespace CpSZ

abbrev Byte := BitVec 8

/-- Little-endian representation of `n` in `k` bytes (x86-64 object representation of
an unsigned integer of `k` bytes; higher bits are cut off as in an assignment to that
type). -/
def leBytes : Nat → Nat → List Byte
  | 0, _ => []
  | k + 1, n => BitVec.ofNat 8 n :: leBytes k (n / 256)

/-- Value of a little-endian byte string. -/
def leVal : List Byte → Nat
  | [] => 0
  | b :: bs => b.toNat + 256 * leVal bs

@[simp] theorem leBytes_length (k n : Nat) : (leBytes k n).length = k := by
  induction k generalizing n with
  | zero => rfl
  | succ k ih => simp [leBytes, ih]

theorem leVal_leBytes (k n : Nat) : leVal (leBytes k n) = n % 256 ^ k := by
  induction k generalizing n with
  | zero => simp [leBytes, leVal, Nat.mod_one]
  | succ k ih =>
    simp only [leBytes, leVal, ih, BitVec.toNat_ofNat]
    rw [Nat.pow_succ' (n := k) (m := 256), Nat.mod_mul]

/-- `memcpy` of `k` bytes out of the stream plus cursor increment; `none` if the stream
is too short (out of bounds read).  (include/sz_decompression_utils.hpp L34-48.) -/
def takeBytes (k : Nat) (bs : List Byte) : Option (List Byte × List Byte) :=
  if k ≤ bs.length then some (bs.take k, bs.drop k) else none

theorem takeBytes_append (xs rest : List Byte) :
    takeBytes xs.length (xs ++ rest) = some (xs, rest) := by
  simp [takeBytes]

theorem takeBytes_append' {k : Nat} (xs rest : List Byte) (h : xs.length = k) :
    takeBytes k (xs ++ rest) = some (xs, rest) := by
  subst h; exact takeBytes_append xs rest

/-- `read_variable_from_src` for an unsigned integer type of `k` bytes
(include/sz_decompression_utils.hpp L34-39). -/
def readLE (k : Nat) (bs : List Byte) : Option (Nat × List Byte) :=
  (takeBytes k bs).map fun (a, r) => (leVal a, r)

theorem readLE_leBytes {k n : Nat} (h : n < 256 ^ k) (rest : List Byte) :
    readLE k (leBytes k n ++ rest) = some (n, rest) := by
  simp [readLE, takeBytes_append' _ _ (leBytes_length k n), leVal_leBytes, Nat.mod_eq_of_lt h]

/-- Object representation of a trivially copyable C++ type: `float`, `double`, `int`,
`size_t`.  Only the fact that copying bytes out and back restores the object is used.
(include/sz_compression_utils.hpp L35-47; include/sz_decompression_utils.hpp L34-48.) -/
structure Codec (α : Type) where
  size : Nat
  enc : α → List Byte
  dec : List Byte → α
  enc_length : ∀ a, (enc a).length = size
  dec_enc : ∀ a, dec (enc a) = a

/-- `write_array_to_dst` (include/sz_compression_utils.hpp L42-47). -/
def writeArray {α : Type} (c : Codec α) (xs : List α) : List Byte := xs.flatMap c.enc

/-- `read_variable_from_src` at an arbitrary trivially copyable type.
(include/sz_decompression_utils.hpp L34-39.) -/
def readVar {α : Type} (c : Codec α) (bs : List Byte) : Option (α × List Byte) :=
  (takeBytes c.size bs).map fun (a, r) => (c.dec a, r)

/-- `read_array_from_src` (include/sz_decompression_utils.hpp L41-48). -/
def readArray {α : Type} (c : Codec α) : Nat → List Byte → Option (List α × List Byte)
  | 0, bs => some ([], bs)
  | n + 1, bs => do
    let (a, bs) ← readVar c bs
    let (as, bs) ← readArray c n bs
    return (a :: as, bs)

theorem readVar_enc {α : Type} (c : Codec α) (a : α) (rest : List Byte) :
    readVar c (c.enc a ++ rest) = some (a, rest) := by
  simp [readVar, takeBytes_append' _ _ (c.enc_length a), c.dec_enc]

theorem readArray_writeArray {α : Type} (c : Codec α) (xs : List α) (rest : List Byte) :
    readArray c xs.length (writeArray c xs ++ rest) = some (xs, rest) := by
  induction xs with
  | nil => rfl
  | cons a xs ih =>
    have : writeArray c (a :: xs) ++ rest = c.enc a ++ (writeArray c xs ++ rest) := by
      simp [writeArray]
    rw [this]
    simp [readArray, readVar_enc, ih]

theorem writeArray_length {α : Type} (c : Codec α) (xs : List α) :
    (writeArray c xs).length = xs.length * c.size := by
  induction xs with
  | nil => simp [writeArray]
  | cons a xs ih =>
    have : writeArray c (a :: xs) = c.enc a ++ writeArray c xs := by simp [writeArray]
    rw [this, List.length_append, ih, c.enc_length, List.length_cons, Nat.succ_mul, Nat.add_comm]

/-- Unsigned integers below `256^k` as `k` byte objects. -/
def natCodec (k : Nat) : Codec (Fin (256 ^ k)) where
  size := k
  enc a := leBytes k a.val
  dec bs := ⟨leVal bs % 256 ^ k, Nat.mod_lt _ (Nat.pow_pos (by decide))⟩
  enc_length a := leBytes_length k a.val
  dec_enc a := by
    apply Fin.ext
    simp [leVal_leBytes, Nat.mod_eq_of_lt a.isLt]

/-- Four-byte and eight-byte words as opaque bit patterns (`float`, `double`). -/
def wordCodec (k : Nat) : Codec (BitVec (8 * k)) where
  size := k
  enc a := leBytes k a.toNat
  dec bs := BitVec.ofNat (8 * k) (leVal bs)
  enc_length a := leBytes_length k a.toNat
  dec_enc a := by
    apply BitVec.eq_of_toNat_eq
    have h : (256 : Nat) ^ k = 2 ^ (8 * k) := by
      rw [Nat.pow_mul]
    simp [leVal_leBytes, h]

end CpSZ
