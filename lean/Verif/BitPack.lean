import Verif.Bytes
/-
Sign bitmaps: `convertIntArray2ByteArray_fast_1b_to_result_sz`
(src/sz_compression_utils.cpp L31-52) and `convertByteArray2IntArray_fast_1b_sz`
(src/sz_decompression_utils.cpp L62-89).
-/

namespace CpSZ

/-- Inner loop of the packer (src/sz_compression_utils.cpp L43-49): `j` runs to 8 or
to the end of the flags; bit `7-j` is set iff the flag equals 1. -/
def packByte : List Byte → Nat → Byte → Byte
  | [], _, tmp => tmp
  | f :: fs, j, tmp =>
    if j < 8 then packByte fs (j + 1) (if f = 1#8 then tmp ||| (1#8 <<< (7 - j)) else tmp)
    else tmp

/-- Outer loop over `byteLength` bytes (src/sz_compression_utils.cpp L34-51); `n`
advances by 8 per byte. -/
def packLoop : Nat → List Byte → List Byte
  | 0, _ => []
  | k + 1, fs => packByte fs 0 0#8 :: packLoop k (fs.drop 8)

/-- `byteLength` as computed in both programs.  (src/sz_compression_utils.cpp L33-38.) -/
def flagBytes (n : Nat) : Nat := if n % 8 = 0 then n / 8 else n / 8 + 1

/-- `convertIntArray2ByteArray_fast_1b_to_result_sz`.  (src/sz_compression_utils.cpp L31-52.) -/
def packFlags (fs : List Byte) : List Byte := packLoop (flagBytes fs.length) fs

/-- The eight flags extracted from a full byte (src/sz_decompression_utils.cpp L74-82);
`(tmp & 0x80) >> 7` etc. -/
def unpackFull (b : Byte) : List Byte :=
  [(b &&& 0x80#8) >>> 7, (b &&& 0x40#8) >>> 6, (b &&& 0x20#8) >>> 5, (b &&& 0x10#8) >>> 4,
   (b &&& 0x08#8) >>> 3, (b &&& 0x04#8) >>> 2, (b &&& 0x02#8) >>> 1, (b &&& 0x01#8) >>> 0]

/-- Last, possibly partial, byte (src/sz_decompression_utils.cpp L84-87): `cnt` flags
remain, `i` counts up from 0.  More than eight remaining flags would shift by a negative
amount (undefined behaviour, outcome `none`). -/
def unpackTail (b : Byte) : Nat → Nat → Option (List Byte)
  | 0, _ => some []
  | cnt + 1, i =>
    if i < 8 then
      (unpackTail b cnt (i + 1)).map (((b &&& (1#8 <<< (7 - i))) >>> (7 - i)) :: ·)
    else none

/-- Loop over the first `byteArrayLength - 1` bytes (src/sz_decompression_utils.cpp L72-83)
followed by the tail. `n` is the number of flags still to be produced; writing eight flags when
fewer remain overruns the array (outcome `none`). -/
def unpackLoop : Nat → Nat → List Byte → Option (List Byte × List Byte)
  | 0, n, b :: bs => (unpackTail b n 0).map (·, bs)
  | k + 1, n, b :: bs =>
    if 8 ≤ n then (unpackLoop k (n - 8) bs).map fun (fs, r) => (unpackFull b ++ fs, r)
    else none
  | _, _, [] => none

/-- `convertByteArray2IntArray_fast_1b_sz(n, pos, byteLen)`.  `exit(0)` on a too short
bitmap and the wrap-around of `byteArrayLength-1` for an empty bitmap are `none`.
(src/sz_decompression_utils.cpp L62-89.) -/
def unpackFlags (n byteLen : Nat) (bs : List Byte) : Option (List Byte × List Byte) :=
  if n > byteLen * 8 then none
  else match byteLen with
    | 0 => none
    | k + 1 => unpackLoop k n bs

/-! ### Lemmas -/

theorem packByte_take (fs : List Byte) (j : Nat) (tmp : Byte) :
    packByte fs j tmp = packByte (fs.take (8 - j)) j tmp := by
  induction fs generalizing j tmp with
  | nil => simp
  | cons f fs ih =>
    by_cases hj : j < 8
    · have : 8 - j = (8 - (j + 1)) + 1 := by omega
      rw [this, List.take_succ_cons]
      simp only [packByte, hj, if_true]
      rw [ih]
    · have : 8 - j = 0 := by omega
      simp [packByte, hj, this]

theorem packByte_bit (fs : List Byte) (j : Nat) (tmp : Byte) (hj : j + fs.length ≤ 8)
    (i : Nat) (hi : i < 8) :
    (packByte fs j tmp).getMsbD i =
      (tmp.getMsbD i || (decide (j ≤ i) && decide (fs[i - j]? = some 1#8))) := by
  induction fs generalizing j tmp with
  | nil => simp [packByte]
  | cons f fs ih =>
    simp only [List.length_cons] at hj
    have hj8 : j < 8 := by omega
    simp only [packByte, hj8, if_true]
    rw [ih (j + 1) _ (by omega)]
    by_cases hji : j = i
    · subst hji
      have h1 : ¬ (j + 1 ≤ j) := by omega
      simp only [h1, decide_false, Bool.false_and, Bool.or_false, Nat.le_refl, decide_true,
        Bool.true_and, Nat.sub_self, List.getElem?_cons_zero, Option.some.injEq]
      by_cases hf : f = 1#8
      · subst hf
        simp [BitVec.getMsbD, hi]; right; omega
      · simp [hf]
    · have hset : (if f = 1#8 then tmp ||| (1#8 <<< (7 - j)) else tmp).getMsbD i
          = tmp.getMsbD i := by
        split
        · simp only [BitVec.getMsbD_or]
          have : (1#8 <<< (7 - j)).getMsbD i = false := by
            simp only [BitVec.getMsbD, hi, decide_true, Bool.true_and, BitVec.getLsbD_shiftLeft,
              BitVec.getLsbD_one]
            have : ¬ (8 - 1 - i - (7 - j) = 0 ∧ ¬ (8 - 1 - i < 7 - j)) := by omega
            simp only [Bool.and_eq_false_iff, decide_eq_false_iff_not, Bool.not_eq_false',
              decide_eq_true_eq]
            omega
          rw [this, Bool.or_false]
        · rfl
      rw [hset]
      by_cases hlt : j < i
      · have e : i - j = (i - (j + 1)) + 1 := by omega
        have h1 : j + 1 ≤ i := hlt
        have h2 : j ≤ i := by omega
        rw [e, List.getElem?_cons_succ]
        simp [h1, h2]
      · have h1 : ¬ (j + 1 ≤ i) := by omega
        have h2 : ¬ (j ≤ i) := by omega
        simp [h1, h2]

/-- The flag value the decoder produces for a flag of the encoder. -/
def normFlag (f : Byte) : Byte := if f = 1#8 then 1#8 else 0#8

theorem extract_bit (b : Byte) (i : Nat) (hi : i < 8) :
    (b &&& (1#8 <<< (7 - i))) >>> (7 - i) = if b.getMsbD i then 1#8 else 0#8 := by
  have : ∀ b : Byte, ∀ i : Fin 8,
      (b &&& (1#8 <<< (7 - i.val))) >>> (7 - i.val) = if b.getMsbD i.val then 1#8 else 0#8 := by
    intro b i
    apply BitVec.eq_of_getLsbD_eq
    intro k hk
    have hi := i.isLt
    simp only [BitVec.getLsbD_ushiftRight, BitVec.getLsbD_and, BitVec.getLsbD_shiftLeft,
      BitVec.getLsbD_one, BitVec.getMsbD, hi, decide_true, Bool.true_and]
    by_cases hk0 : k = 0
    · subst hk0
      have e : 8 - 1 - i.val = 7 - i.val := by omega
      have hlt : 7 - i.val < 8 := by omega
      simp only [Nat.add_zero, e, hlt, decide_true, Nat.lt_irrefl, decide_false, Bool.not_false,
        Nat.sub_self, Bool.and_true]
      cases b.getLsbD (7 - i.val) <;> simp
    · have h1 : ¬ (7 - i.val + k - (7 - i.val) = 0) := by omega
      cases b.getLsbD (8 - 1 - i.val) <;> simp [BitVec.getLsbD_one, hk0]
  exact this b ⟨i, hi⟩

theorem unpackTail_eq (b : Byte) (fs : List Byte) (i : Nat) (h : i + fs.length ≤ 8)
    (hb : ∀ k, k < fs.length → b.getMsbD (i + k) = decide (fs[k]? = some 1#8)) :
    unpackTail b fs.length i = some (fs.map normFlag) := by
  induction fs generalizing i with
  | nil => rfl
  | cons f fs ih =>
    simp only [List.length_cons] at h
    have hi : i < 8 := by omega
    have hrec := ih (i + 1) (by omega) (fun k hk => by
      have := hb (k + 1) (by simp; omega)
      rw [show i + 1 + k = i + (k + 1) by omega, this]
      simp)
    have h0 := hb 0 (by simp)
    simp only [Nat.add_zero, List.getElem?_cons_zero, Option.some.injEq] at h0
    simp only [List.length_cons, unpackTail, hi, if_true, hrec, Option.map_some, List.map_cons,
      extract_bit b i hi, h0, normFlag, decide_eq_true_eq]

theorem unpackFull_eq (b : Byte) :
    some (unpackFull b) = unpackTail b 8 0 := by
  simp [unpackTail, unpackFull]

theorem packByte_head_bits (fs : List Byte) (k : Nat) (hk : k < (fs.take 8).length) :
    (packByte fs 0 0#8).getMsbD (0 + k) = decide ((fs.take 8)[k]? = some 1#8) := by
  have hlen : (fs.take 8).length ≤ 8 := by simp; omega
  rw [packByte_take]
  simp only [Nat.sub_zero, Nat.zero_add]
  rw [packByte_bit _ 0 0#8 (by omega) k (by omega)]
  simp

theorem unpackLoop_packLoop (k : Nat) (fs rest : List Byte)
    (h1 : 8 * k < fs.length) (h2 : fs.length ≤ 8 * (k + 1)) :
    unpackLoop k fs.length (packLoop (k + 1) fs ++ rest) = some (fs.map normFlag, rest) := by
  induction k generalizing fs with
  | zero =>
    simp only [packLoop, List.cons_append, List.nil_append, unpackLoop]
    have ht : fs.take 8 = fs := List.take_of_length_le (by omega)
    rw [unpackTail_eq _ fs 0 (by omega) (fun k hk => by
      have := packByte_head_bits fs k (by rw [ht]; exact hk)
      rw [ht] at this; exact this)]
    rfl
  | succ k ih =>
    rw [packLoop, List.cons_append, unpackLoop]
    have h8 : 8 ≤ fs.length := by omega
    simp only [h8, if_true]
    have hd : (fs.drop 8).length = fs.length - 8 := by simp
    have hrec := ih (fs.drop 8) (by omega) (by omega)
    rw [hd] at hrec
    rw [hrec]
    have hfull : unpackFull (packByte fs 0 0#8) = (fs.take 8).map normFlag := by
      have ht : (fs.take 8).length = 8 := by simp; omega
      have := unpackTail_eq (packByte fs 0 0#8) (fs.take 8) 0 (by omega)
        (fun k hk => packByte_head_bits fs k hk)
      rw [ht, ← unpackFull_eq] at this
      exact Option.some.inj this
    simp only [Option.map_some, hfull, ← List.map_append, List.take_append_drop]

theorem packLoop_length (k : Nat) (fs : List Byte) : (packLoop k fs).length = k := by
  induction k generalizing fs with
  | zero => rfl
  | succ k ih => simp [packLoop, ih]

end CpSZ
