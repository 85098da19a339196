import Verif.Huffman.Code
/-
The bit writer `encode` appends code words (of at most 64 bits) bit by bit.
-/

namespace CpSZ.Huff

/-- Bit `i` of a buffer, most significant bit of each byte first. -/
def memBit (m : Mem) (i : Nat) : Bool := (m (i / 8)).getMsbD (i % 8)

theorem truncate_byte_getMsbD (w : BitVec 64) (k i : Nat) (hk : k ≤ 7) (hi : i < 8) :
    ((w >>> (56 - 8 * k)).truncate 8).getMsbD i = w.getMsbD (8 * k + i) := by
  have h1 : 8 * k + i < 64 := by omega
  simp only [BitVec.truncate_eq_setWidth, BitVec.getMsbD, hi, decide_true, Bool.true_and, h1,
    BitVec.getLsbD_setWidth, BitVec.getLsbD_ushiftRight]
  have h2 : 8 - 1 - i < 8 := by omega
  simp only [h2, decide_true, Bool.true_and]
  congr 1
  omega

theorem writeBE_bit (m : Mem) (p : Nat) (w : BitVec 64) (i : Nat) :
    memBit (writeBE m p w) i =
      if 8 * p ≤ i ∧ i < 8 * p + 64 then w.getMsbD (i - 8 * p) else memBit m i := by
  unfold memBit writeBE
  by_cases h : 8 * p ≤ i ∧ i < 8 * p + 64
  · have h' : p ≤ i / 8 ∧ i / 8 < p + 8 := by omega
    simp only [h, h', and_self, if_true]
    rw [truncate_byte_getMsbD w (i / 8 - p) (i % 8) (by omega) (by omega)]
    congr 1
    omega
  · have h' : ¬ (p ≤ i / 8 ∧ i / 8 < p + 8) := by omega
    simp only [h, h', if_false]

/-- OR-ing the top `lack` bits of `w` into the low `lack` bits of byte `p`. -/
theorem orByte_bit (m : Mem) (p lack : Nat) (w : BitVec 64) (h1 : 1 ≤ lack) (h2 : lack ≤ 7)
    (i : Nat) :
    memBit (m.set p (m p ||| (w >>> (64 - lack)).truncate 8)) i =
      if 8 * p + (8 - lack) ≤ i ∧ i < 8 * p + 8 then
        (memBit m i || w.getMsbD (i - (8 * p + (8 - lack)))) else memBit m i := by
  unfold memBit Mem.set
  by_cases hp : i / 8 = p
  · have hi8 : i % 8 < 8 := Nat.mod_lt _ (by omega)
    simp only [hp, if_true, BitVec.getMsbD_or]
    have e : ((w >>> (64 - lack)).truncate 8).getMsbD (i % 8) =
        (decide (8 - lack ≤ i % 8) && w.getMsbD (i - (8 * p + (8 - lack)))) := by
      simp only [BitVec.truncate_eq_setWidth, BitVec.getMsbD, hi8, decide_true, Bool.true_and,
        BitVec.getLsbD_setWidth, BitVec.getLsbD_ushiftRight]
      have h3 : 8 - 1 - i % 8 < 8 := by omega
      simp only [h3, decide_true, Bool.true_and]
      by_cases hl : 8 - lack ≤ i % 8
      · have h4 : i - (8 * p + (8 - lack)) < 64 := by omega
        simp only [hl, decide_true, Bool.true_and, h4]
        congr 1
        omega
      · simp only [hl, decide_false, Bool.false_and]
        apply BitVec.getLsbD_of_ge
        omega
    rw [e]
    by_cases hl : 8 - lack ≤ i % 8
    · have : 8 * p + (8 - lack) ≤ i ∧ i < 8 * p + 8 := by omega
      simp [hl, this]
    · have : ¬ (8 * p + (8 - lack) ≤ i ∧ i < 8 * p + 8) := by omega
      simp [hl, this]
  · have : ¬ (8 * p + (8 - lack) ≤ i ∧ i < 8 * p + 8) := by omega
    simp only [hp, if_false, this]

/-- State of the writer after the bits `B` have been written. -/
structure Written (st : WState) (B : List Bool) : Prop where
  hp : st.p = B.length / 8
  hlack : st.lack = lackOf B.length
  hout : st.outSize = ceil8 B.length
  hbits : ∀ i, i < B.length → memBit st.mem i = B.getD i false
  hzero : ∀ i, B.length ≤ i → i < 8 * ceil8 B.length → memBit st.mem i = false

theorem getD_append_lt (B bs : List Bool) (i : Nat) (h : i < B.length) :
    (B ++ bs).getD i false = B.getD i false := by
  simp [List.getD_eq_getElem?_getD, List.getElem?_append_left h]

theorem getD_append_ge (B bs : List Bool) (i : Nat) (h : B.length ≤ i) :
    (B ++ bs).getD i false = bs.getD (i - B.length) false := by
  simp [List.getD_eq_getElem?_getD, List.getElem?_append_right h]

theorem getD_ge (bs : List Bool) (i : Nat) (h : bs.length ≤ i) : bs.getD i false = false := by
  simp [List.getD_eq_getElem?_getD, List.getElem?_eq_none h]

/-- One step of `encode` appends the bits of the code word. -/
theorem encodeStep_written (st : WState) (B bs : List Bool) (cd : Code)
    (hw : Written st B) (hc : AlignedCode cd bs) (hne : bs ≠ []) :
    Written (encodeStep st cd) (B ++ bs) := by
  obtain ⟨hlen, h64, hbit⟩ := hc
  have hpos : 0 < bs.length := List.length_pos_iff.2 hne
  have hlk := hw.hlack
  have hpp := hw.hp
  have hoo := hw.hout
  unfold encodeStep
  simp only [hlen]
  by_cases h0 : st.lack = 0
  · -- byte aligned
    have hmod : B.length % 8 = 0 := by
      rw [hlk] at h0; unfold lackOf at h0; split at h0 <;> omega
    have hceil : ceil8 bs.length ≤ 8 := by unfold ceil8; split <;> omega
    simp only [h0, if_true, hceil]
    refine ⟨?_, ?_, ?_, ?_, ?_⟩
    · simp only [List.length_append]; omega
    · simp only [List.length_append, lackOf]; split <;> split <;> omega
    · simp only [List.length_append, hoo, ceil8]; split <;> split <;> split <;> omega
    · intro i hi
      simp only [List.length_append] at hi
      rw [writeBE_bit]
      by_cases hlt : i < B.length
      · rw [if_neg (by omega), hw.hbits i hlt, getD_append_lt _ _ _ hlt]
      · rw [if_pos (by omega), getD_append_ge _ _ _ (by omega), hbit _ (by omega)]
        congr 1; omega
    · intro i hi1 hi2
      simp only [List.length_append] at hi1 hi2
      have : ceil8 (B.length + bs.length) * 8 ≤ B.length + 64 := by
        unfold ceil8; split <;> omega
      rw [writeBE_bit, if_pos (by omega), hbit _ (by omega), getD_ge _ _ (by omega)]
  · simp only [h0, if_false]
    have hmod : B.length % 8 ≠ 0 := by
      intro h; apply h0; rw [hlk]; simp [lackOf, h]
    have hlack : st.lack = 8 - B.length % 8 := by rw [hlk]; simp [lackOf, hmod]
    have hl1 : 1 ≤ st.lack := by omega
    have hl7 : st.lack ≤ 7 := by omega
    have hbase : 8 * st.p + (8 - st.lack) = B.length := by omega
    have hc8 : ceil8 B.length = B.length / 8 + 1 := by simp [ceil8, hmod]
    -- the OR-ed byte
    have hor : ∀ i, i < 8 * st.p + 8 →
        memBit (st.mem.set st.p (st.mem st.p ||| (cd.w0 >>> (64 - st.lack)).truncate 8)) i =
          (B ++ bs).getD i false := by
      intro i hi
      rw [orByte_bit _ _ _ _ hl1 hl7, hbase]
      by_cases hlt : i < B.length
      · rw [if_neg (by omega), hw.hbits i hlt, getD_append_lt _ _ _ hlt]
      · rw [if_pos (by omega), hw.hzero i (by omega) (by omega), getD_append_ge _ _ _ (by omega),
          hbit _ (by omega)]
        simp
    by_cases hlb : st.lack < bs.length
    · simp only [hlb, if_true, h64]
      have hval : ∀ i, i < 8 * st.p + 8 + 64 →
          memBit (writeBE (st.mem.set st.p (st.mem st.p |||
            (cd.w0 >>> (64 - st.lack)).truncate 8)) (st.p + 1) (cd.w0 <<< st.lack)) i =
          (B ++ bs).getD i false := by
        intro i hi
        rw [writeBE_bit]
        by_cases h2 : i < 8 * st.p + 8
        · rw [if_neg (by omega), hor i h2]
        · rw [if_pos (by omega), getD_append_ge _ _ _ (by omega)]
          simp only [BitVec.getMsbD_shiftLeft]
          by_cases h3 : i - 8 * (st.p + 1) + st.lack < 64
          · rw [hbit _ h3]
            congr 1; omega
          · rw [getD_ge bs _ (by omega)]
            apply BitVec.getMsbD_of_ge
            omega
      refine ⟨?_, ?_, ?_, ?_, ?_⟩
      · simp only [List.length_append]; omega
      · simp only [List.length_append, lackOf]; split <;> split <;> omega
      · simp only [List.length_append, hoo, ceil8]; split <;> split <;> split <;> omega
      · intro i hi
        simp only [List.length_append] at hi
        exact hval i (by omega)
      · intro i hi1 hi2
        simp only [List.length_append] at hi1 hi2
        have : 8 * ceil8 (B.length + bs.length) ≤ 8 * st.p + 8 + 64 := by
          unfold ceil8; split <;> omega
        rw [hval i (by omega)]
        exact getD_ge _ _ (by simp; omega)
    · simp only [hlb, if_false]
      have hlen' : (B ++ bs).length = B.length + bs.length := by simp
      refine ⟨?_, ?_, ?_, ?_, ?_⟩
      · simp only [hlen']; split <;> omega
      · simp only [hlen', lackOf]; split <;> omega
      · simp only [hlen', hoo, ceil8]; split <;> split <;> omega
      · intro i hi
        rw [hlen'] at hi
        exact hor i (by omega)
      · intro i hi1 hi2
        rw [hlen'] at hi1 hi2
        have : 8 * ceil8 (B.length + bs.length) ≤ 8 * st.p + 8 := by
          unfold ceil8; split <;> omega
        rw [show _ = _ from hor i (by omega)]
        exact getD_ge _ _ (by rw [hlen']; omega)

/-- Bytes that `encodeStep` may have changed. -/
theorem encodeStep_footprint (st : WState) (B bs : List Bool) (cd : Code)
    (hw : Written st B) (hlen : cd.len.toNat = bs.length) (h64 : bs.length ≤ 64) (i : Nat)
    (hi : st.outSize + 8 ≤ i) : (encodeStep st cd).mem i = st.mem i := by
  have hpp := hw.hp
  have hoo := hw.hout
  have hlk := hw.hlack
  have hp1 : st.p + (if st.lack = 0 then 0 else 1) ≤ st.outSize := by
    rw [hpp, hoo, hlk]; unfold lackOf ceil8; split <;> split <;> omega
  unfold encodeStep
  simp only [hlen]
  have hceil : ceil8 bs.length ≤ 8 := by unfold ceil8; split <;> omega
  by_cases h0 : st.lack = 0
  · simp only [h0, if_true, hceil] at hp1 ⊢
    simp only [writeBE]
    rw [if_neg (by omega)]
  · simp only [h0, if_false] at hp1 ⊢
    split
    · simp only [writeBE]
      rw [if_neg (by omega), Mem.set, if_neg (by omega)]
    · simp only [Mem.set]
      rw [if_neg (by omega)]

theorem Written.outSize_mono (st : WState) (B bs : List Bool) (st' : WState)
    (h : Written st B) (h' : Written st' (B ++ bs)) : st.outSize ≤ st'.outSize := by
  rw [h.hout, h'.hout]
  simp only [List.length_append, ceil8]; split <;> split <;> omega

/-- A code table that assigns to each symbol of `s` a non-empty word of at most 64 bits. -/
def GoodTab (tab : CodeTab) (bits : Nat → List Bool) (s : List Nat) : Prop :=
  ∀ c ∈ s, ∃ cd, tab c = some cd ∧ AlignedCode cd (bits c) ∧ bits c ≠ []

theorem encodeLoop_written (tab : CodeTab) (bits : Nat → List Bool) (s : List Nat)
    (st : WState) (B : List Bool) (hg : GoodTab tab bits s) (hw : Written st B) :
    ∃ st', encodeLoop tab s st = some st' ∧ Written st' (B ++ s.flatMap bits) ∧
      ∀ i, st'.outSize + 8 ≤ i → st'.mem i = st.mem i := by
  induction s generalizing st B with
  | nil => exact ⟨st, rfl, by simpa using hw, fun _ _ => rfl⟩
  | cons c cs ih =>
    obtain ⟨cd, h1, h2, h3⟩ := hg c (by simp)
    have hw' := encodeStep_written st B (bits c) cd hw h2 h3
    obtain ⟨st', h4, h5, h6⟩ := ih (encodeStep st cd) (B ++ bits c)
      (fun x hx => hg x (by simp [hx])) hw'
    refine ⟨st', by simp only [encodeLoop, h1, h4], by simpa using h5, ?_⟩
    intro i hi
    have hm : (encodeStep st cd).outSize ≤ st'.outSize :=
      Written.outSize_mono _ _ _ _ hw' h5
    have hm2 : st.outSize ≤ (encodeStep st cd).outSize := Written.outSize_mono _ _ _ _ hw hw'
    rw [h6 i hi, encodeStep_footprint st B (bits c) cd hw h2.1 h2.2.1 i (by omega)]

theorem written_init (mem : Mem) (b0 : Nat) : Written ⟨mem, 0, 0, 0, b0⟩ [] :=
  ⟨rfl, rfl, rfl, by simp, by simp [ceil8]⟩

end CpSZ.Huff
