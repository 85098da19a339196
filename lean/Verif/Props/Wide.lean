import Verif.Huffman.Wide
import Verif.Props.Deep

/-!
# C03: code words of more than 64 bits in arrays of fewer than 2^31 elements
-/

namespace CpSZ.Huff

/-- How often the symbols remain after the first three of the witness. -/
def wideRest (c : Nat) : Nat := wideFreq c - if c = 435 ∨ c = 146 ∨ c = 585 then 1 else 0

theorem wide_pos : 0 < wideFreq 435 ∧ 0 < wideFreq 146 ∧ 0 < wideFreq 585 := by decide +kernel

theorem wide_rest_total : ((List.range 700).map wideRest).sum = 1897276097 := by decide +kernel

/-- Remaining symbols of the witness. -/
theorem wide_rest : ∃ rest : List Nat, rest.length = 1897276097 ∧ (∀ x ∈ rest, x < 700) ∧
    ∀ c, rest.count c = if c < 700 then wideRest c else 0 :=
  ⟨blocks wideRest 700, by rw [length_blocks]; exact wide_rest_total, fun _ => mem_blocks _ _ _,
    count_blocks _ _⟩

theorem wide_count (rest s : List Nat)
    (hrest : ∀ c, rest.count c = if c < 700 then wideRest c else 0)
    (h : s.Perm (435 :: 146 :: 585 :: rest)) : (fun c => s.count c) = wideFreq := by
  funext c
  rw [h.count_eq]
  simp only [List.count_cons, beq_iff_eq, hrest]
  by_cases hc : c < 700
  · rw [if_pos hc, wideRest]
    have hpos := wide_pos
    have hge : ∀ c, 700 ≤ c → wideFreq c = 0 := fun c h => wideFreq_ge h
    generalize wideFreq = d at hpos hge
    by_cases h0 : c = 435
    · subst h0
      simp
      omega
    · by_cases h1 : c = 146
      · subst h1
        simp
        omega
      · by_cases h2 : c = 585
        · subst h2
          simp
          omega
        · rw [if_neg (by omega), if_neg (by omega), if_neg (by omega), if_neg (by omega)]
          omega
  · rw [if_neg hc, if_neg (by omega), if_neg (by omega), if_neg (by omega), wideFreq_ge (by omega)]

theorem wide_bound (rest s : List Nat) (hlen : rest.length = 1897276097) (hmem : ∀ x ∈ rest, x < 700)
    (h : s.Perm (435 :: 146 :: 585 :: rest)) :
    s ≠ [] ∧ s.length = 1897276100 ∧ ∀ x ∈ s, x < 700 := by
  refine ⟨?_, ?_, ?_⟩
  · rintro rfl
    exact absurd h.length_eq (by simp)
  · have := h.length_eq
    simp only [List.length_cons] at this
    omega
  · intro x hx
    have := h.mem_iff.1 hx
    simp only [List.mem_cons] at this
    rcases this with rfl | rfl | rfl | h
    · omega
    · omega
    · omega
    · exact hmem _ h

/-- Tree and code table of every arrangement of the histogram. -/
theorem wide_init (rest : List Nat) (hmem : ∀ x ∈ rest, x < 700) (hlen : rest.length = 1897276097)
    (hrest : ∀ c, rest.count c = if c < 700 then wideRest c else 0)
    (swap : Nat → Bool) (ub : BitVec 64) (stateNum : Nat) (hst : 700 ≤ stateNum) :
    ∃ t tab z a b, tab 435 = some z ∧ tab 146 = some a ∧ tab 585 = some b ∧
      z.len = 9#8 ∧ a.len = 65#8 ∧ b.len = 65#8 ∧ a.w0 = b.w0 ∧
      ∀ s : List Nat, s.Perm (435 :: 146 :: 585 :: rest) →
        buildTree swap stateNum s = some t ∧ initHuff swap stateNum ub s = some (t, tab) := by
  obtain ⟨t, ht, hsib, hat⟩ := wide_tree swap (2 * stateNum) (by omega)
  have hbt : ∀ s : List Nat, s.Perm (435 :: 146 :: 585 :: rest) →
      buildTree swap stateNum s = some t := fun s hs => by
    rw [buildTree, if_pos, wide_count rest s hrest hs, ht]
    rw [List.all_eq_true]
    intro x hx
    have := (wide_bound rest s hlen hmem hs).2.2 x hx
    simp only [decide_eq_true_eq]
    omega
  obtain ⟨b1, -, b3⟩ := wide_bound rest _ hlen hmem (List.Perm.refl _)
  obtain ⟨t', ht', hnd, hsy⟩ := buildTree_spec swap stateNum (435 :: 146 :: 585 :: rest) b1
    (fun x hx => by have := b3 x hx; omega)
  rw [hbt _ (List.Perm.refl _)] at ht'
  obtain rfl := Option.some.inj ht'
  have hc : ∀ c ∈ t.syms, c < stateNum := fun c h => by
    have := b3 c ((hsy c).1 h)
    omega
  obtain ⟨tab, a, b, h1, h2, h3, h4, h5, h6⟩ := sib_code stateNum ub hsib hc hnd 0 (by omega)
    0#64 0#64 (fun _ => none)
  obtain ⟨tab', z, h1', h7, h8⟩ := at_code stateNum ub hat hc hnd 0 0#64 0#64 (fun _ => none)
  rw [h1] at h1'
  cases h1'
  refine ⟨t, tab, z, a, b, h7, h2, h3, h8, h5, h6, h4, fun s hs => ⟨hbt s hs, ?_⟩⟩
  simp only [initHuff, hbt s hs, h1]

theorem encodeStep_nine (st : WState) (a : Code) (ha : a.len = 9#8) (h0 : st.lack = 0) :
    (encodeStep st a).lack = 7 := by
  have h1 : (9#8).toNat = 9 := rfl
  simp only [encodeStep, ha, h1, h0, if_true]
  rfl

/-- C03 is false for arrays whose length fits an `int`: with any state count of at least 700 there
is an array of 1897276100 symbols for which a symbol gets a code word of 65 bits. -/
theorem C03_long_code_word_int (swap : Nat → Bool) (ub : BitVec 64) (stateNum : Nat)
    (hst : 700 ≤ stateNum) :
    ∃ (s : List Nat) (t : HTree) (tab : CodeTab) (c : Nat) (cd : Code),
      s.length = 1897276100 ∧ (∀ x ∈ s, x < 700) ∧ c ∈ s ∧
      initHuff swap stateNum ub s = some (t, tab) ∧ tab c = some cd ∧ cd.len.toNat = 65 := by
  obtain ⟨rest, hlen, hmem, hrest⟩ := wide_rest
  obtain ⟨t, tab, z, a, b, _, h64, _, _, ha, _, _, hall⟩ :=
    wide_init rest hmem hlen hrest swap ub stateNum hst
  obtain ⟨-, h2, h3⟩ := wide_bound rest _ hlen hmem (List.Perm.refl _)
  exact ⟨435 :: 146 :: 585 :: rest, t, tab, 146, a, h2, h3, by simp, (hall _ (List.Perm.refl _)).2,
    h64, by rw [ha]; rfl⟩

/-- … and such an array is really corrupted: decoding what was encoded does not return it. -/
theorem C03_roundtrip_fails_int (swap : Nat → Bool) (ub : BitVec 64) (b0 : Nat) (mem : Mem)
    (stateNum : Nat) (hst : 700 ≤ stateNum) :
    ∃ s : List Nat, s.length = 1897276100 ∧ (∀ x ∈ s, x < 700) ∧
      ¬ ∃ bytes, huffEncode swap ub b0 mem stateNum s = some bytes ∧
        ∀ rest, huffDecode stateNum s.length (bytes ++ rest) = some (s, rest) := by
  obtain ⟨rest, hlen, hmem, hrest⟩ := wide_rest
  obtain ⟨t, tab, z, a, b, hz, hx, hy, hz1, ha, hb, hab, hall⟩ :=
    wide_init rest hmem hlen hrest swap ub stateNum hst
  have hp1 := List.Perm.refl (435 :: 146 :: 585 :: rest)
  have hp2 : (435 :: 585 :: 146 :: rest).Perm (435 :: 146 :: 585 :: rest) :=
    (List.Perm.swap _ _ _).cons _
  have henc : encode tab (435 :: 146 :: 585 :: rest) mem b0
      = encode tab (435 :: 585 :: 146 :: rest) mem b0 := by
    simp only [encode, encodeLoop, hz, hx, hy]
    have h7 := encodeStep_nine { mem := mem, p := 0, lack := 0, outSize := 0, byteSize := b0 } z hz1 rfl
    generalize encodeStep { mem := mem, p := 0, lack := 0, outSize := 0, byteSize := b0 } z = st at h7
    obtain ⟨e1, l1⟩ := encodeStep_65 st a b hab ha hb (by omega) (by omega)
    rw [e1] at l1 ⊢
    rw [(encodeStep_65 (encodeStep st b) a b hab ha hb (by omega) (by omega)).1]
  have hsame : huffEncode swap ub b0 mem stateNum (435 :: 146 :: 585 :: rest)
      = huffEncode swap ub b0 mem stateNum (435 :: 585 :: 146 :: rest) := by
    simp only [huffEncode, (hall _ hp1).2, (hall _ hp2).2, henc]
  by_contra hno
  push Not at hno
  obtain ⟨-, c2, c3⟩ := wide_bound rest _ hlen hmem hp1
  obtain ⟨-, d2, d3⟩ := wide_bound rest _ hlen hmem hp2
  obtain ⟨bytes, hE, hD⟩ := hno _ c2 c3
  obtain ⟨bytes', hE', hD'⟩ := hno _ d2 d3
  rw [hsame, hE'] at hE
  cases hE
  have h1 := hD []
  have h2 := hD' []
  simp only [List.length_cons] at h1 h2
  rw [h1] at h2
  simp at h2

/-- The state count of the compressors with the default capacity of 65536 intervals. -/
example (swap : Nat → Bool) (ub : BitVec 64) (b0 : Nat) (mem : Mem) :
    ∃ s : List Nat, s.length = 1897276100 ∧ s.length < 2 ^ 31 ∧ (∀ x ∈ s, x < 2 * 65536) ∧
      ¬ ∃ bytes, huffEncode swap ub b0 mem (2 * 65536) s = some bytes ∧
        ∀ rest, huffDecode (2 * 65536) s.length (bytes ++ rest) = some (s, rest) := by
  obtain ⟨s, h1, h2, h3⟩ := C03_roundtrip_fails_int swap ub b0 mem (2 * 65536) (by omega)
  exact ⟨s, h1, by omega, fun x hx => by have := h2 x hx; omega, h3⟩

end CpSZ.Huff
