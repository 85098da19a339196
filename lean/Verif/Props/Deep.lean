import Verif.Huffman.Deep
import Verif.Huffman.Top
import Verif.Props.Huffman

/-!
# C03: code words of more than 64 bits
-/

namespace CpSZ.Huff

theorem deep_count (rest s : List Nat)
    (hrest : ∀ c, rest.count c = if c < 66 then restFreq c else 0)
    (h : s.Perm (0 :: 64 :: 65 :: rest)) : (fun c => s.count c) = deepFreq := by
  funext c
  rw [h.count_eq]
  simp only [List.count_cons, beq_iff_eq, hrest]
  by_cases h66 : c < 66
  · rw [if_pos h66, restFreq]
    have hpos : 0 < deepFreq 0 ∧ 0 < deepFreq 64 ∧ 0 < deepFreq 65 := by decide +kernel
    generalize hd : deepFreq = d at hpos
    by_cases h0 : c = 0
    · subst h0
      simp
      omega
    · by_cases h1 : c = 64
      · subst h1
        simp
        omega
      · by_cases h2 : c = 65
        · subst h2
          simp
          omega
        · rw [if_neg (by omega), if_neg (by omega), if_neg (by omega), if_neg (by omega)]
          omega
  · rw [if_neg h66, if_neg (by omega), if_neg (by omega), if_neg (by omega), deepFreq, if_neg h66]

theorem deep_bound (rest s : List Nat) (hlen : rest.length < 2 ^ 47) (hmem : ∀ x ∈ rest, x < 66)
    (h : s.Perm (0 :: 64 :: 65 :: rest)) :
    s ≠ [] ∧ s.length < 2 ^ 48 ∧ ∀ x ∈ s, x < 66 := by
  refine ⟨?_, ?_, ?_⟩
  · rintro rfl
    exact absurd h.length_eq (by simp)
  · have := h.length_eq
    simp only [List.length_cons] at *
    omega
  · intro x hx
    have := h.mem_iff.1 hx
    simp only [List.mem_cons] at this
    rcases this with rfl | rfl | rfl | h
    · omega
    · omega
    · omega
    · exact hmem _ h

/-- Tree and code table of every arrangement of the Fibonacci histogram. -/
theorem deep_init (rest : List Nat) (hmem : ∀ x ∈ rest, x < 66) (hlen : rest.length < 2 ^ 47)
    (hrest : ∀ c, rest.count c = if c < 66 then restFreq c else 0)
    (swap : Nat → Bool) (ub : BitVec 64) (stateNum : Nat) (hst : 66 ≤ stateNum) :
    ∃ t tab z a b, Comb (List.range 66) t ∧ tab 0 = some z ∧ tab 64 = some a ∧ tab 65 = some b ∧
      z.len = 1#8 ∧ a.len = 65#8 ∧ b.len = 65#8 ∧ a.w0 = b.w0 ∧
      ∀ s : List Nat, s.Perm (0 :: 64 :: 65 :: rest) →
        buildTree swap stateNum s = some t ∧ initHuff swap stateNum ub s = some (t, tab) := by
  obtain ⟨t, ht, hcomb⟩ := deep_comb swap (2 * stateNum) (by omega)
  have hc : ∀ c ∈ List.range 66, c < stateNum := fun c h => by
    have := List.mem_range.1 h
    omega
  obtain ⟨tab, a, b, h1, h2, h3, h4, h5, h6⟩ := comb_deep stateNum ub hcomb hc List.nodup_range
    (List.range 64) 64 65 (by decide) 0 (by simp) 0#64 0#64 (fun _ => none)
  have hr : List.range 66 = 0 :: (List.range 65).map (· + 1) := by decide
  rw [hr] at hcomb
  obtain ⟨tab', z, h1', h7, h8⟩ := comb_first stateNum ub 0 hcomb (by decide)
    (fun c h => hc c (hr ▸ h)) (by simp) 0#64 0#64 (fun _ => none)
  rw [h1] at h1'
  cases h1'
  refine ⟨t, tab, z, a, b, hr ▸ hcomb, h7, h2, h3, h8, h5, h6, h4, fun s hs => ?_⟩
  have hbt : buildTree swap stateNum s = some t := by
    rw [buildTree, if_pos, deep_count rest s hrest hs, ht]
    rw [List.all_eq_true]
    intro x hx
    have := (deep_bound rest s hlen hmem hs).2.2 x hx
    simp only [decide_eq_true_eq]
    omega
  refine ⟨hbt, ?_⟩
  simp only [initHuff, hbt, h1]

/-- C03 is false: with any state count of at least 66 there is an array of fewer than 2^48
symbols for which a symbol gets a code word of 65 bits. -/
theorem C03_long_code_word (swap : Nat → Bool) (ub : BitVec 64) (stateNum : Nat)
    (hst : 66 ≤ stateNum) :
    ∃ (s : List Nat) (t : HTree) (tab : CodeTab) (c : Nat) (cd : Code),
      s ≠ [] ∧ s.length < 2 ^ 48 ∧ (∀ x ∈ s, x < stateNum) ∧ c ∈ s ∧
      initHuff swap stateNum ub s = some (t, tab) ∧ tab c = some cd ∧ cd.len.toNat = 65 := by
  obtain ⟨rest, hlen, hmem, hrest⟩ := deep_rest
  obtain ⟨t, tab, z, a, b, _, _, h64, _, _, ha, _, _, hall⟩ := deep_init rest hmem hlen hrest swap ub stateNum hst
  obtain ⟨h1, h2, h3⟩ := deep_bound rest _ hlen hmem (List.Perm.refl (0 :: 64 :: 65 :: rest))
  refine ⟨0 :: 64 :: 65 :: rest, t, tab, 64, a, h1, h2, fun x hx => ?_, by simp,
    (hall _ (List.Perm.refl _)).2, h64, by rw [ha]; rfl⟩
  have := h3 x hx
  omega

/-- … and such an array is really corrupted: there is an array of fewer than 2^48 symbols,
all of them below the state count, for which decoding what was encoded does not return the
array. -/
theorem C03_roundtrip_fails (swap : Nat → Bool) (ub : BitVec 64) (b0 : Nat) (mem : Mem)
    (stateNum : Nat) (hst : 66 ≤ stateNum) :
    ∃ s : List Nat, s ≠ [] ∧ s.length < 2 ^ 48 ∧ (∀ x ∈ s, x < stateNum) ∧
      ¬ ∃ bytes, huffEncode swap ub b0 mem stateNum s = some bytes ∧
        ∀ rest, huffDecode stateNum s.length (bytes ++ rest) = some (s, rest) := by
  obtain ⟨rest, hlen, hmem, hrest⟩ := deep_rest
  obtain ⟨t, tab, z, a, b, _, hz, hx, hy, hz1, ha, hb, hab, hall⟩ := deep_init rest hmem hlen hrest swap ub stateNum hst
  have hp1 := List.Perm.refl (0 :: 64 :: 65 :: rest)
  have hp2 : (0 :: 65 :: 64 :: rest).Perm (0 :: 64 :: 65 :: rest) :=
    (List.Perm.swap _ _ _).cons _
  have henc : encode tab (0 :: 64 :: 65 :: rest) mem b0
      = encode tab (0 :: 65 :: 64 :: rest) mem b0 := by
    simp only [encode, encodeLoop, hz, hx, hy]
    have h7 := encodeStep_first { mem := mem, p := 0, lack := 0, outSize := 0, byteSize := b0 } z hz1 rfl
    generalize encodeStep { mem := mem, p := 0, lack := 0, outSize := 0, byteSize := b0 } z = st at h7
    obtain ⟨e1, l1⟩ := encodeStep_65 st a b hab ha hb (by omega) (by omega)
    rw [e1] at l1 ⊢
    rw [(encodeStep_65 (encodeStep st b) a b hab ha hb (by omega) (by omega)).1]
  have hsame : huffEncode swap ub b0 mem stateNum (0 :: 64 :: 65 :: rest)
      = huffEncode swap ub b0 mem stateNum (0 :: 65 :: 64 :: rest) := by
    simp only [huffEncode, (hall _ hp1).2, (hall _ hp2).2, henc]
  have bound : ∀ s : List Nat, s.Perm (0 :: 64 :: 65 :: rest) →
      s ≠ [] ∧ s.length < 2 ^ 48 ∧ ∀ x ∈ s, x < stateNum := fun s hs => by
    obtain ⟨h1, h2, h3⟩ := deep_bound rest s hlen hmem hs
    exact ⟨h1, h2, fun x hx => by have := h3 x hx; omega⟩
  by_contra hno
  push Not at hno
  obtain ⟨c1, c2, c3⟩ := bound _ hp1
  obtain ⟨d1, d2, d3⟩ := bound _ hp2
  obtain ⟨bytes, hE, hD⟩ := hno _ c1 c2 c3
  obtain ⟨bytes', hE', hD'⟩ := hno _ d1 d2 d3
  rw [hsame, hE'] at hE
  cases hE
  have h1 := hD []
  have h2 := hD' []
  simp only [List.length_cons] at h1 h2
  rw [h1] at h2
  simp at h2

/-- C03, the part that holds: whatever the queue does, no code word is longer than 64 bits if
at most 65 different symbols occur. -/
theorem C03_few_symbols_partial (swap : Nat → Bool) (stateNum : Nat) (s l : List Nat)
    (hs : s ≠ []) (hb : ∀ x ∈ s, x < stateNum) (hl : l.length ≤ 65) (hsl : ∀ x ∈ s, x ∈ l)
    (t : HTree) (ht : buildTree swap stateNum s = some t) : t.depth ≤ 64 := by
  obtain ⟨t', ht', hnd, hmem⟩ := buildTree_spec swap stateNum s hs
    (fun x hx => by have := hb x hx; omega)
  rw [ht] at ht'
  obtain rfl := Option.some.inj ht'
  have hsub : t.syms.length ≤ l.length :=
    nodup_subset_length t.syms l hnd (fun c hc => hsl c ((hmem c).1 hc))
  have := t.depth_lt_syms
  omega

/-- The bound 65 is sharp: 66 different symbols suffice for the failures above. -/
example (swap : Nat → Bool) (ub : BitVec 64) : ∃ (s : List Nat) (t : HTree) (tab : CodeTab)
    (c : Nat) (cd : Code), s ≠ [] ∧ s.length < 2 ^ 48 ∧ (∀ x ∈ s, x < 66) ∧ c ∈ s ∧
      initHuff swap 66 ub s = some (t, tab) ∧ tab c = some cd ∧ cd.len.toNat = 65 :=
  C03_long_code_word swap ub 66 (by omega)

/-- Hypotheses of the partial theorem on a concrete array. -/
example (t : HTree) (h : buildTree (fun _ => true) 9 [3, 3, 8, 1] = some t) : t.depth ≤ 64 :=
  C03_few_symbols_partial _ 9 [3, 3, 8, 1] [1, 3, 8] (by decide) (by decide) (by decide) (by decide) t h

end CpSZ.Huff
