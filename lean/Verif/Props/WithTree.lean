import Verif.Huffman.WithTree
/-
Property C94 (the self contained entropy coded stream).
-/

namespace CpSZ.Huff

/-- C94, the stream.  For a non-empty array `encode_withTree` produces a stream whose first word is
the number of tree nodes (twice the number of different symbols minus one) and whose second word is
half the number of states.  `decode_withTree` returns the array from it, whatever follows the stream,
with any tree object created for at least half as many states; the reported size is the sum of
the parts. -/
theorem C94_roundtrip (swap : Nat → Bool) (ub : BitVec 64) (b0 : Nat) (mem : Mem)
    (stateNum : Nat) (s : List Nat) (hs : s ≠ []) (hb : ∀ x ∈ s, x < stateNum)
    (hst : stateNum ≤ 2 ^ 26)
    (hdepth : ∀ t, buildTree swap stateNum s = some t → t.depth ≤ 64) :
    ∃ r l, encodeWithTree swap ub b0 mem stateNum s = some r ∧
      (l : List Nat).Nodup ∧ (∀ c, c ∈ l ↔ c ∈ s) ∧
      readBE4 r.bytes = some (2 * l.length - 1) ∧
      readBE4 (r.bytes.drop 4) = some (stateNum / 2) ∧
      ∀ state2 rest, stateNum ≤ 2 * state2 →
        decodeWithTree state2 (r.bytes ++ rest) s.length = some s := by
  obtain ⟨t, tb, ht, hsz, htb, hmem, hnd, hrd, hrun⟩ :=
    withTree_run swap ub b0 stateNum s hs hb hst hdepth
  obtain ⟨r, pay, e1, _, _, e4, _, _, _, e8⟩ := hrun mem
  have hsize := t.size_syms
  have hsyms : t.syms.length ≤ stateNum :=
    nodup_length_le t.syms stateNum hnd (fun c h => hb c ((hmem c).1 h))
  refine ⟨r, t.syms, e1, hnd, hmem, ?_, ?_, ?_⟩
  · rw [e4, List.append_assoc, List.append_assoc, readBE4_beBytes4 _ (by omega)]
    congr 1; omega
  · rw [e4, List.append_assoc, List.append_assoc,
      List.drop_left' (show (beBytes4 t.size).length = 4 from rfl),
      readBE4_beBytes4 _ (by omega)]
  · intro state2 rest h2
    rw [e4]
    exact withTree_decode stateNum state2 s t tb pay hsz (by omega) htb hrd e8 rest

/-- C94, the buffer, proved part.  If the array has sixteen or more elements and no code word is
longer than 24 bits then every byte `encode_withTree` writes lies inside the block it requested, and
so does the stream it reports.  Missing: shorter arrays, see `C94_overflow`. -/
theorem C94_in_bounds_partial (swap : Nat → Bool) (ub : BitVec 64) (b0 : Nat) (mem : Mem)
    (stateNum : Nat) (s : List Nat) (hb : ∀ x ∈ s, x < stateNum)
    (hst : stateNum ≤ 2 ^ 26) (hlen : 16 ≤ s.length)
    (hdepth : ∀ t, buildTree swap stateNum s = some t → t.depth ≤ 24) :
    ∃ r, encodeWithTree swap ub b0 mem stateNum s = some r ∧ r.outSize ≤ r.alloc ∧
      ∀ i, r.alloc ≤ i → r.mem i = mem i := by
  have hs : s ≠ [] := by rintro rfl; simp at hlen
  obtain ⟨t, tb, ht, hsz, htb, hmem, hnd, hrd, hrun⟩ :=
    withTree_run swap ub b0 stateNum s hs hb hst (fun t ht => by have := hdepth t ht; omega)
  obtain ⟨r, pay, e1, e2, e3, _, e5, e6, _, _⟩ := hrun mem
  have h24 : t.depth * s.length ≤ 24 * s.length := Nat.mul_le_mul_right _ (hdepth t ht)
  exact ⟨r, e1, by omega, fun i hi => e6 i (by omega)⟩

/-- C94, the buffer: for every array with one element the stream reported by `encode_withTree` is four
bytes longer than the block it requested, and for some content of the memory behind the block the
byte right behind it is overwritten. -/
theorem C94_overflow (swap : Nat → Bool) (ub : BitVec 64) (b0 : Nat)
    (stateNum c : Nat) (hc : c < stateNum) (hst : stateNum ≤ 2 ^ 26) :
    ∃ mem r, encodeWithTree swap ub b0 mem stateNum [c] = some r ∧ r.outSize = r.alloc + 4 ∧
      r.mem r.alloc ≠ mem r.alloc := by
  have hb : ∀ x ∈ [c], x < stateNum := by simpa using hc
  obtain ⟨t', ht', hnd', hmem'⟩ := buildTree_spec swap stateNum [c] (by simp)
    (fun x hx => by have := hb x hx; omega)
  have hsy := nodup_subset_length t'.syms [c] hnd' (fun x hx => (hmem' x).1 hx)
  have hd := t'.depth_lt_syms
  simp only [List.length_cons, List.length_nil] at hsy
  obtain ⟨t, tb, ht, hsz, htb, hmem, hnd, hrd, hrun⟩ :=
    withTree_run swap ub b0 stateNum [c] (by simp) hb hst (fun t ht => by
      rw [ht'] at ht; obtain rfl := Option.some.inj ht; omega)
  rw [ht'] at ht
  obtain rfl := Option.some.inj ht
  have h1 : t'.size = 1 := by have := t'.size_syms; omega
  have hts : tb.length = 8 := by rw [htb, h1]; rfl
  obtain ⟨r, pay, e1, e2, e3, _, e5, _, e7, _⟩ := hrun (fun _ => tb.getD 4 0#8 + 1#8)
  have h0 : t'.depth = 0 := by omega
  rw [h0] at e5
  simp only [List.length_cons, List.length_nil] at e2 e5
  refine ⟨_, r, e1, by omega, ?_⟩
  have := e7 4 (by omega)
  rw [e2, hts]
  rw [show 4 * (0 + 1) + 8 = 8 + 4 from rfl, this]
  intro h
  have h2 := congrArg BitVec.toNat h
  simp only [BitVec.toNat_add, BitVec.toNat_ofNat] at h2
  have := (tb.getD 4 0#8).isLt
  omega

/-- A six element array with four symbols, read back by a tree object made for two states. -/
example : ∃ r, encodeWithTree (fun _ => false) 7#64 99 (fun _ => 255#8) 4 [3, 1, 3, 2, 0, 3] =
    some r ∧ ∀ rest, decodeWithTree 2 (r.bytes ++ rest) 6 = some [3, 1, 3, 2, 0, 3] := by
  obtain ⟨r, l, h1, _, _, _, _, h6⟩ := C94_roundtrip (fun _ => false) 7#64 99 (fun _ => 255#8) 4
    [3, 1, 3, 2, 0, 3] (by decide) (by decide) (by decide) (by
      intro t ht
      obtain ⟨t', h1, h2, h3⟩ := buildTree_spec (fun _ => false) 4 [3, 1, 3, 2, 0, 3]
        (by decide) (by decide)
      rw [h1] at ht
      obtain rfl := Option.some.inj ht
      have := nodup_subset_length t'.syms [0, 1, 2, 3] h2
        (fun c hc => by have := (h3 c).1 hc; revert this; simp; omega)
      have := t'.depth_lt_syms
      simp only [List.length_cons, List.length_nil] at *
      omega)
  exact ⟨r, h1, fun rest => h6 2 rest (by decide)⟩

/-- A sixteen element array with two symbols. -/
example : ∃ r, encodeWithTree (fun _ => true) 0#64 0 (fun _ => 0#8) 8
      [3, 1, 3, 1, 1, 3, 3, 1, 3, 1, 3, 1, 1, 1, 1, 3] = some r ∧ r.outSize ≤ r.alloc := by
  obtain ⟨r, h1, h2, _⟩ := C94_in_bounds_partial (fun _ => true) 0#64 0 (fun _ => 0#8) 8
    [3, 1, 3, 1, 1, 3, 3, 1, 3, 1, 3, 1, 1, 1, 1, 3] (by decide) (by decide) (by decide) (by
      intro t ht
      obtain ⟨t', h1, h2, h3⟩ := buildTree_spec (fun _ => true) 8
        [3, 1, 3, 1, 1, 3, 3, 1, 3, 1, 3, 1, 1, 1, 1, 3] (by decide) (by decide)
      rw [h1] at ht
      obtain rfl := Option.some.inj ht
      have := nodup_subset_length t'.syms [1, 3] h2
        (fun c hc => by have := (h3 c).1 hc; revert this; simp; omega)
      have := t'.depth_lt_syms
      simp only [List.length_cons, List.length_nil] at *
      omega)
  exact ⟨r, h1, h2⟩

example : ∃ mem r, encodeWithTree (fun _ => false) 0#64 0 mem 2048 [17] = some r ∧
    r.outSize = r.alloc + 4 ∧ r.mem r.alloc ≠ mem r.alloc :=
  C94_overflow _ _ _ 2048 17 (by decide) (by decide)

end CpSZ.Huff
