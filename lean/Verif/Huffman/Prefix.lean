import Verif.Huffman.Top
/-
Prefix-freeness and Kraft equality of tree codes.
-/

namespace CpSZ.Huff

theorem paths_prefix (t : HTree) (p q : Nat × List Bool) (hp : p ∈ t.paths) (hq : q ∈ t.paths)
    (hnd : t.syms.Nodup) (h : p.2 <+: q.2) : p.1 = q.1 := by
  induction t generalizing p q with
  | leaf f c =>
    simp only [HTree.paths, List.mem_singleton] at hp hq
    rw [hp, hq]
  | node f l r ihl ihr =>
    simp only [HTree.syms, List.nodup_append] at hnd
    simp only [HTree.paths, List.mem_append, List.mem_map] at hp hq
    rcases hp with ⟨a, ha, rfl⟩ | ⟨a, ha, rfl⟩ <;> rcases hq with ⟨b, hb, rfl⟩ | ⟨b, hb, rfl⟩
    · exact ihl a b ha hb hnd.1 (by simpa using h)
    · simp at h
    · simp at h
    · exact ihr a b ha hb hnd.2.1 (by simpa using h)

/-- `∑ 2^(D - length)` over the code words equals `2^D`. -/
theorem paths_kraft (t : HTree) (D : Nat) (hD : t.depth ≤ D) :
    (t.paths.map fun p => 2 ^ (D - p.2.length)).sum = 2 ^ D := by
  induction t generalizing D with
  | leaf f c => simp [HTree.paths]
  | node f l r ihl ihr =>
    simp only [HTree.depth] at hD
    obtain ⟨E, rfl⟩ : ∃ E, D = E + 1 := ⟨D - 1, by omega⟩
    simp only [HTree.paths, List.map_append, List.map_map, List.sum_append, Function.comp_def,
      List.length_cons, Nat.add_sub_add_right]
    rw [ihl E (by omega), ihr E (by omega), Nat.pow_succ]
    omega

/-- The bits of a table entry: the `len` most significant bits of the first word. -/
def Code.bits (cd : Code) : List Bool := (List.range cd.len.toNat).map cd.w0.getMsbD

theorem AlignedCode.bits_eq {cd : Code} {bs : List Bool} (h : AlignedCode cd bs) :
    cd.bits = bs := by
  obtain ⟨h1, h2, h3⟩ := h
  apply List.ext_getElem
  · simp [Code.bits, h1]
  · intro i hi1 hi2
    simp only [Code.bits, List.getElem_map, List.getElem_range]
    rw [h3 i (by omega), List.getD_eq_getElem?_getD, List.getElem?_eq_getElem hi2]
    rfl

/-- Table built from a tree of depth at most 64: lengths and (for two or more symbols) bits. -/
theorem buildCode_table (stateNum : Nat) (ub : BitVec 64) (t : HTree)
    (hc : ∀ c ∈ t.syms, c < stateNum) (hnd : t.syms.Nodup) (hd : t.depth ≤ 64) :
    ∃ tab, buildCode stateNum ub t 0 0#64 0#64 (fun _ => none) = some tab ∧
      (∀ c, (tab c).isSome ↔ c ∈ t.syms) ∧
      ∀ p ∈ t.paths, ∃ cd, tab p.1 = some cd ∧ cd.bits = p.2 := by
  obtain ⟨tab', h7, h8⟩ := buildCode_dom stateNum ub t 0 0#64 0#64 (fun _ => none) hc
  refine ⟨tab', h7, fun c => by simpa using h8 c, ?_⟩
  by_cases hd0 : 0 < t.depth
  · obtain ⟨tab, h1, h2, _⟩ := buildCode_spec stateNum ub t [] (fun _ => none) (by simpa using hd)
      (Or.inr hd0) hc hnd
    have h1' : buildCode stateNum ub t 0 0#64 0#64 (fun _ => none) = some tab := h1
    rw [h1'] at h7
    obtain rfl := Option.some.inj h7
    intro p hp
    obtain ⟨cd, e1, e2⟩ := h2 p hp
    exact ⟨cd, e1, by simpa using e2.bits_eq⟩
  · cases t with
    | node f l r => simp [HTree.depth] at hd0
    | leaf f c =>
      have hcst : c < stateNum := hc c (by simp [HTree.syms])
      intro p hp
      simp only [HTree.paths, List.mem_singleton] at hp
      subst hp
      simp only [buildCode, hcst, if_true, Nat.zero_le] at h7
      obtain rfl := Option.some.inj h7
      exact ⟨_, if_pos rfl, rfl⟩

theorem sum_map_zero (f : Nat → Nat) (l : List Nat) (h : ∀ x ∈ l, f x = 0) :
    (l.map f).sum = 0 := by
  induction l with
  | nil => rfl
  | cons a l ih =>
    simp [h a (by simp), ih (fun x hx => h x (by simp [hx]))]

theorem sum_filter (f : Nat → Nat) (p : Nat → Bool) (l : List Nat)
    (h : ∀ x ∈ l, p x = false → f x = 0) : ((l.filter p).map f).sum = (l.map f).sum := by
  induction l with
  | nil => rfl
  | cons a l ih =>
    have := ih (fun x hx => h x (by simp [hx]))
    by_cases hp : p a
    · simp [hp, this]
    · have h0 := h a (by simp) (by simpa using hp)
      simp [hp, this, h0]

theorem sum_range_support (f : Nat → Nat) (n : Nat) (l : List Nat) (hnd : l.Nodup)
    (hlt : ∀ c ∈ l, c < n) (h0 : ∀ c, c ∉ l → f c = 0) :
    ((List.range n).map f).sum = (l.map f).sum := by
  rw [← sum_filter f (· ∈ l) (List.range n) (fun x _ hx => h0 x (by simpa using hx))]
  have hp : ((List.range n).filter (· ∈ l)).Perm l := by
    rw [List.perm_ext_iff_of_nodup (List.filter_sublist.nodup List.nodup_range) hnd]
    intro c
    simp only [List.mem_filter, List.mem_range, decide_eq_true_eq]
    exact ⟨fun h => h.2, fun h => ⟨hlt c h, h⟩⟩
  exact (hp.map f).sum_nat

end CpSZ.Huff
