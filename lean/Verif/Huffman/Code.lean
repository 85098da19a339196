import Verif.Huffman.Queue
/-
Code words: `build_code` assigns to each leaf the left-aligned bits of its path.
-/

namespace CpSZ.Huff

/-- Path (0 = left, 1 = right) to each leaf: the mathematical code of a tree. -/
def HTree.paths : HTree → List (Nat × List Bool)
  | .leaf _ c => [(c, [])]
  | .node _ l r =>
    (l.paths.map fun p => (p.1, false :: p.2)) ++ (r.paths.map fun p => (p.1, true :: p.2))

theorem HTree.paths_syms (t : HTree) : t.paths.map Prod.fst = t.syms := by
  induction t with
  | leaf f c => rfl
  | node f l r ihl ihr => simp [paths, syms, ← ihl, ← ihr, List.map_map, Function.comp_def]

theorem HTree.paths_length (t : HTree) : ∀ p ∈ t.paths, p.2.length ≤ t.depth := by
  induction t with
  | leaf f c => simp [paths, depth]
  | node f l r ihl ihr =>
    intro p hp
    simp only [paths, List.mem_append, List.mem_map] at hp
    rcases hp with ⟨a, ha, rfl⟩ | ⟨a, ha, rfl⟩
    · have := ihl a ha; simp [depth]; omega
    · have := ihr a ha; simp [depth]; omega

/-- The value `out1` accumulated along a path (at most 64 steps). -/
def ofBits : List Bool → BitVec 64
  | bs => bs.foldl (fun acc b => (acc <<< 1) ||| (if b then 1#64 else 0#64)) 0#64

theorem ofBits_concat (bs : List Bool) (b : Bool) :
    ofBits (bs ++ [b]) = ((ofBits bs <<< 1) ||| 0#64) ||| (if b then 1#64 else 0#64) := by
  simp [ofBits, List.foldl_append]

theorem ofBits_reverse_getLsbD (rs : List Bool) (i : Nat) (hi : i < 64) :
    (ofBits rs.reverse).getLsbD i = rs.getD i false := by
  induction rs generalizing i with
  | nil => simp [ofBits]
  | cons b rs ih =>
    rw [List.reverse_cons, ofBits_concat]
    simp only [BitVec.getLsbD_or, BitVec.getLsbD_shiftLeft]
    cases i with
    | zero => cases b <;> simp
    | succ i =>
      have h1 : ¬ (i + 1 < 1) := by omega
      have h2 : i < 64 := by omega
      simp only [hi, decide_true, h1, decide_false, Bool.not_false, Nat.add_sub_cancel, ih i h2,
        List.getD_cons_succ]
      cases b <;> simp [BitVec.getLsbD_one]

theorem ofBits_getLsbD (bs : List Bool) (i : Nat) (hi : i < 64) :
    (ofBits bs).getLsbD i = bs.reverse.getD i false := by
  have := ofBits_reverse_getLsbD bs.reverse i hi
  rwa [List.reverse_reverse] at this

/-- `cd` is the table entry for the bit string `bs`: the bits, left aligned, zero padded. -/
def AlignedCode (cd : Code) (bs : List Bool) : Prop :=
  cd.len.toNat = bs.length ∧ bs.length ≤ 64 ∧ ∀ i, i < 64 → cd.w0.getMsbD i = bs.getD i false

theorem aligned_leaf (bs : List Bool) (ub w1 : BitVec 64) (h0 : bs ≠ []) (h : bs.length ≤ 64) :
    AlignedCode ⟨shl64 ub (ofBits bs) (64 - bs.length), w1, BitVec.ofNat 8 bs.length⟩ bs := by
  have hpos : 0 < bs.length := List.length_pos_iff.2 h0
  refine ⟨by simp; omega, h, ?_⟩
  intro i hi
  have : 64 - bs.length < 64 := by omega
  simp only [shl64, this, if_true, BitVec.getMsbD, hi, decide_true, Bool.true_and,
    BitVec.getLsbD_shiftLeft]
  have h1 : 64 - 1 - i < 64 := by omega
  by_cases hib : i < bs.length
  · have h2 : ¬ (64 - 1 - i < 64 - bs.length) := by omega
    simp only [h1, decide_true, h2, decide_false, Bool.not_false, Bool.true_and]
    rw [ofBits_getLsbD _ _ (by omega)]
    have e : 64 - 1 - i - (64 - bs.length) = bs.length - 1 - i := by omega
    rw [e, List.getD_eq_getElem?_getD, List.getD_eq_getElem?_getD,
      List.getElem?_reverse (by omega)]
    congr 2
    omega
  · have h2 : 64 - 1 - i < 64 - bs.length := by omega
    have h3 : bs.getD i false = false := by
      rw [List.getD_eq_getElem?_getD, List.getElem?_eq_none (by omega)]; rfl
    simp only [h2, decide_true, Bool.not_true, Bool.and_false, Bool.false_and, h3]

/-- Effect of `build_code` on a subtree reached by the path `pre`. -/
theorem buildCode_spec (stateNum : Nat) (ub : BitVec 64) (t : HTree) (pre : List Bool)
    (tab : CodeTab) (hlen : pre.length + t.depth ≤ 64) (hne : pre ≠ [] ∨ 0 < t.depth)
    (hc : ∀ c ∈ t.syms, c < stateNum) (hnd : t.syms.Nodup) :
    ∃ tab', buildCode stateNum ub t pre.length (ofBits pre) 0#64 tab = some tab' ∧
      (∀ p ∈ t.paths, ∃ cd, tab' p.1 = some cd ∧ AlignedCode cd (pre ++ p.2)) ∧
      (∀ c, c ∉ t.syms → tab' c = tab c) := by
  induction t generalizing pre tab with
  | leaf f c =>
    have hpre : pre ≠ [] := by
      rcases hne with h | h
      · exact h
      · simp [HTree.depth] at h
    have h64 : pre.length ≤ 64 := by omega
    have hcs : c < stateNum := hc c (by simp [HTree.syms])
    simp only [buildCode, hcs, if_true, h64]
    refine ⟨_, rfl, ?_, ?_⟩
    · intro p hp
      simp only [HTree.paths, List.mem_singleton] at hp
      subst hp
      refine ⟨_, if_pos rfl, ?_⟩
      rw [List.append_nil]
      exact aligned_leaf pre ub 0#64 hpre h64
    · intro c' hc'
      simp only [HTree.syms, List.mem_singleton] at hc'
      simp [hc']
  | node f l r ihl ihr =>
    simp only [HTree.depth] at hlen
    have hdiv : pre.length / 64 = 0 := by omega
    simp only [HTree.syms, List.nodup_append] at hnd
    obtain ⟨tab1, h1, h2, h3⟩ := ihl (pre ++ [false]) tab (by simp; omega) (by simp)
      (fun c hcl => hc c (by simp [HTree.syms, hcl])) hnd.1
    obtain ⟨tab2, h4, h5, h6⟩ := ihr (pre ++ [true]) tab1 (by simp; omega) (by simp)
      (fun c hcr => hc c (by simp [HTree.syms, hcr])) hnd.2.1
    rw [ofBits_concat] at h1 h4
    simp only [List.length_append, List.length_cons, List.length_nil, Nat.zero_add,
      Bool.false_eq_true, if_false, if_true] at h1 h4
    have e0 : ((ofBits pre <<< 1) ||| 0#64) ||| 0#64 = (ofBits pre <<< 1) ||| 0#64 := by simp
    rw [e0] at h1
    simp only [buildCode, hdiv, if_true, h1]
    refine ⟨tab2, h4, ?_, ?_⟩
    · intro p hp
      simp only [HTree.paths, List.mem_append, List.mem_map] at hp
      rcases hp with ⟨a, ha, rfl⟩ | ⟨a, ha, rfl⟩
      · obtain ⟨cd, hcd1, hcd2⟩ := h2 a ha
        refine ⟨cd, ?_, by simpa using hcd2⟩
        have hal : a.1 ∈ l.syms := by
          rw [← HTree.paths_syms]; exact List.mem_map_of_mem ha
        have : a.1 ∉ r.syms := fun hr => hnd.2.2 a.1 hal a.1 hr rfl
        rw [h6 _ this]; exact hcd1
      · obtain ⟨cd, hcd1, hcd2⟩ := h5 a ha
        exact ⟨cd, hcd1, by simpa using hcd2⟩
    · intro c hcn
      simp only [HTree.syms, List.mem_append, not_or] at hcn
      rw [h6 c hcn.2, h3 c hcn.1]

/-- Bits of a symbol under the code of a tree. -/
def bitsOf (t : HTree) (c : Nat) : List Bool :=
  ((t.paths.find? fun p => p.1 == c).map Prod.snd).getD []

theorem mem_paths_bitsOf (t : HTree) (c : Nat) (hc : c ∈ t.syms) :
    (c, bitsOf t c) ∈ t.paths := by
  rw [← HTree.paths_syms] at hc
  obtain ⟨p, hp, rfl⟩ := List.mem_map.1 hc
  have hsome : (t.paths.find? fun q => q.1 == p.1).isSome := by
    rw [List.find?_isSome]; exact ⟨p, hp, by simp⟩
  obtain ⟨q, hq⟩ := Option.isSome_iff_exists.1 hsome
  have h1 := List.find?_some hq
  have h2 := List.mem_of_find?_eq_some hq
  simp only [beq_iff_eq] at h1
  simp only [bitsOf, hq, Option.map_some, Option.getD_some]
  rw [← h1]; exact h2

end CpSZ.Huff
