import Verif.Huffman.Writer
/-
The bit reader `decode` inverts the concatenation of the code words of a tree.
-/

namespace CpSZ.Huff

theorem HTree.toNode_ne_null (t : HTree) : t.toNode ≠ .null := by
  cases t <;> simp [HTree.toNode]

/-- The bits of the byte string `s` from position `i` on start with `bs`. -/
def BitsAt (s : List Byte) (i : Nat) (bs : List Bool) : Prop :=
  ∀ k, k < bs.length → bitAt s (i + k) = some (bs.getD k false)

theorem BitsAt.cons {s : List Byte} {i : Nat} {b : Bool} {bs : List Bool}
    (h : BitsAt s i (b :: bs)) : bitAt s i = some b ∧ BitsAt s (i + 1) bs := by
  refine ⟨by simpa using h 0 (by simp), fun k hk => ?_⟩
  have := h (k + 1) (by simpa using hk)
  simpa [Nat.add_assoc, Nat.add_comm 1 k] using this

theorem BitsAt.append {s : List Byte} {i : Nat} {as bs : List Bool}
    (h : BitsAt s i (as ++ bs)) : BitsAt s i as ∧ BitsAt s (i + as.length) bs := by
  refine ⟨fun k hk => ?_, fun k hk => ?_⟩
  · rw [h k (by simp; omega), getD_append_lt _ _ _ hk]
  · have := h (as.length + k) (by simp; omega)
    rw [getD_append_ge _ _ _ (by omega)] at this
    rw [Nat.add_assoc, this]
    congr 2; omega

/-- Walking one code word from an inner node. -/
theorem decodeLoop_word (s : List Byte) (root : Node) (t : HTree) (c : Nat) (bs : List Bool)
    (hp : (c, bs) ∈ t.paths) (hne : bs ≠ []) (i fuel target : Nat) (hb : BitsAt s i bs) :
    decodeLoop s root (fuel + bs.length) i t.toNode (target + 1) =
      (decodeLoop s root fuel (i + bs.length) root target).map (c :: ·) := by
  induction t generalizing bs i with
  | leaf f c' =>
    simp only [HTree.paths, List.mem_singleton, Prod.mk.injEq] at hp
    exact absurd hp.2 hne
  | node f l r ihl ihr =>
    have key : ∀ (ch : HTree) (b : Bool) (bs' : List Bool),
        (∀ (bs : List Bool), (c, bs) ∈ ch.paths → bs ≠ [] → ∀ i, BitsAt s i bs →
          decodeLoop s root (fuel + bs.length) i ch.toNode (target + 1) =
            (decodeLoop s root fuel (i + bs.length) root target).map (c :: ·)) →
        (if b = false then l.toNode else r.toNode) = ch.toNode →
        (c, bs') ∈ ch.paths → bs = b :: bs' →
        decodeLoop s root (fuel + bs.length) i (HTree.node f l r).toNode (target + 1) =
          (decodeLoop s root fuel (i + bs.length) root target).map (c :: ·) := by
      intro ch b bs' ih hsel hpath hbs
      subst hbs
      obtain ⟨hb0, hbt⟩ := BitsAt.cons hb
      simp only [List.length_cons]
      rw [show fuel + (bs'.length + 1) = (fuel + bs'.length) + 1 by omega]
      simp only [HTree.toNode, decodeLoop, hb0]
      rw [hsel]
      cases ch with
      | leaf f' c' =>
        simp only [HTree.paths, List.mem_singleton, Prod.mk.injEq] at hpath
        obtain ⟨rfl, rfl⟩ := hpath
        simp [HTree.toNode]
      | node f' l' r' =>
        have hbs' : bs' ≠ [] := by
          intro h; subst h
          simp [HTree.paths] at hpath
        have := ih bs' hpath hbs' (i + 1) hbt
        simp only [HTree.toNode] at this ⊢
        simp only [ne_eq, not_true, if_false]
        rw [this]
        congr 2; omega
    simp only [HTree.paths, List.mem_append, List.mem_map, Prod.mk.injEq] at hp
    rcases hp with ⟨a, ha, rfl, rfl⟩ | ⟨a, ha, rfl, rfl⟩
    · exact key l false a.2 (fun bs h1 h2 i h3 => ihl bs h1 h2 i h3) (by simp) ha rfl
    · exact key r true a.2 (fun bs h1 h2 i h3 => ihr bs h1 h2 i h3) (by simp) ha rfl

theorem decodeLoop_all (s : List Byte) (t : HTree) (xs : List Nat) (bits : Nat → List Bool)
    (hx : ∀ c ∈ xs, (c, bits c) ∈ t.paths ∧ bits c ≠ []) (i fuel : Nat)
    (hb : BitsAt s i (xs.flatMap bits)) (hf : (xs.flatMap bits).length ≤ fuel) :
    decodeLoop s t.toNode fuel i t.toNode xs.length = some xs := by
  induction xs generalizing i fuel with
  | nil => cases fuel <;> rfl
  | cons c cs ih =>
    obtain ⟨h1, h2⟩ := hx c (by simp)
    simp only [List.flatMap_cons] at hb hf
    obtain ⟨hb1, hb2⟩ := BitsAt.append hb
    simp only [List.length_append] at hf
    obtain ⟨f', rfl⟩ : ∃ f', fuel = f' + (bits c).length := ⟨fuel - (bits c).length, by omega⟩
    rw [List.length_cons, decodeLoop_word s t.toNode t c (bits c) h1 h2 i f' cs.length hb1,
      ih (fun x hx' => hx x (by simp [hx'])) _ _ hb2 (by omega)]
    rfl

theorem shift_and_one (b : Byte) (k : Nat) (hk : k < 8) :
    (b >>> (7 - k)) &&& 1#8 = if b.getMsbD k then 1#8 else 0#8 := by
  apply BitVec.eq_of_getLsbD_eq
  intro j hj
  simp only [BitVec.getLsbD_ushiftRight, BitVec.getLsbD_and, BitVec.getLsbD_one, BitVec.getMsbD,
    hk, decide_true, Bool.true_and]
  by_cases hj0 : j = 0
  · subst hj0
    have e : 8 - 1 - k = 7 - k := by omega
    simp only [Nat.add_zero, e]
    cases b.getLsbD (7 - k) <;> simp
  · cases b.getLsbD (8 - 1 - k) <;> simp [BitVec.getLsbD_one, hj0]

theorem bitAt_of_mem (m : Mem) (n : Nat) (rest : List Byte) (i : Nat) (hi : i < 8 * n) :
    bitAt ((List.range n).map m ++ rest) i = some (memBit m i) := by
  have hlt : i / 8 < n := by omega
  have hget : ((List.range n).map m ++ rest)[i / 8]? = some (m (i / 8)) := by
    rw [List.getElem?_append_left (by simpa using hlt)]
    simp [hlt]
  simp only [bitAt, hget, memBit, Option.some.injEq]
  have h8 : i % 8 < 8 := Nat.mod_lt _ (by omega)
  generalize m (i / 8) = b
  generalize i % 8 = k at h8
  rw [shift_and_one b k h8]
  cases b.getMsbD k <;> simp

end CpSZ.Huff
