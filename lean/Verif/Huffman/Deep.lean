import Verif.Huffman.Model
import Mathlib.Data.List.Perm.Basic

/-!
# Histograms with code words of more than 64 bits

Helper lemmas for C03: the shape of the tree built by `init` does not depend on the unspecified
argument order, a Fibonacci histogram leads to a comb of depth 65, and the two deepest symbols
of such a comb are written in the same way by `encode`.
-/

namespace CpSZ.Huff

/-- Equality of trees up to exchanging left and right. -/
inductive Mir : HTree → HTree → Prop where
  | leaf (f c : Nat) : Mir (.leaf f c) (.leaf f c)
  | same (f : Nat) {l r l' r' : HTree} : Mir l l' → Mir r r' → Mir (.node f l r) (.node f l' r')
  | cross (f : Nat) {l r l' r' : HTree} : Mir l l' → Mir r r' → Mir (.node f r l) (.node f l' r')

theorem Mir.freq {a b : HTree} (h : Mir a b) : a.freq = b.freq := by
  cases h <;> rfl

theorem Mir.refl : (a : HTree) → Mir a a
  | .leaf f c => .leaf f c
  | .node f l r => .same f (Mir.refl l) (Mir.refl r)

abbrev MirQ (p q : Queue) : Prop := List.Forall₂ Mir p q

theorem MirQ.refl : (q : Queue) → MirQ q q
  | [] => .nil
  | a :: q => .cons (Mir.refl a) (MirQ.refl q)

theorem MirQ.set {p q : Queue} (h : MirQ p q) (i : Nat) {a b : HTree} (hab : Mir a b) :
    MirQ (p.set i a) (q.set i b) := by
  induction h generalizing i with
  | nil => exact .nil
  | cons hx _ ih =>
    cases i with
    | zero => exact .cons hab ‹_›
    | succ i => exact .cons hx (ih i)

theorem MirQ.get {p q : Queue} (h : MirQ p q) (i : Nat) :
    Option.Rel Mir p[i]? q[i]? := by
  induction h generalizing i with
  | nil => simp only [List.getElem?_nil]; exact .none
  | cons hx _ ih =>
    cases i with
    | zero => exact .some hx
    | succ i => simpa using ih i

theorem MirQ.take {p q : Queue} (h : MirQ p q) (n : Nat) : MirQ (p.take n) (q.take n) := by
  induction h generalizing n with
  | nil => simp
  | cons hx _ ih =>
    cases n with
    | zero => exact .nil
    | succ n => exact .cons hx (ih n)

theorem MirQ.snoc {p q : Queue} (h : MirQ p q) {a b : HTree} (hab : Mir a b) :
    MirQ (p ++ [a]) (q ++ [b]) := by
  induction h with
  | nil => exact .cons hab .nil
  | cons hx _ ih => exact .cons hx ih

theorem siftUp_mir (fuel i : Nat) {p q : Queue} (h : MirQ p q) {a b : HTree} (hab : Mir a b) :
    Option.Rel MirQ (siftUp fuel i a p) (siftUp fuel i b q) := by
  induction fuel generalizing i p q with
  | zero => exact .none
  | succ fuel ih =>
    simp only [siftUp]
    split
    · exact .some (h.set _ hab)
    · have hg := h.get (i / 2 - 1)
      revert hg
      generalize p[i / 2 - 1]? = x
      generalize q[i / 2 - 1]? = y
      intro hg
      cases hg with
      | none => exact .none
      | some hxy =>
        simp only [hxy.freq, hab.freq]
        split
        · exact .some (h.set _ hab)
        · exact ih _ (h.set _ hxy)

theorem qinsert_mir {p q : Queue} (h : MirQ p q) {a b : HTree} (hab : Mir a b) :
    Option.Rel MirQ (qinsert p a) (qinsert q b) := by
  simp only [qinsert, h.length_eq]
  exact siftUp_mir _ _ (h.snoc hab) hab

theorem siftDown_mir (fuel qend i : Nat) {p q : Queue} (h : MirQ p q) :
    Option.Rel (fun x y => MirQ x.1 y.1 ∧ x.2 = y.2) (siftDown fuel qend i p)
      (siftDown fuel qend i q) := by
  induction fuel generalizing i p q with
  | zero => exact .none
  | succ fuel ih =>
    simp only [siftDown]
    split
    · have hg := h.get (2 * i - 1)
      revert hg
      generalize p[2 * i - 1]? = x
      generalize q[2 * i - 1]? = y
      intro hg
      cases hg with
      | none => exact .none
      | some hxy =>
        simp only
        split
        · have hg := h.get (2 * i)
          revert hg
          generalize p[2 * i]? = x'
          generalize q[2 * i]? = y'
          intro hg
          cases hg with
          | none => exact .none
          | some hxy' =>
            simp only [hxy.freq, hxy'.freq]
            split
            · exact ih _ (h.set _ hxy')
            · exact ih _ (h.set _ hxy)
        · exact ih _ (h.set _ hxy)
    · exact .some ⟨h, rfl⟩

theorem qremove_mir {p q : Queue} (h : MirQ p q) :
    Option.Rel (fun x y => Mir x.1 y.1 ∧ MirQ x.2 y.2) (qremove p) (qremove q) := by
  cases h with
  | nil => exact .none
  | @cons a b p q hx ht =>
    have h : MirQ (a :: p) (b :: q) := .cons hx ht
    simp only [qremove, h.length_eq]
    have hs := siftDown_mir (b :: q).length (b :: q).length 1 h
    revert hs
    generalize siftDown (b :: q).length (b :: q).length 1 (a :: p) = s
    generalize siftDown (b :: q).length (b :: q).length 1 (b :: q) = s'
    intro hs
    cases hs with
    | none => exact .none
    | @some u v huv =>
      obtain ⟨u1, u2⟩ := u
      obtain ⟨v1, v2⟩ := v
      obtain ⟨h1, h2⟩ := huv
      simp only at h1 h2
      subst h2
      simp only
      have hg := h1.get ((b :: q).length - 1)
      revert hg
      generalize u1[(b :: q).length - 1]? = x
      generalize v1[(b :: q).length - 1]? = y
      intro hg
      cases hg with
      | none => exact .none
      | some hxy => exact .some ⟨hx, (h1.set _ hxy).take _⟩

theorem mergeLoop_mir (swap swap' : Nat → Bool) (fuel : Nat) {p q : Queue} (h : MirQ p q) :
    Option.Rel MirQ (mergeLoop swap fuel p) (mergeLoop swap' fuel q) := by
  induction fuel generalizing p q with
  | zero => exact .none
  | succ fuel ih =>
    simp only [mergeLoop, h.length_eq]
    split
    · have hr := qremove_mir h
      revert hr
      generalize qremove p = x
      generalize qremove q = y
      intro hr
      cases hr with
      | none => exact .none
      | @some u v huv =>
        obtain ⟨a, p1⟩ := u
        obtain ⟨b, q1⟩ := v
        obtain ⟨hab, h1⟩ := huv
        simp only at hab h1 ⊢
        have hr := qremove_mir h1
        revert hr
        generalize qremove p1 = x
        generalize qremove q1 = y
        intro hr
        cases hr with
        | none => exact .none
        | @some u v huv =>
          obtain ⟨a', p2⟩ := u
          obtain ⟨b', q2⟩ := v
          obtain ⟨hab', h2⟩ := huv
          simp only at hab' h2 ⊢
          have hn : Mir (if swap q.length then newNode a' a else newNode a a')
              (if swap' q.length then newNode b' b else newNode b b') := by
            simp only [newNode, hab.freq, hab'.freq, Nat.add_comm b'.freq]
            split <;> split
            · exact .same _ hab' hab
            · exact .cross _ hab hab'
            · exact .cross _ hab' hab
            · exact .same _ hab hab'
          have hi := qinsert_mir h2 hn
          revert hi
          generalize qinsert p2 (if swap q.length then newNode a' a else newNode a a') = x
          generalize qinsert q2 (if swap' q.length then newNode b' b else newNode b b') = y
          intro hi
          cases hi with
          | none => exact .none
          | some hxy => exact ih hxy
    · exact .some h

/-- The tree is the same for every argument order, up to exchanging left and right. -/
theorem treeOfFreq_mir (swap swap' : Nat → Bool) (freq : Nat → Nat) (n : Nat) :
    Option.Rel Mir (treeOfFreq swap freq n) (treeOfFreq swap' freq n) := by
  simp only [treeOfFreq]
  generalize insertLeaves freq (List.range n) [] = x
  cases x with
  | none => exact .none
  | some q =>
    simp only
    have hm := mergeLoop_mir swap swap' (q.length + 1) (MirQ.refl q)
    revert hm
    generalize mergeLoop swap (q.length + 1) q = x
    generalize mergeLoop swap' (q.length + 1) q = y
    intro hm
    cases hm with
    | none => exact .none
    | some h =>
      cases h with
      | nil => exact .none
      | cons hx _ => exact .some hx

/-! ## Combs -/

/-- Each inner node has a leaf child; `cs` lists the symbols from the root down. -/
inductive Comb : List Nat → HTree → Prop where
  | leaf (f c : Nat) : Comb [c] (.leaf f c)
  | left (f g c : Nat) {cs : List Nat} {t : HTree} : Comb cs t → Comb (c :: cs) (.node f (.leaf g c) t)
  | right (f g c : Nat) {cs : List Nat} {t : HTree} : Comb cs t → Comb (c :: cs) (.node f t (.leaf g c))

def leafSym : HTree → Option Nat
  | .leaf _ c => some c
  | .node _ _ _ => none

/-- Decision procedure used to evaluate a closed tree. -/
def isComb : List Nat → HTree → Bool
  | cs, .leaf _ c => cs == [c]
  | [], .node _ _ _ => false
  | c :: cs, .node _ l r =>
    (leafSym l == some c && isComb cs r) || (leafSym r == some c && isComb cs l)

theorem comb_of_isComb (cs : List Nat) (t : HTree) (h : isComb cs t = true) : Comb cs t := by
  induction t generalizing cs with
  | leaf f c =>
    simp only [isComb, beq_iff_eq] at h
    subst h
    exact .leaf _ _
  | node f l r ihl ihr =>
    rcases cs with _ | ⟨c, cs⟩
    · simp [isComb] at h
    simp only [isComb, Bool.or_eq_true, Bool.and_eq_true, beq_iff_eq] at h
    rcases h with ⟨hl, h⟩ | ⟨hl, h⟩
    · rcases l with ⟨g, c'⟩ | ⟨a, b, d⟩
      · simp only [leafSym, Option.some.injEq] at hl
        subst hl
        exact .left _ _ _ (ihr _ h)
      · simp [leafSym] at hl
    · rcases r with ⟨g, c'⟩ | ⟨a, b, d⟩
      · simp only [leafSym, Option.some.injEq] at hl
        subst hl
        exact .right _ _ _ (ihl _ h)
      · simp [leafSym] at hl

theorem Comb.mir {cs : List Nat} {t t' : HTree} (h : Comb cs t) (hm : Mir t' t) : Comb cs t' := by
  induction h generalizing t' with
  | leaf f c => cases hm; exact .leaf _ _
  | left f g c _ ih =>
    cases hm with
    | same _ h1 h2 => cases h1; exact .left _ _ _ (ih h2)
    | cross _ h1 h2 => cases h1; exact .right _ _ _ (ih h2)
  | right f g c _ ih =>
    cases hm with
    | same _ h1 h2 => cases h2; exact .right _ _ _ (ih h1)
    | cross _ h1 h2 => cases h2; exact .left _ _ _ (ih h1)

theorem Comb.depth {cs : List Nat} {t : HTree} (h : Comb cs t) : t.depth + 1 = cs.length := by
  induction h with
  | leaf => rfl
  | left f g c _ ih => simp only [HTree.depth, List.length_cons]; omega
  | right f g c _ ih => simp only [HTree.depth, List.length_cons]; omega

/-- The code table of a comb: other symbols are untouched. -/
theorem comb_code (stateNum : Nat) (ub : BitVec 64) {cs : List Nat} {t : HTree} (h : Comb cs t)
    (hc : ∀ c ∈ cs, c < stateNum) (len : Nat) (o1 o2 : BitVec 64) (tab : CodeTab) :
    ∃ tab', buildCode stateNum ub t len o1 o2 tab = some tab' ∧ ∀ c, c ∉ cs → tab' c = tab c := by
  induction h generalizing len o1 o2 tab with
  | leaf f c =>
    simp only [buildCode, if_pos (hc c (by simp))]
    refine ⟨_, rfl, fun d hd => ?_⟩
    simp only [List.mem_singleton] at hd
    simp only [if_neg hd]
  | left f g c _ ih =>
    simp only [buildCode, if_pos (hc c (by simp))]
    split
    all_goals
      obtain ⟨tab', h1, h2⟩ := ih (fun c hcs => hc c (by simp [hcs])) (len + 1) _ _ _
      refine ⟨tab', h1, fun d hd => ?_⟩
      simp only [List.mem_cons, not_or] at hd
      rw [h2 d hd.2, if_neg hd.1]
  | right f g c _ ih =>
    simp only [buildCode, if_pos (hc c (by simp))]
    split
    all_goals
      obtain ⟨tab', h1, h2⟩ := ih (fun c hcs => hc c (by simp [hcs])) (len + 1) _ _ _
      rw [h1]
      refine ⟨_, rfl, fun d hd => ?_⟩
      simp only [List.mem_cons, not_or] at hd
      simp only [if_neg hd.1, h2 d hd.2]

/-- Codes of two sibling leaves at depth 65. -/
theorem code_pair (stateNum : Nat) (ub : BitVec 64) (f g g' x y : Nat) (hx : x < stateNum)
    (hy : y < stateNum) (o1 o2 : BitVec 64) (tab : CodeTab) :
    ∃ w w', buildCode stateNum ub (.node f (.leaf g x) (.leaf g' y)) 64 o1 o2 tab =
      some (fun z => if z = y then some ⟨o1, w, 65#8⟩ else
        if z = x then some ⟨o1, w', 65#8⟩ else tab z) := by
  have h1 : ¬ (64 / 64 = 0) := by omega
  have h2 : ¬ (64 + 1 ≤ 64) := by omega
  simp only [buildCode, if_pos hx, if_pos hy, if_neg h1, if_neg h2]
  exact ⟨_, _, rfl⟩

/-- The two deepest symbols of a comb of depth 65 get codes of 65 bits which agree in the
first 64 bits. -/
theorem comb_deep (stateNum : Nat) (ub : BitVec 64) {cs : List Nat} {t : HTree} (h : Comb cs t)
    (hc : ∀ c ∈ cs, c < stateNum) (hnd : cs.Nodup) (pre : List Nat) (x y : Nat)
    (hcs : cs = pre ++ [x, y]) (len : Nat) (hlen : len + pre.length = 64)
    (o1 o2 : BitVec 64) (tab : CodeTab) :
    ∃ tab' a b, buildCode stateNum ub t len o1 o2 tab = some tab' ∧ tab' x = some a ∧
      tab' y = some b ∧ a.w0 = b.w0 ∧ a.len = 65#8 ∧ b.len = 65#8 := by
  induction h generalizing pre len o1 o2 tab with
  | leaf f c =>
    have := congrArg List.length hcs
    simp at this
  | @left f g c cs t ht ih =>
    rcases pre with _ | ⟨p, pre⟩
    · simp only [List.nil_append, List.cons.injEq] at hcs
      obtain ⟨rfl, rfl⟩ := hcs
      simp only [List.length_nil, Nat.add_zero] at hlen
      subst hlen
      cases ht with
      | leaf f' =>
        have hne : c ≠ y := by simpa using hnd
        have h1 := hc c (by simp)
        have h2 := hc y (by simp)
        obtain ⟨w, w', hb⟩ := code_pair stateNum ub f g f' c y h1 h2 o1 o2 tab
        exact ⟨_, _, _, hb, (if_neg hne).trans (if_pos rfl), if_pos rfl, rfl, rfl, rfl⟩
      | left _ _ _ h => cases h
      | right _ _ _ h => cases h
    · simp only [List.cons_append, List.cons.injEq] at hcs
      obtain ⟨rfl, rfl⟩ := hcs
      simp only [List.length_cons] at hlen
      simp only [buildCode, if_pos (hc c (by simp)), if_pos (show len / 64 = 0 by omega)]
      exact ih (fun d hd => hc d (by simp [hd])) (List.nodup_cons.1 hnd).2 pre rfl (len + 1) (by omega)
        _ _ _
  | @right f g c cs t ht ih =>
    rcases pre with _ | ⟨p, pre⟩
    · simp only [List.nil_append, List.cons.injEq] at hcs
      obtain ⟨rfl, rfl⟩ := hcs
      simp only [List.length_nil, Nat.add_zero] at hlen
      subst hlen
      cases ht with
      | leaf f' =>
        have hne : c ≠ y := by simpa using hnd
        have h1 := hc c (by simp)
        have h2 := hc y (by simp)
        obtain ⟨w, w', hb⟩ := code_pair stateNum ub f f' g y c h2 h1 o1 o2 tab
        exact ⟨_, _, _, hb, if_pos rfl, (if_neg hne.symm).trans (if_pos rfl), rfl, rfl, rfl⟩
      | left _ _ _ h => cases h
      | right _ _ _ h => cases h
    · simp only [List.cons_append, List.cons.injEq] at hcs
      obtain ⟨rfl, rfl⟩ := hcs
      simp only [List.length_cons] at hlen
      simp only [buildCode, if_pos (hc c (by simp)), if_pos (show len / 64 = 0 by omega)]
      obtain ⟨tab', a, b, h1, h2, h3, h4⟩ := ih (fun d hd => hc d (by simp [hd]))
        (List.nodup_cons.1 hnd).2 pre rfl (len + 1) (by omega) ((o1 <<< 1) ||| 0#64) 0#64 tab
      rw [h1]
      have hnc := (List.nodup_cons.1 hnd).1
      have hxc : ¬ x = c := by rintro rfl; exact hnc (by simp)
      have hyc : ¬ y = c := by rintro rfl; exact hnc (by simp)
      refine ⟨_, a, b, rfl, ?_, ?_, h4⟩
      · simp only [if_neg hxc, h2]
      · simp only [if_neg hyc, h3]

/-- The first symbol of a comb with more symbols has a code of one bit. -/
theorem comb_first (stateNum : Nat) (ub : BitVec 64) (z : Nat) {cs : List Nat} {t : HTree}
    (h : Comb (z :: cs) t) (h0 : cs ≠ []) (hc : ∀ c ∈ z :: cs, c < stateNum) (hz : z ∉ cs)
    (o1 o2 : BitVec 64) (tab : CodeTab) :
    ∃ tab' a, buildCode stateNum ub t 0 o1 o2 tab = some tab' ∧ tab' z = some a ∧ a.len = 1#8 := by
  cases h with
  | leaf => exact absurd rfl h0
  | left f g _ ht =>
    simp only [buildCode, if_pos (hc z (by simp)), Nat.zero_div, if_true]
    obtain ⟨tab', h1, h2⟩ := comb_code stateNum ub ht (fun c h => hc c (by simp [h])) (0 + 1)
      (((o1 <<< 1) ||| 0#64) ||| 1#64) 0#64 _
    exact ⟨tab', _, h1, by rw [h2 z hz, if_pos rfl], rfl⟩
  | right f g _ ht =>
    simp only [buildCode, if_pos (hc z (by simp)), Nat.zero_div, if_true]
    obtain ⟨tab', h1, h2⟩ := comb_code stateNum ub ht (fun c h => hc c (by simp [h])) (0 + 1)
      ((o1 <<< 1) ||| 0#64) 0#64 tab
    rw [h1]
    exact ⟨_, _, rfl, if_pos rfl, rfl⟩

/-- When the write position is not byte aligned, a code word of 65 bits is written without
looking at its last bit. -/
theorem encodeStep_65 (st : WState) (a b : Code) (h : a.w0 = b.w0) (ha : a.len = 65#8)
    (hb : b.len = 65#8) (h0 : st.lack ≠ 0) (h7 : st.lack ≤ 7) :
    encodeStep st a = encodeStep st b ∧ (encodeStep st a).lack = st.lack - 1 := by
  have h65 : (65#8).toNat = 65 := rfl
  have h1 : st.lack < 65 := by omega
  have h2 : ¬ st.lack < 65 - 64 := by omega
  simp only [encodeStep, ha, hb, h, h65, if_neg h0, if_pos h1, if_neg h2, and_self,
    show ¬ (65 ≤ 64) by omega, if_false]

theorem encodeStep_first (st : WState) (a : Code) (ha : a.len = 1#8) (h0 : st.lack = 0) :
    (encodeStep st a).lack = 7 := by
  have h1 : (1#8).toNat = 1 := rfl
  simp only [encodeStep, ha, h1, h0, if_true]
  rfl

/-! ## The Fibonacci histogram -/

/-- Fibonacci numbers. -/
def fibPair : Nat → Nat × Nat
  | 0 => (1, 1)
  | n + 1 => ((fibPair n).2, (fibPair n).1 + (fibPair n).2)

/-- Number of occurrences of symbol `c`: 66 symbols, Fibonacci numbers in decreasing order. -/
def deepFreq (c : Nat) : Nat := if c < 66 then (fibPair (65 - c)).1 else 0

/-- One block of equal symbols per symbol. -/
def blocks (w : Nat → Nat) (n : Nat) : List Nat :=
  (List.range n).flatMap fun c => List.replicate (w c) c

theorem count_blocks (w : Nat → Nat) (n c : Nat) :
    (blocks w n).count c = if c < n then w c else 0 := by
  induction n with
  | zero => simp [blocks]
  | succ n ih =>
    simp only [blocks] at ih ⊢
    rw [List.range_succ, List.flatMap_append, List.count_append, ih]
    simp only [List.flatMap_cons, List.flatMap_nil, List.append_nil, List.count_replicate, beq_iff_eq]
    by_cases h : c < n
    · rw [if_pos h, if_pos (show c < n + 1 by omega), if_neg (show ¬ n = c by omega), Nat.add_zero]
    · rw [if_neg h]
      by_cases h' : n = c
      · subst h'
        simp
      · rw [if_neg h', if_neg (show ¬ c < n + 1 by omega)]

theorem length_blocks (w : Nat → Nat) (n : Nat) :
    (blocks w n).length = ((List.range n).map w).sum := by
  induction n with
  | zero => rfl
  | succ n ih =>
    simp only [blocks] at ih ⊢
    rw [List.range_succ, List.flatMap_append, List.length_append, ih]
    simp

theorem mem_blocks (w : Nat → Nat) (n c : Nat) (h : c ∈ blocks w n) : c < n := by
  simp only [blocks, List.mem_flatMap, List.mem_range, List.mem_replicate] at h
  obtain ⟨a, ha, _, rfl⟩ := h
  exact ha

/-- How often the symbols remain after the first three of the witness. -/
def restFreq (c : Nat) : Nat := deepFreq c - if c = 0 ∨ c = 64 ∨ c = 65 then 1 else 0

theorem insertLeaves_append (freq : Nat → Nat) (l m : List Nat) (q : Queue) :
    insertLeaves freq (l ++ m) q = (insertLeaves freq l q).bind (insertLeaves freq m) := by
  induction l generalizing q with
  | nil => rfl
  | cons c l ih =>
    simp only [List.cons_append, insertLeaves]
    split
    · cases qinsert q (newLeaf (freq c) c) with
      | none => rfl
      | some q' => exact ih q'
    · exact ih q

theorem insertLeaves_zero (freq : Nat → Nat) (l : List Nat) (q : Queue)
    (h : ∀ c ∈ l, freq c = 0) : insertLeaves freq l q = some q := by
  induction l with
  | nil => rfl
  | cons c l ih =>
    simp only [insertLeaves, h c (by simp), ne_eq, not_true_eq_false, if_false]
    exact ih fun d hd => h d (by simp [hd])

theorem treeOfFreq_deep (swap : Nat → Bool) (n : Nat) (hn : 66 ≤ n) :
    treeOfFreq swap deepFreq n = treeOfFreq swap deepFreq 66 := by
  have : insertLeaves deepFreq (List.range n) [] = insertLeaves deepFreq (List.range 66) [] := by
    obtain ⟨k, rfl⟩ := Nat.exists_eq_add_of_le hn
    rw [List.range_add, insertLeaves_append]
    cases insertLeaves deepFreq (List.range 66) [] with
    | none => rfl
    | some q =>
      refine insertLeaves_zero _ _ _ fun c hc => ?_
      simp only [List.mem_map] at hc
      obtain ⟨a, _, rfl⟩ := hc
      rw [deepFreq, if_neg (by omega)]
  simp only [treeOfFreq, this]

theorem deep_comb0 : (match treeOfFreq (fun _ => false) deepFreq 66 with
    | some t => isComb (List.range 66) t
    | none => false) = true := by decide +kernel

theorem deep_comb (swap : Nat → Bool) (n : Nat) (hn : 66 ≤ n) :
    ∃ t, treeOfFreq swap deepFreq n = some t ∧ Comb (List.range 66) t := by
  rw [treeOfFreq_deep swap n hn]
  have h0 := deep_comb0
  have hm := treeOfFreq_mir swap (fun _ => false) deepFreq 66
  revert h0 hm
  generalize treeOfFreq (fun _ => false) deepFreq 66 = y
  generalize treeOfFreq swap deepFreq 66 = x
  intro h0 hm
  cases hm with
  | none => exact absurd h0 (by simp)
  | some h => exact ⟨_, rfl, (comb_of_isComb _ _ h0).mir h⟩

theorem deep_total : ((List.range 66).map restFreq).sum < 2 ^ 47 := by decide +kernel

/-- Remaining symbols of the witness. -/
theorem deep_rest : ∃ rest : List Nat, rest.length < 2 ^ 47 ∧ (∀ x ∈ rest, x < 66) ∧
    ∀ c, rest.count c = if c < 66 then restFreq c else 0 :=
  ⟨blocks restFreq 66, by rw [length_blocks]; exact deep_total, fun _ => mem_blocks _ _ _,
    count_blocks _ _⟩

end CpSZ.Huff
