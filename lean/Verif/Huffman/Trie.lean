import Verif.Huffman.Deep

/-!
# The queue of `init` with an array of logarithmic access time

The list model of the queue is too slow to be evaluated by the kernel on large histograms.
This is the same program on a binary tree of slots, and a proof that it computes the same tree.
It is used for evaluation only.
-/

namespace CpSZ.Huff

/-- An array: slot 1 is at the root, slots `2 i` and `2 i + 1` are slot `i` of the subtrees. -/
inductive Slots where
  | nil
  | node (v : HTree) (l r : Slots)

namespace Slots

def get : Slots → Nat → Option HTree
  | nil, _ => none
  | node v l r, i =>
    match i with
    | 0 => none
    | 1 => some v
    | i + 2 => if i % 2 = 0 then l.get (i / 2 + 1) else r.get (i / 2 + 1)

def set : Slots → Nat → HTree → Slots
  | nil, _, _ => nil
  | node v l r, i, x =>
    match i with
    | 0 => node v l r
    | 1 => node x l r
    | i + 2 => if i % 2 = 0 then node v (l.set (i / 2 + 1) x) r else node v l (r.set (i / 2 + 1) x)

/-- `2^d - 1` slots. -/
def full (v : HTree) : Nat → Slots
  | 0 => nil
  | d + 1 => node v (full v d) (full v d)

/-- Slot `i` exists. -/
def has (s : Slots) (i : Nat) : Prop := (s.get i).isSome = true

theorem get_set (s : Slots) (i j : Nat) (x : HTree) (h : s.has i) :
    (s.set i x).get j = if i = j then some x else s.get j := by
  induction s generalizing i j with
  | nil => simp [has, get] at h
  | node v l r ihl ihr =>
    match i, h with
    | 0, h => simp [has, get] at h
    | 1, h =>
      simp only [set]
      match j with
      | 0 => simp [get]
      | 1 => simp [get]
      | j + 2 => simp [get]
    | i + 2, h =>
      simp only [has, get] at h
      simp only [set]
      split
      · rename_i hi
        rw [if_pos hi] at h
        match j with
        | 0 => simp [get]
        | 1 => simp [get]
        | j + 2 =>
          simp only [get]
          split
          · rename_i hj
            rw [ihl _ _ h]
            congr 1
            simp only [eq_iff_iff]
            omega
          · rename_i hj
            rw [if_neg (by omega)]
      · rename_i hi
        rw [if_neg hi] at h
        match j with
        | 0 => simp [get]
        | 1 => simp [get]
        | j + 2 =>
          simp only [get]
          split
          · rename_i hj
            rw [if_neg (by omega)]
          · rename_i hj
            rw [ihr _ _ h]
            congr 1
            simp only [eq_iff_iff]
            omega

theorem has_set (s : Slots) (i j : Nat) (x : HTree) (h : s.has i) (hj : s.has j) :
    (s.set i x).has j := by
  unfold has at *
  rw [get_set _ _ _ _ h]
  split
  · rfl
  · exact hj

theorem full_has (v : HTree) (d i : Nat) (h0 : 0 < i) (h : i < 2 ^ d) : (full v d).has i := by
  induction d generalizing i with
  | zero => simp at h; omega
  | succ d ih =>
    rw [Nat.pow_succ] at h
    simp only [full, has]
    match i with
    | 1 => rfl
    | i + 2 =>
      simp only [get]
      split
      · exact ih _ (by omega) (by omega)
      · exact ih _ (by omega) (by omega)

end Slots

/-- `s` holds the queue `q`, up to `cap` entries. -/
structure SlotRep (cap : Nat) (s : Slots) (q : Queue) : Prop where
  len : q.length ≤ cap
  has : ∀ i, 0 < i → i ≤ cap → s.has i
  get : ∀ i (_ : i < q.length), s.get (i + 1) = q[i]?

theorem SlotRep.get' {cap : Nat} {s : Slots} {q : Queue} (h : SlotRep cap s q) {i : Nat} (h0 : 0 < i)
    (h1 : i ≤ q.length) : s.get i = q[i - 1]? := by
  have := h.get (i - 1) (by omega)
  rwa [Nat.sub_add_cancel h0] at this

theorem SlotRep.set {cap : Nat} {s : Slots} {q : Queue} (h : SlotRep cap s q) {i : Nat} (h0 : 0 < i)
    (h1 : i ≤ q.length) (x : HTree) : SlotRep cap (s.set i x) (q.set (i - 1) x) := by
  have hi := h.has i h0 (by have := h.len; omega)
  refine ⟨by rw [List.length_set]; exact h.len, fun j h2 h3 => Slots.has_set _ _ _ _ hi (h.has j h2 h3),
    fun j hj => ?_⟩
  rw [List.length_set] at hj
  rw [Slots.get_set _ _ _ _ hi, List.getElem?_set]
  by_cases hij : i - 1 = j
  · rw [if_pos (by omega), if_pos hij, if_pos (by omega)]
  · rw [if_neg (by omega), if_neg hij, h.get j hj]

def siftUpS : Nat → Nat → HTree → Slots → Option Slots
  | 0, _, _, _ => none
  | fuel + 1, i, n, s =>
    if i / 2 = 0 then some (s.set i n)
    else match s.get (i / 2) with
      | none => none
      | some m =>
        if m.freq ≤ n.freq then some (s.set i n)
        else siftUpS fuel (i / 2) n (s.set i m)

def siftDownS : Nat → Nat → Nat → Slots → Option (Slots × Nat)
  | 0, _, _, _ => none
  | fuel + 1, qend, i, s =>
    if 2 * i < qend then
      match s.get (2 * i) with
      | none => none
      | some a =>
        if 2 * i + 1 < qend then
          match s.get (2 * i + 1) with
          | none => none
          | some b =>
            if b.freq < a.freq then siftDownS fuel qend (2 * i + 1) (s.set i b)
            else siftDownS fuel qend (2 * i) (s.set i a)
        else siftDownS fuel qend (2 * i) (s.set i a)
    else some (s, i)

theorem siftUpS_rep {cap : Nat} (fuel i : Nat) (n : HTree) {s : Slots} {q : Queue} (h : SlotRep cap s q)
    (h0 : 0 < i) (h1 : i ≤ q.length) (hf : i ≤ fuel) :
    ∃ s' q', siftUpS fuel i n s = some s' ∧ siftUp fuel i n q = some q' ∧ SlotRep cap s' q' ∧
      q'.length = q.length := by
  induction fuel generalizing i s q with
  | zero => omega
  | succ fuel ih =>
    simp only [siftUpS, siftUp]
    split
    · exact ⟨_, _, rfl, rfl, h.set h0 h1 n, List.length_set⟩
    · rename_i h2
      have hj : i / 2 ≤ q.length := by omega
      rw [h.get' (by omega) hj]
      have hlt : i / 2 - 1 < q.length := by omega
      rw [List.getElem?_eq_getElem hlt]
      simp only
      split
      · exact ⟨_, _, rfl, rfl, h.set h0 h1 n, List.length_set⟩
      · have hs := h.set h0 h1 q[i / 2 - 1]
        obtain ⟨s', q', e1, e2, e3, e4⟩ := ih (i / 2) hs (by omega) (by rw [List.length_set]; omega)
          (by omega)
        exact ⟨s', q', e1, e2, e3, by rw [e4, List.length_set]⟩

theorem siftDownS_rep {cap : Nat} (fuel qend i : Nat) {s : Slots} {q : Queue} (h : SlotRep cap s q)
    (h0 : 0 < i) (h1 : i ≤ q.length) (hq : qend ≤ q.length) (hf : qend < fuel + i) (hi : i ≤ qend) :
    ∃ s' q' j, siftDownS fuel qend i s = some (s', j) ∧ siftDown fuel qend i q = some (q', j) ∧
      SlotRep cap s' q' ∧ q'.length = q.length ∧ 0 < j ∧ j ≤ q.length := by
  induction fuel generalizing i s q with
  | zero => omega
  | succ fuel ih =>
    simp only [siftDownS, siftDown]
    split
    · rename_i h2
      have l1 : 2 * i - 1 < q.length := by omega
      rw [h.get' (i := 2 * i) (by omega) (by omega), List.getElem?_eq_getElem l1]
      simp only
      split
      · rename_i h3
        have l2 : 2 * i < q.length := by omega
        rw [h.get' (i := 2 * i + 1) (by omega) (by omega)]
        simp only [Nat.add_sub_cancel]
        rw [List.getElem?_eq_getElem l2]
        simp only
        split
        · obtain ⟨s', q', j, e1, e2, e3, e4, e5, e6⟩ := ih (2 * i + 1) (h.set h0 h1 q[2 * i])
            (by omega) (by rw [List.length_set]; omega) (by rw [List.length_set]; omega) (by omega) (by omega)
          rw [List.length_set] at e4 e6
          exact ⟨s', q', j, e1, e2, e3, e4, e5, e6⟩
        · obtain ⟨s', q', j, e1, e2, e3, e4, e5, e6⟩ := ih (2 * i) (h.set h0 h1 q[2 * i - 1])
            (by omega) (by rw [List.length_set]; omega) (by rw [List.length_set]; omega) (by omega) (by omega)
          rw [List.length_set] at e4 e6
          exact ⟨s', q', j, e1, e2, e3, e4, e5, e6⟩
      · obtain ⟨s', q', j, e1, e2, e3, e4, e5, e6⟩ := ih (2 * i) (h.set h0 h1 q[2 * i - 1])
            (by omega) (by rw [List.length_set]; omega) (by rw [List.length_set]; omega) (by omega) (by omega)
        rw [List.length_set] at e4 e6
        exact ⟨s', q', j, e1, e2, e3, e4, e5, e6⟩
    · exact ⟨s, q, i, rfl, rfl, h, rfl, h0, h1⟩

/-- `qinsert` on slots with `n` entries. -/
def qinsertS (s : Slots) (n : Nat) (x : HTree) : Option Slots :=
  siftUpS (n + 1) (n + 1) x (s.set (n + 1) x)

theorem SlotRep.snoc {cap : Nat} {s : Slots} {q : Queue} (h : SlotRep cap s q) (hc : q.length < cap)
    (x : HTree) : SlotRep cap (s.set (q.length + 1) x) (q ++ [x]) := by
  have hi := h.has (q.length + 1) (by omega) (by omega)
  refine ⟨by simp only [List.length_append, List.length_singleton]; omega,
    fun j h2 h3 => Slots.has_set _ _ _ _ hi (h.has j h2 h3), fun j hj => ?_⟩
  simp only [List.length_append, List.length_singleton] at hj
  rw [Slots.get_set _ _ _ _ hi]
  by_cases hij : q.length = j
  · subst hij
    rw [if_pos rfl, List.getElem?_append_right (by omega), Nat.sub_self]
    rfl
  · rw [if_neg (by omega), List.getElem?_append_left (by omega), h.get j (by omega)]

theorem qinsertS_rep {cap : Nat} {s : Slots} {q : Queue} (h : SlotRep cap s q) (hc : q.length < cap)
    (x : HTree) : ∃ s' q', qinsertS s q.length x = some s' ∧ qinsert q x = some q' ∧ SlotRep cap s' q' ∧
      q'.length = q.length + 1 := by
  obtain ⟨s', q', e1, e2, e3, e4⟩ := siftUpS_rep (q.length + 1) (q.length + 1) x (h.snoc hc x)
    (by omega) (by simp) (by omega)
  exact ⟨s', q', e1, e2, e3, by rw [e4]; simp⟩

/-- `qremove` on slots with `n` entries. -/
def qremoveS (s : Slots) (n : Nat) : Option (HTree × Slots) :=
  match s.get 1 with
  | none => none
  | some x =>
    match siftDownS n n 1 s with
    | none => none
    | some (s', i) =>
      match s'.get n with
      | none => none
      | some last => some (x, s'.set i last)

theorem SlotRep.take {cap : Nat} {s : Slots} {q : Queue} (h : SlotRep cap s q) (n : Nat) :
    SlotRep cap s (q.take n) := by
  refine ⟨by have := h.len; rw [List.length_take]; omega, h.has, fun i hi => ?_⟩
  rw [List.length_take] at hi
  rw [h.get i (by omega), List.getElem?_take_of_lt (by omega)]

theorem qremoveS_rep {cap : Nat} {s : Slots} {q : Queue} (h : SlotRep cap s q) (hq : q ≠ []) :
    ∃ x s' q', qremoveS s q.length = some (x, s') ∧ qremove q = some (x, q') ∧ SlotRep cap s' q' ∧
      q'.length = q.length - 1 := by
  obtain ⟨x, q, rfl⟩ := List.exists_cons_of_ne_nil hq
  have hl : 0 < (x :: q).length := by simp
  obtain ⟨s', q', j, e1, e2, e3, e4, e5, e6⟩ := siftDownS_rep (x :: q).length (x :: q).length 1 h
    (by omega) (by omega) (Nat.le_refl _) (by omega) (by omega)
  have hg : s.get 1 = some x := by rw [h.get' (i := 1) (by omega) (by omega)]; rfl
  have hlt : (x :: q).length - 1 < q'.length := by omega
  simp only [qremoveS, qremove, hg, e1, e2, e3.get' (i := (x :: q).length) hl (by omega),
    List.getElem?_eq_getElem hlt]
  refine ⟨_, _, _, rfl, rfl, (e3.set e5 (by omega) _).take _, ?_⟩
  rw [List.length_take, List.length_set, e4]
  omega

def mergeLoopS : Nat → Slots → Nat → Option Slots
  | 0, _, _ => none
  | fuel + 1, s, n =>
    if 1 < n then
      match qremoveS s n with
      | none => none
      | some (a, s1) =>
        match qremoveS s1 (n - 1) with
        | none => none
        | some (b, s2) =>
          match qinsertS s2 (n - 1 - 1) (newNode a b) with
          | none => none
          | some s3 => mergeLoopS fuel s3 (n - 1)
    else some s

theorem mergeLoopS_rep {cap : Nat} (fuel : Nat) {s : Slots} {q : Queue} (h : SlotRep cap s q)
    (hq : q ≠ []) (hf : q.length ≤ fuel) :
    ∃ s' q', mergeLoopS fuel s q.length = some s' ∧ mergeLoop (fun _ => false) fuel q = some q' ∧
      SlotRep cap s' q' ∧ q' ≠ [] := by
  induction fuel generalizing s q with
  | zero => exact absurd (List.length_eq_zero_iff.1 (by omega)) hq
  | succ fuel ih =>
    simp only [mergeLoopS, mergeLoop, gt_iff_lt]
    split
    · rename_i h1
      obtain ⟨a, s1, q1, e1, e2, e3, e4⟩ := qremoveS_rep h hq
      obtain ⟨b, s2, q2, f1, f2, f3, f4⟩ := qremoveS_rep e3 (by rintro rfl; simp at e4; omega)
      have hc := h.len
      obtain ⟨s3, q3, g1, g2, g3, g4⟩ := qinsertS_rep f3 (by omega) (newNode a b)
      rw [e4] at f1 f4
      rw [f4] at g1 g4
      simp only [e1, e2, f1, f2, g1, Bool.false_eq_true, if_false, g2]
      have hl : q3.length = q.length - 1 := by omega
      rw [← hl]
      exact ih g3 (by rintro rfl; simp at hl; omega) (by omega)
    · exact ⟨s, q, rfl, rfl, h, hq⟩

/-- Insert leaves with the frequencies in the list, for the symbols `c`, `c + 1`, …. -/
def insertS : List Nat → Nat → Slots → Nat → Option (Slots × Nat)
  | [], _, s, n => some (s, n)
  | f :: fs, c, s, n =>
    if f ≠ 0 then
      match qinsertS s n (newLeaf f c) with
      | none => none
      | some s' => insertS fs (c + 1) s' (n + 1)
    else insertS fs (c + 1) s n

theorem insertS_rep {cap : Nat} (freq : Nat → Nat) (fs : List Nat) (c : Nat)
    (hfs : ∀ i (_ : i < fs.length), freq (c + i) = fs[i]) {s : Slots} {q : Queue} (h : SlotRep cap s q)
    (hc : q.length + fs.length ≤ cap) :
    ∃ s' q', insertS fs c s q.length = some (s', q'.length) ∧
      insertLeaves freq (List.range' c fs.length) q = some q' ∧ SlotRep cap s' q' := by
  induction fs generalizing c s q with
  | nil => exact ⟨s, q, rfl, rfl, h⟩
  | cons f fs ih =>
    have h0 : freq c = f := hfs 0 (by simp)
    have hr : ∀ i (_ : i < fs.length), freq (c + 1 + i) = fs[i] := fun i hi => by
      have := hfs (i + 1) (by simp; omega)
      rw [Nat.add_assoc, Nat.add_comm 1 i]
      exact this
    simp only [List.length_cons] at hc
    simp only [insertS, List.length_cons, List.range'_succ, insertLeaves, h0]
    split
    · obtain ⟨s1, q1, e1, e2, e3, e4⟩ := qinsertS_rep h (by omega) (newLeaf f c)
      simp only [e1, e2]
      rw [← e4]
      exact ih (c + 1) hr e3 (by omega)
    · exact ih (c + 1) hr h (by omega)

/-- The tree of a list of frequencies. -/
def treeS (d : Nat) (fs : List Nat) : Option HTree :=
  match insertS fs 0 (Slots.full (.leaf 0 0) d) 0 with
  | none => none
  | some (s, n) =>
    if n = 0 then none
    else match mergeLoopS (n + 1) s n with
      | none => none
      | some s' => s'.get 1

theorem treeS_eq (d : Nat) (fs : List Nat) (hd : fs.length < 2 ^ d) :
    treeS d fs = treeOfFreq (fun _ => false) (fun c => fs.getD c 0) fs.length := by
  have hR : SlotRep (2 ^ d - 1) (Slots.full (.leaf 0 0) d) [] :=
    ⟨by simp, fun i h1 h2 => Slots.full_has _ _ _ h1 (by omega), fun i hi => by simp at hi⟩
  obtain ⟨s, q, e1, e2, e3⟩ := insertS_rep (fun c => fs.getD c 0) fs 0
    (fun i hi => by simp [hi]) hR (by simp; omega)
  rw [List.length_nil] at e1
  simp only [treeS, treeOfFreq, e1, List.range_eq_range', e2]
  by_cases hq : q = []
  · subst hq
    rfl
  rw [if_neg (fun h => hq (List.length_eq_zero_iff.1 h))]
  obtain ⟨s', q', f1, f2, f3, f4⟩ := mergeLoopS_rep (q.length + 1) e3 hq (by omega)
  obtain ⟨x, q', rfl⟩ := List.exists_cons_of_ne_nil f4
  have hg := f3.get' (i := 1) (by omega) (by simp)
  simp only [f1, f2, hg]
  rfl

end CpSZ.Huff
