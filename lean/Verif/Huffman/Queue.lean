import Verif.Huffman.Model
/-
Lemmas about the priority queue and the tree construction: the queue operations never
fail on non-empty queues and only permute the entries, hence the leaves of the final tree
are exactly the occurring symbols.  Nothing here relies on heap order (which `qremove`
does not maintain).
-/

namespace CpSZ.Huff

theorem set_get_perm {α : Type} (q : List α) (i j : Nat) (m n : α) (hi : i < q.length)
    (hij : i ≠ j) (hm : q[j]? = some m) :
    ((q.set i m).set j n).Perm (q.set i n) := by
  obtain ⟨hj, hmj⟩ := List.getElem?_eq_some_iff.1 hm
  have h := List.set_set_perm (as := q.set i n) (i := i) (j := j) (by simpa using hi)
    (by simpa using hj)
  have e1 : (q.set i n)[j]'(by simpa using hj) = m := by
    rw [List.getElem_set_ne hij]; exact hmj
  have e2 : (q.set i n)[i]'(by simpa using hi) = n := by simp
  rw [e1, e2, List.set_set] at h
  exact h

theorem siftUp_perm (fuel i : Nat) (n : HTree) (q : Queue) (hf : i ≤ fuel) (hi : 1 ≤ i)
    (hq : i ≤ q.length) : ∃ q', siftUp fuel i n q = some q' ∧ q'.Perm (q.set (i - 1) n) := by
  induction fuel generalizing i q with
  | zero => omega
  | succ fuel ih =>
    simp only [siftUp]
    by_cases hj : i / 2 = 0
    · exact ⟨_, by simp [hj], List.Perm.refl _⟩
    · have hlt : i / 2 - 1 < q.length := by omega
      have hget : q[i / 2 - 1]? = some q[i / 2 - 1] := List.getElem?_eq_getElem hlt
      simp only [hj, if_false, hget]
      split
      · exact ⟨_, rfl, List.Perm.refl _⟩
      · obtain ⟨q', h1, h2⟩ := ih (i / 2) (q.set (i - 1) q[i / 2 - 1]) (by omega) (by omega)
          (by simp; omega)
        refine ⟨q', h1, h2.trans ?_⟩
        exact set_get_perm q (i - 1) (i / 2 - 1) _ n (by omega) (by omega) hget

theorem qinsert_perm (q : Queue) (n : HTree) :
    ∃ q', qinsert q n = some q' ∧ q'.Perm (n :: q) := by
  obtain ⟨q', h1, h2⟩ := siftUp_perm (q.length + 1) (q.length + 1) n (q ++ [n]) (by omega)
    (by omega) (by simp)
  refine ⟨q', h1, h2.trans ?_⟩
  have : (q ++ [n]).set (q.length + 1 - 1) n = q ++ [n] := by
    simp
  rw [this]
  exact List.perm_append_singleton n q

/-- The downward loop moves the hole: filling the hole with any `x` gives a permutation of
the original queue with its hole filled. -/
theorem siftDown_perm (fuel qend i : Nat) (q : Queue) (hi : 1 ≤ i) (hf : qend - i < fuel)
    (hq : q.length = qend) (hiq : i ≤ qend) :
    ∃ q' i', siftDown fuel qend i q = some (q', i') ∧ q'.length = qend ∧ 1 ≤ i' ∧
      (i' = i ∨ i' < qend) ∧ (i < qend → q'[qend - 1]? = q[qend - 1]?) ∧
      (i' = i → q' = q) ∧
      ∀ x, (q'.set (i' - 1) x).Perm (q.set (i - 1) x) := by
  induction fuel generalizing i q with
  | zero => omega
  | succ fuel ih =>
    simp only [siftDown]
    by_cases hl : 2 * i < qend
    · have step : ∀ (l : Nat) (a : HTree), q[l - 1]? = some a → i < l → l < qend →
          ∃ q' i', siftDown fuel qend l (q.set (i - 1) a) = some (q', i') ∧ q'.length = qend ∧
            1 ≤ i' ∧ (i' = i ∨ i' < qend) ∧ (i < qend → q'[qend - 1]? = q[qend - 1]?) ∧
            (i' = i → q' = q) ∧
            ∀ x, (q'.set (i' - 1) x).Perm (q.set (i - 1) x) := by
        intro l a ha hil hlq
        obtain ⟨q', i', h1, h2, h3, h4, h5, h6, h7⟩ :=
          ih l (q.set (i - 1) a) (by omega) (by omega) (by simp [hq]) (by omega)
        have hi'l : l ≤ i' := by
          -- the hole only moves down
          have mono : ∀ (f i : Nat) (q : Queue) (q' : Queue) (i' : Nat),
              siftDown f qend i q = some (q', i') → 1 ≤ i → i ≤ i' := by
            intro f
            induction f with
            | zero => intro i q q' i' h; simp [siftDown] at h
            | succ f ihf =>
              intro i q q' i' h hi1
              simp only [siftDown] at h
              split at h
              · split at h
                · simp at h
                · split at h
                  · split at h
                    · simp at h
                    · split at h
                      · have := ihf _ _ _ _ h (by omega); omega
                      · have := ihf _ _ _ _ h (by omega); omega
                  · have := ihf _ _ _ _ h (by omega); omega
              · simp only [Option.some.injEq, Prod.mk.injEq] at h
                omega
          exact mono _ _ _ _ _ h1 (by omega)
        refine ⟨q', i', h1, h2, h3, ?_, ?_, by omega, ?_⟩
        · rcases h4 with h | h
          · right; omega
          · right; exact h
        · intro _
          rw [h5 hlq, List.getElem?_set_ne (by omega)]
        · intro x
          refine (h7 x).trans ?_
          exact set_get_perm q (i - 1) (l - 1) a x (by omega) (by omega) ha
      have hlt : 2 * i - 1 < q.length := by omega
      have hget : q[2 * i - 1]? = some q[2 * i - 1] := List.getElem?_eq_getElem hlt
      simp only [hl, if_true, hget]
      by_cases hl1 : 2 * i + 1 < qend
      · have hlt2 : 2 * i < q.length := by omega
        have hget2 : q[2 * i]? = some q[2 * i] := List.getElem?_eq_getElem hlt2
        simp only [hl1, if_true, hget2]
        split
        · exact step (2 * i + 1) _ (by simp [hget2]) (by omega) hl1
        · exact step (2 * i) _ hget (by omega) hl
      · simp only [hl1, if_false]
        exact step (2 * i) _ hget (by omega) hl
    · simp only [hl, if_false]
      exact ⟨q, i, rfl, hq, hi, Or.inl rfl, fun _ => rfl, fun _ => rfl, fun x => List.Perm.refl _⟩

theorem qremove_perm (q : Queue) (hq : q ≠ []) :
    ∃ n q', qremove q = some (n, q') ∧ (n :: q').Perm q ∧ q'.length = q.length - 1 := by
  cases q with
  | nil => exact absurd rfl hq
  | cons n tl =>
    obtain ⟨q', i', h1, h2, h3, h4, h5, h6, h7⟩ :=
      siftDown_perm (n :: tl).length (n :: tl).length 1 (n :: tl) (by omega) (by simp) rfl
        (by simp)
    have hlast : (n :: tl).length - 1 < q'.length := by rw [h2]; simp
    have hget : q'[(n :: tl).length - 1]? = some q'[(n :: tl).length - 1] :=
      List.getElem?_eq_getElem hlast
    simp only [qremove, h1, hget]
    refine ⟨n, _, rfl, ?_, ?_⟩
    · by_cases htl : tl = []
      · subst htl
        simp
      · have hlen : 1 < (n :: tl).length := by
          cases tl with
          | nil => exact absurd rfl htl
          | cons a b => simp
        generalize hL : q'[(n :: tl).length - 1] = last at *
        have hi' : i' - 1 < (n :: tl).length - 1 := by omega
        have hsplit : q'.set (i' - 1) last =
            (q'.set (i' - 1) last).take ((n :: tl).length - 1) ++ [last] := by
          have e : (q'.set (i' - 1) last).length = ((n :: tl).length - 1) + 1 := by
            simp [h2]
          have hg : (q'.set (i' - 1) last)[(n :: tl).length - 1]? = some last := by
            rw [List.getElem?_set_ne (by omega), hget]
          have := List.take_append_drop ((n :: tl).length - 1) (q'.set (i' - 1) last)
          conv => lhs; rw [← this]
          congr 1
          obtain ⟨hlt, hval⟩ := List.getElem?_eq_some_iff.1 hg
          rw [List.drop_eq_getElem_cons hlt, hval]
          congr 1
          apply List.drop_eq_nil_of_le
          omega
        have hp := h7 last
        have hset : (n :: tl).set (1 - 1) last = last :: tl := rfl
        rw [hset, hsplit] at hp
        have hp2 := (List.perm_append_singleton last
          ((q'.set (i' - 1) last).take ((n :: tl).length - 1))).symm.trans hp
        exact (List.Perm.cons_inv hp2).cons n
    · simp [h2]

/-- Symbols of all trees in a queue. -/
def qsyms (q : Queue) : List Nat := q.flatMap HTree.syms

theorem qsyms_perm {q q' : Queue} (h : q.Perm q') : (qsyms q).Perm (qsyms q') :=
  h.flatMap_right _

theorem insertLeaves_spec (s cs : List Nat) (q : Queue) :
    ∃ q', insertLeaves (fun c => s.count c) cs q = some q' ∧
      (qsyms q').Perm (qsyms q ++ cs.filter (· ∈ s)) ∧
      q'.length = q.length + (cs.filter (· ∈ s)).length := by
  induction cs generalizing q with
  | nil => exact ⟨q, rfl, by simp, by simp⟩
  | cons c cs ih =>
    simp only [insertLeaves]
    by_cases hc : c ∈ s
    · have : s.count c ≠ 0 := by
        have := List.count_pos_iff.2 hc; omega
      obtain ⟨q1, h1, h2⟩ := qinsert_perm q (newLeaf (s.count c) c)
      obtain ⟨q2, h3, h4, h5⟩ := ih q1
      simp only [this, ne_eq, not_false_eq_true, if_true, h1]
      refine ⟨q2, h3, ?_, ?_⟩
      · refine h4.trans ?_
        have hs : (qsyms q1).Perm (c :: qsyms q) := by
          have := qsyms_perm h2
          simpa [qsyms, newLeaf, HTree.syms] using this
        simp only [List.filter_cons, hc, decide_true, if_true]
        refine (hs.append_right _).trans ?_
        exact (List.perm_middle).symm
      · rw [h5, h2.length_eq]; simp [hc]; omega
    · have : s.count c = 0 := List.count_eq_zero.2 hc
      obtain ⟨q2, h3, h4, h5⟩ := ih q
      simp only [this, ne_eq, not_true, if_false]
      refine ⟨q2, h3, ?_, ?_⟩
      · simpa [hc] using h4
      · simpa [hc] using h5

theorem mergeLoop_spec (swap : Nat → Bool) (fuel : Nat) (q : Queue) (hq : 0 < q.length)
    (hf : q.length ≤ fuel) :
    ∃ t, mergeLoop swap fuel q = some [t] ∧ t.syms.Perm (qsyms q) := by
  induction fuel generalizing q with
  | zero => omega
  | succ fuel ih =>
    simp only [mergeLoop]
    by_cases h1 : q.length > 1
    · obtain ⟨a, q1, ha, hpa, hla⟩ := qremove_perm q (by intro h; simp [h] at hq)
      obtain ⟨b, q2, hb, hpb, hlb⟩ := qremove_perm q1 (by intro h; simp [h] at hla; omega)
      obtain ⟨q3, hc, hpc⟩ := qinsert_perm q2 (if swap q.length then newNode b a else newNode a b)
      obtain ⟨t, ht, hpt⟩ := ih q3 (by rw [hpc.length_eq]; simp)
        (by rw [hpc.length_eq]; simp; omega)
      simp only [h1, if_true, ha, hb, hc]
      refine ⟨t, ht, hpt.trans ((qsyms_perm hpc).trans ?_)⟩
      have hq1 : (qsyms q).Perm (a.syms ++ (b.syms ++ qsyms q2)) := by
        refine (qsyms_perm hpa).symm.trans ?_
        simp only [qsyms, List.flatMap_cons]
        refine List.Perm.append_left _ ?_
        have := (qsyms_perm hpb).symm
        simpa [qsyms] using this
      refine List.Perm.trans ?_ hq1.symm
      by_cases hs : swap q.length
      · simp only [hs, if_true, qsyms, List.flatMap_cons, newNode, HTree.syms]
        rw [← List.append_assoc]
        exact List.perm_append_comm.append_right _
      · simp only [hs, Bool.false_eq_true, if_false, qsyms, List.flatMap_cons, newNode, HTree.syms,
          List.append_assoc]
        exact List.Perm.refl _
    · simp only [h1, if_false]
      match q, hq, h1 with
      | [t], _, _ => exact ⟨t, rfl, by simp [qsyms]⟩
      | _ :: _ :: _, _, h => simp at h

/-- The tree built from a non-empty input whose symbols fit the frequency table has exactly
the occurring symbols as leaves, each once. -/
theorem buildTree_spec (swap : Nat → Bool) (stateNum : Nat) (s : List Nat) (hs : s ≠ [])
    (hb : ∀ x ∈ s, x < 2 * stateNum) :
    ∃ t, buildTree swap stateNum s = some t ∧ t.syms.Nodup ∧ ∀ c, c ∈ t.syms ↔ c ∈ s := by
  have hall : s.all (· < 2 * stateNum) = true := by
    simp only [List.all_eq_true, decide_eq_true_eq]; exact hb
  obtain ⟨q, h1, h2, h3⟩ := insertLeaves_spec s (List.range (2 * stateNum)) []
  obtain ⟨x, hx⟩ : ∃ x, x ∈ s := List.exists_mem_of_ne_nil s hs
  have hpos : 0 < q.length := by
    rw [h3]
    have : x ∈ (List.range (2 * stateNum)).filter (· ∈ s) := by
      simp [hx, hb x hx]
    have := List.length_pos_of_mem this
    omega
  obtain ⟨t, h4, h5⟩ := mergeLoop_spec swap (q.length + 1) q hpos (by omega)
  have hp : t.syms.Perm ((List.range (2 * stateNum)).filter (· ∈ s)) := by
    refine h5.trans (h2.trans ?_)
    simp [qsyms]
  refine ⟨t, by simp [buildTree, treeOfFreq, hall, h1, h4], ?_, ?_⟩
  · rw [hp.nodup_iff]
    exact List.filter_sublist.nodup List.nodup_range
  · intro c
    rw [hp.mem_iff]
    simp only [List.mem_filter, List.mem_range, decide_eq_true_eq]
    exact ⟨fun h => h.2, fun h => ⟨hb c h, h⟩⟩

end CpSZ.Huff
