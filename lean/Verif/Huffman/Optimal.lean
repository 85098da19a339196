import Verif.Huffman.Prefix
import Mathlib.Tactic.ByContra
import Mathlib.Tactic.WLOG
/-
Optimality of greedy merging: if every step of the merge loop joins two entries that are no
more frequent than the entries left, the code of the final tree is at most as long as any
assignment of code lengths that satisfies Kraft's inequality.
-/

namespace CpSZ.Huff

/-- Total length `∑ frequency * length` of an assignment of code lengths. -/
def cost (P : List (Nat × Nat)) : Nat := (P.map fun p => p.1 * p.2).sum

/-- Kraft sum scaled by `2^D`. -/
def kraft (D : Nat) (P : List (Nat × Nat)) : Nat := (P.map fun p => 2 ^ (D - p.2)).sum

theorem cost_perm {P Q : List (Nat × Nat)} (h : P.Perm Q) : cost P = cost Q :=
  (h.map _).sum_nat

theorem kraft_perm {P Q : List (Nat × Nat)} (D : Nat) (h : P.Perm Q) : kraft D P = kraft D Q :=
  (h.map _).sum_nat

theorem mem_le_sum (l : List Nat) (x : Nat) (h : x ∈ l) : x ≤ l.sum := by
  induction l with
  | nil => simp at h
  | cons a l ih =>
    rcases List.mem_cons.1 h with rfl | h
    · simp
    · have := ih h; simp; omega

theorem kraft_snd (D : Nat) (P Q : List (Nat × Nat))
    (h : (P.map Prod.snd).Perm (Q.map Prod.snd)) : kraft D P = kraft D Q := by
  have e : ∀ P : List (Nat × Nat), kraft D P = ((P.map Prod.snd).map fun l => 2 ^ (D - l)).sum := by
    intro P; simp [kraft, List.map_map, Function.comp_def]
  rw [e P, e Q]
  exact (h.map _).sum_nat

/-- An entry of maximal length. -/
theorem exists_max (P : List (Nat × Nat)) (h : P ≠ []) :
    ∃ p ∈ P, ∀ q ∈ P, q.2 ≤ p.2 := by
  induction P with
  | nil => exact absurd rfl h
  | cons a P ih =>
    by_cases hP : P = []
    · subst hP; exact ⟨a, by simp, by simp⟩
    · obtain ⟨p, hp, hm⟩ := ih hP
      by_cases ha : a.2 ≤ p.2
      · exact ⟨p, by simp [hp], by simpa [ha] using fun a b h => hm (a, b) h⟩
      · refine ⟨a, by simp, ?_⟩
        intro q hq
        rcases List.mem_cons.1 hq with rfl | hq
        · exact Nat.le_refl _
        · have := hm q hq; omega

theorem perm_cons_of_mem {α : Type} {a : α} {l : List α} (h : a ∈ l) :
    ∃ l', l.Perm (a :: l') := by
  obtain ⟨s, t, rfl⟩ := List.append_of_mem h
  exact ⟨s ++ t, List.perm_middle⟩

theorem dvd_kraft (D L : Nat) (P : List (Nat × Nat)) (hL : L ≤ D) (h : ∀ p ∈ P, p.2 < L) :
    2 ^ (D - L + 1) ∣ kraft D P := by
  induction P with
  | nil => simp [kraft]
  | cons a P ih =>
    have h1 := ih fun p hp => h p (by simp [hp])
    have h2 : 2 ^ (D - L + 1) ∣ 2 ^ (D - a.2) :=
      Nat.pow_dvd_pow 2 (by have := h a (by simp); omega)
    simpa [kraft] using Nat.dvd_add h2 h1

/-- Any assignment can be turned into one with two entries of maximal length. -/
theorem two_longest (D : Nat) (n : Nat) (P : List (Nat × Nat)) (hn : (P.map Prod.snd).sum ≤ n)
    (h2 : 2 ≤ P.length) (hD : ∀ p ∈ P, p.2 ≤ D) (hK : kraft D P ≤ 2 ^ D) :
    ∃ x y L S, (((x, L) :: (y, L) :: S).map Prod.fst).Perm (P.map Prod.fst) ∧
      (∀ p ∈ S, p.2 ≤ L) ∧ 1 ≤ L ∧ L ≤ D ∧
      kraft D ((x, L) :: (y, L) :: S) ≤ 2 ^ D ∧ cost ((x, L) :: (y, L) :: S) ≤ cost P := by
  induction n generalizing P with
  | zero =>
    have h0 : ∀ p ∈ P, p.2 = 0 := by
      intro p hp
      have : p.2 ∈ P.map Prod.snd := List.mem_map_of_mem hp
      have := mem_le_sum _ _ this
      omega
    match P, h2 with
    | a :: b :: P, _ =>
      have ha := h0 a (by simp)
      have hb := h0 b (by simp)
      have hp : 0 < 2 ^ D := Nat.pow_pos (by omega)
      simp only [kraft, List.map_cons, List.sum_cons, ha, hb, Nat.sub_zero] at hK
      omega
  | succ n ih =>
    obtain ⟨⟨x, L⟩, hx, hm⟩ := exists_max P (by rintro rfl; simp at h2)
    obtain ⟨S, hS⟩ := perm_cons_of_mem hx
    have hlen := hS.length_eq
    by_cases hy : ∃ y, (y, L) ∈ S
    · obtain ⟨y, hy⟩ := hy
      obtain ⟨S', hS'⟩ := perm_cons_of_mem hy
      have hperm : P.Perm ((x, L) :: (y, L) :: S') := hS.trans (hS'.cons _)
      have hKr := kraft_perm D hperm
      have hLD : L ≤ D := hD _ hx
      refine ⟨x, y, L, S', (hperm.map _).symm, ?_, ?_, hLD, by omega,
        Nat.le_of_eq (cost_perm hperm).symm⟩
      · intro p hp
        exact hm p (hperm.mem_iff.2 (by simp [hp]))
      · rw [hKr] at hK
        by_contra h0
        have h0 : L = 0 := by omega
        subst h0
        have hp : 0 < 2 ^ D := Nat.pow_pos (by omega)
        simp only [kraft, List.map_cons, List.sum_cons, Nat.sub_zero] at hK
        omega
    · have hlt : ∀ p ∈ S, p.2 < L := by
        intro p hp
        have h1 := hm p (hS.mem_iff.2 (by simp [hp]))
        have h3 : p.2 ≠ L := fun h => hy ⟨p.1, by rw [← h]; exact hp⟩
        simp only at h1
        omega
      have hLD : L ≤ D := hD _ hx
      have hL1 : 1 ≤ L := by
        match S, hlt, hlen with
        | [], _, hlen => simp at hlen; omega
        | p :: _, hlt, _ => have := hlt p (by simp); omega
      have hK' : kraft D ((x, L - 1) :: S) ≤ 2 ^ D := by
        rw [kraft_perm D hS] at hK
        obtain ⟨a, ha⟩ := dvd_kraft D L S hLD hlt
        have hb : 2 ^ (D - L + 1) ∣ 2 ^ D := Nat.pow_dvd_pow 2 (by omega)
        obtain ⟨b, hb⟩ := hb
        have e1 : kraft D ((x, L) :: S) = 2 ^ (D - L) + kraft D S := by simp [kraft]
        have e2 : kraft D ((x, L - 1) :: S) = 2 ^ (D - L + 1) + kraft D S := by
          simp [kraft, show D - (L - 1) = D - L + 1 by omega]
        rw [e1, ha, hb] at hK
        rw [e2, ha, hb]
        have hp : 0 < 2 ^ (D - L) := Nat.pow_pos (by omega)
        have hpw : 2 ^ (D - L + 1) = 2 * 2 ^ (D - L) := by rw [Nat.pow_succ]; omega
        have hab : a < b := by
          by_contra hc
          have : 2 ^ (D - L + 1) * b ≤ 2 ^ (D - L + 1) * a := Nat.mul_le_mul_left _ (by omega)
          omega
        have : 2 ^ (D - L + 1) * (a + 1) ≤ 2 ^ (D - L + 1) * b := Nat.mul_le_mul_left _ hab
        rw [Nat.mul_add] at this
        omega
      have hsum := (hS.map Prod.snd).sum_nat
      obtain ⟨x', y', L', S', g1, g2, g3, g4, g5, g6⟩ := ih ((x, L - 1) :: S)
        (by simp at hsum ⊢; omega) (by simp at hlen ⊢; omega)
        (by
          intro p hp
          rcases List.mem_cons.1 hp with rfl | hp
          · simp only; omega
          · have := hlt p hp; omega)
        hK'
      refine ⟨x', y', L', S', g1.trans ?_, g2, g3, g4, g5, Nat.le_trans g6 ?_⟩
      · exact (hS.map Prod.fst).symm
      · rw [cost_perm hS]
        simp only [cost, List.map_cons, List.sum_cons]
        have : x * (L - 1) ≤ x * L := Nat.mul_le_mul_left _ (by omega)
        omega

/-- The least frequency can be given the maximal length. -/
theorem swap_longest (f x L : Nat) (S : List (Nat × Nat)) (hS : ∀ p ∈ S, p.2 ≤ L)
    (hf : f ∈ x :: S.map Prod.fst) (hmin : ∀ g ∈ x :: S.map Prod.fst, f ≤ g) :
    ∃ S', (f :: S'.map Prod.fst).Perm (x :: S.map Prod.fst) ∧
      (S'.map Prod.snd).Perm (S.map Prod.snd) ∧
      cost ((f, L) :: S') ≤ cost ((x, L) :: S) := by
  by_cases hfx : f = x
  · subst hfx; exact ⟨S, List.Perm.refl _, List.Perm.refl _, Nat.le_refl _⟩
  · have : f ∈ S.map Prod.fst := by simpa [hfx] using hf
    obtain ⟨⟨f', l⟩, hp, rfl⟩ := List.mem_map.1 this
    obtain ⟨S0, hS0⟩ := perm_cons_of_mem hp
    have hl : l ≤ L := hS _ hp
    have hx : f' ≤ x := hmin x (by simp)
    refine ⟨(x, l) :: S0, ?_, ?_, ?_⟩
    · simp only [List.map_cons]
      refine (List.Perm.swap _ _ _).trans (List.Perm.cons _ ?_)
      simpa using (hS0.map Prod.fst).symm
    · simpa using (hS0.map Prod.snd).symm
    · have e : cost ((x, L) :: S) = x * L + cost S := by simp [cost]
      rw [e, cost_perm hS0]
      simp only [cost, List.map_cons, List.sum_cons]
      obtain ⟨d, rfl⟩ := Nat.exists_eq_add_of_le hx
      obtain ⟨k, rfl⟩ := Nat.exists_eq_add_of_le hl
      have : 0 ≤ d * k := Nat.zero_le _
      simp only [Nat.add_mul, Nat.mul_add]
      omega

/-- Exchange step: from lengths for `f1, f2, R` to lengths for `f1 + f2, R`. -/
theorem exchange (D f1 f2 : Nat) (R : List Nat) (h1 : ∀ x ∈ R, f1 ≤ x ∧ f2 ≤ x)
    (P : List (Nat × Nat)) (hP : (P.map Prod.fst).Perm (f1 :: f2 :: R))
    (hD : ∀ p ∈ P, p.2 ≤ D) (hK : kraft D P ≤ 2 ^ D) :
    ∃ Q, (Q.map Prod.fst).Perm ((f1 + f2) :: R) ∧ (∀ p ∈ Q, p.2 ≤ D) ∧ kraft D Q ≤ 2 ^ D ∧
      (f1 + f2) + cost Q ≤ cost P := by
  wlog h12 : f1 ≤ f2 generalizing f1 f2
  · obtain ⟨Q, q1, q2, q3, q4⟩ := this f2 f1 (fun x hx => (h1 x hx).symm)
      (hP.trans (List.Perm.swap _ _ _)) (by omega)
    rw [Nat.add_comm f1 f2]
    exact ⟨Q, q1, q2, q3, q4⟩
  obtain ⟨x, y, L, S, g1, g2, g3, g4, g5, g6⟩ := two_longest D _ P (Nat.le_refl _)
    (by have := hP.length_eq; simp at this; omega) hD hK
  have g1' : (x :: ((y, L) :: S).map Prod.fst).Perm (f1 :: f2 :: R) := by
    simpa using g1.trans hP
  have hS1 : ∀ p ∈ (y, L) :: S, p.2 ≤ L := by
    intro p hp
    rcases List.mem_cons.1 hp with rfl | hp
    · exact Nat.le_refl _
    · exact g2 p hp
  obtain ⟨S1, s1, s2, s3⟩ := swap_longest f1 x L ((y, L) :: S) hS1
    (g1'.mem_iff.2 (by simp)) (by
      intro g hg
      rcases List.mem_cons.1 (g1'.mem_iff.1 hg) with rfl | hg
      · exact Nat.le_refl _
      · rcases List.mem_cons.1 hg with rfl | hg
        · exact h12
        · exact (h1 g hg).1)
  have hfst1 : (S1.map Prod.fst).Perm (f2 :: R) := (s1.trans g1').cons_inv
  have hLm : L ∈ S1.map Prod.snd := s2.mem_iff.2 (by simp)
  obtain ⟨⟨y', L'⟩, hy', hL'⟩ := List.mem_map.1 hLm
  simp only at hL'
  subst hL'
  obtain ⟨S2, hS2⟩ := perm_cons_of_mem hy'
  have hS1L : ∀ p ∈ S1, p.2 ≤ L' := by
    intro p hp
    have : p.2 ∈ ((y, L') :: S).map Prod.snd := s2.mem_iff.1 (List.mem_map_of_mem hp)
    obtain ⟨q, hq, hqe⟩ := List.mem_map.1 this
    rw [← hqe]; exact hS1 q hq
  have hf2 : (y' :: S2.map Prod.fst).Perm (f2 :: R) := by
    simpa using (hS2.map Prod.fst).symm.trans hfst1
  obtain ⟨S3, t1, t2, t3⟩ := swap_longest f2 y' L' S2
    (fun p hp => hS1L p (hS2.mem_iff.2 (by simp [hp])))
    (hf2.mem_iff.2 (by simp)) (by
      intro g hg
      rcases List.mem_cons.1 (hf2.mem_iff.1 hg) with rfl | hg
      · exact Nat.le_refl _
      · exact (h1 g hg).2)
  have hR : (S3.map Prod.fst).Perm R := (t1.trans hf2).cons_inv
  refine ⟨(f1 + f2, L' - 1) :: S3, by simpa using hR, ?_, ?_, ?_⟩
  · intro p hp
    rcases List.mem_cons.1 hp with rfl | hp
    · simp only; omega
    · have : p.2 ∈ S2.map Prod.snd := t2.mem_iff.1 (List.mem_map_of_mem hp)
      obtain ⟨q, hq, hqe⟩ := List.mem_map.1 this
      have := hS1L q (hS2.mem_iff.2 (by simp [hq]))
      omega
  · have k1 : kraft D S3 = kraft D S2 := kraft_snd D _ _ t2
    have k2 : kraft D S1 = kraft D ((y, L') :: S) := kraft_snd D _ _ s2
    have k3 := kraft_perm D hS2
    have k4 : 2 ^ (D - (L' - 1)) = 2 ^ (D - L') + 2 ^ (D - L') := by
      rw [show D - (L' - 1) = D - L' + 1 by omega, Nat.pow_succ]; omega
    simp only [kraft, List.map_cons, List.sum_cons] at k1 k2 k3 g5 ⊢
    omega
  · have c3 := cost_perm hS2
    have hL : (f1 + f2) * (L' - 1) + (f1 + f2) = (f1 + f2) * L' := by
      rw [← Nat.mul_succ]; congr 1; omega
    rw [Nat.add_mul f1 f2 L'] at hL
    simp only [cost, List.map_cons, List.sum_cons] at *
    omega

/-- Sum of the frequencies stored in the inner nodes. -/
def HTree.inner : HTree → Nat
  | .leaf _ _ => 0
  | .node f l r => f + l.inner + r.inner

/-- Every step of the merge loop (started with queue `q`) joins two entries that are no more
frequent than each of the entries left in the queue. -/
def leastMerges (swap : Nat → Bool) : Nat → Queue → Bool
  | 0, _ => true
  | fuel + 1, q =>
    if q.length > 1 then
      match qremove q with
      | none => true
      | some (a, q1) =>
        match qremove q1 with
        | none => true
        | some (b, q2) =>
          (q2.all fun c => decide (a.freq ≤ c.freq) && decide (b.freq ≤ c.freq)) &&
          match qinsert q2 (if swap q.length then newNode b a else newNode a b) with
          | none => true
          | some q3 => leastMerges swap fuel q3
    else true

theorem mergeLoop_optimal (swap : Nat → Bool) (D fuel : Nat) (q : Queue) (t : HTree)
    (hl : leastMerges swap fuel q = true) (ht : mergeLoop swap fuel q = some [t])
    (P : List (Nat × Nat)) (hP : (P.map Prod.fst).Perm (q.map HTree.freq))
    (hD : ∀ p ∈ P, p.2 ≤ D) (hK : kraft D P ≤ 2 ^ D) :
    t.inner ≤ (q.map HTree.inner).sum + cost P := by
  induction fuel generalizing q P with
  | zero => simp [mergeLoop] at ht
  | succ fuel ih =>
    simp only [mergeLoop] at ht
    by_cases hq : q.length > 1
    · simp only [hq, if_true] at ht
      obtain ⟨a, q1, e1, p1, l1⟩ := qremove_perm q (by rintro rfl; simp at hq)
      obtain ⟨b, q2, e2, p2, l2⟩ := qremove_perm q1 (by rintro rfl; simp at l1; omega)
      obtain ⟨q3, e3, p3⟩ := qinsert_perm q2 (if swap q.length then newNode b a else newNode a b)
      simp only [e1, e2, e3] at ht
      simp only [leastMerges, hq, if_true, e1, e2, e3, Bool.and_eq_true, List.all_eq_true,
        decide_eq_true_eq] at hl
      obtain ⟨hmin, hrest⟩ := hl
      have hperm : q.Perm (a :: b :: q2) := p1.symm.trans (p2.symm.cons _)
      obtain ⟨Q, r1, r2, r3, r4⟩ := exchange D a.freq b.freq (q2.map HTree.freq)
        (by
          intro x hx
          obtain ⟨c, hc, rfl⟩ := List.mem_map.1 hx
          exact hmin c hc)
        P (hP.trans (by simpa using hperm.map HTree.freq)) hD hK
      have hfr : (if swap q.length then newNode b a else newNode a b).freq = a.freq + b.freq := by
        split <;> simp [newNode, HTree.freq, Nat.add_comm]
      have hin : (if swap q.length then newNode b a else newNode a b).inner =
          a.freq + b.freq + a.inner + b.inner := by
        split <;> simp only [newNode, HTree.inner] <;> omega
      have := ih q3 hrest ht Q (r1.trans (by
        have := (p3.map HTree.freq).symm
        simpa [hfr] using this)) r2 r3
      have s1 := (p3.map HTree.inner).sum_nat
      have s2 := (hperm.map HTree.inner).sum_nat
      simp only [List.map_cons, List.sum_cons, hin] at s1 s2
      omega
    · simp only [hq, if_false, Option.some.injEq] at ht
      subst ht
      simp

/-- Frequencies of the leaves are given by `w`. -/
def HTree.Weighted (w : Nat → Nat) : HTree → Prop
  | .leaf f c => f = w c
  | .node f l r => f = l.freq + r.freq ∧ l.Weighted w ∧ r.Weighted w

theorem weighted_freq (w : Nat → Nat) (t : HTree) (h : t.Weighted w) :
    (t.paths.map fun p => w p.1).sum = t.freq := by
  induction t with
  | leaf f c => simpa [HTree.paths, HTree.freq] using h.symm
  | node f l r ihl ihr =>
    obtain ⟨h1, h2, h3⟩ := h
    have := ihl h2; have := ihr h3
    simp only [HTree.paths, List.map_append, List.map_map, List.sum_append, Function.comp_def,
      HTree.freq]
    omega

theorem sum_map_add (f g : α → Nat) (l : List α) :
    (l.map fun x => f x + g x).sum = (l.map f).sum + (l.map g).sum := by
  induction l with
  | nil => rfl
  | cons a l ih => simp only [List.map_cons, List.sum_cons, ih]; omega

/-- Weighted path length = sum of the inner frequencies. -/
theorem weighted_cost (w : Nat → Nat) (t : HTree) (h : t.Weighted w) :
    (t.paths.map fun p => w p.1 * p.2.length).sum = t.inner := by
  induction t with
  | leaf f c => simp [HTree.paths, HTree.inner]
  | node f l r ihl ihr =>
    obtain ⟨h1, h2, h3⟩ := h
    have a1 := ihl h2; have a2 := ihr h3
    have b1 := weighted_freq w l h2; have b2 := weighted_freq w r h3
    simp only [HTree.paths, List.map_append, List.map_map, List.sum_append, Function.comp_def,
      List.length_cons, Nat.mul_add, Nat.mul_one, sum_map_add, HTree.inner]
    omega

theorem insertLeaves_leaves (w : Nat → Nat) (cs : List Nat) (q q' : Queue)
    (h : insertLeaves w cs q = some q') (hq : ∀ t ∈ q, ∃ c, t = .leaf (w c) c) :
    ∀ t ∈ q', ∃ c, t = .leaf (w c) c := by
  induction cs generalizing q with
  | nil => simp only [insertLeaves, Option.some.injEq] at h; subst h; exact hq
  | cons c cs ih =>
    simp only [insertLeaves] at h
    by_cases hc : w c ≠ 0
    · obtain ⟨q1, e, p⟩ := qinsert_perm q (newLeaf (w c) c)
      rw [if_pos hc, e] at h
      · refine ih q1 h ?_
        intro t ht
        rcases List.mem_cons.1 (p.mem_iff.1 ht) with rfl | ht
        · exact ⟨c, rfl⟩
        · exact hq t ht
    · rw [if_neg hc] at h
      exact ih q h hq

theorem mergeLoop_weighted (w : Nat → Nat) (swap : Nat → Bool) (fuel : Nat) (q q' : Queue)
    (h : mergeLoop swap fuel q = some q') (hq : ∀ t ∈ q, t.Weighted w) :
    ∀ t ∈ q', t.Weighted w := by
  induction fuel generalizing q with
  | zero => simp [mergeLoop] at h
  | succ fuel ih =>
    simp only [mergeLoop] at h
    by_cases hl : q.length > 1
    · simp only [hl, if_true] at h
      obtain ⟨a, q1, e1, p1, l1⟩ := qremove_perm q (by rintro rfl; simp at hl)
      obtain ⟨b, q2, e2, p2, l2⟩ := qremove_perm q1 (by rintro rfl; simp at l1; omega)
      obtain ⟨q3, e3, p3⟩ := qinsert_perm q2 (if swap q.length then newNode b a else newNode a b)
      simp only [e1, e2, e3] at h
      have ha : a.Weighted w := hq a (p1.mem_iff.1 (by simp))
      have hb : b.Weighted w := hq b (p1.mem_iff.1 (by
        simp only [List.mem_cons]; right; exact p2.mem_iff.1 (by simp)))
      refine ih q3 h ?_
      intro t ht
      rcases List.mem_cons.1 (p3.mem_iff.1 ht) with rfl | ht
      · split
        · exact ⟨rfl, hb, ha⟩
        · exact ⟨rfl, ha, hb⟩
      · exact hq t (p1.mem_iff.1 (by
          simp only [List.mem_cons]; right; exact p2.mem_iff.1 (by simp [ht])))
    · simp only [hl, if_false, Option.some.injEq] at h
      subst h; exact hq

/-! ### Kraft's inequality for prefix codes -/

theorem kraft_prefix (D : Nat) (W : List (List Bool)) (hD : ∀ w ∈ W, w.length ≤ D)
    (hp : W.Pairwise fun a b => ¬ a <+: b ∧ ¬ b <+: a) :
    (W.map fun w => 2 ^ (D - w.length)).sum ≤ 2 ^ D := by
  induction D generalizing W with
  | zero =>
    match W, hp with
    | [], _ => simp
    | [a], _ => simp
    | a :: b :: W, hp =>
      have ha : a = [] := List.length_eq_zero_iff.1 (by have := hD a (by simp); omega)
      have := (List.pairwise_cons.1 hp).1 b (by simp)
      rw [ha] at this
      simp at this
  | succ D ih =>
    by_cases hnil : [] ∈ W
    · obtain ⟨s, t, rfl⟩ := List.append_of_mem hnil
      have h1 : s = [] := by
        rw [List.eq_nil_iff_forall_not_mem]
        intro x hx
        have := (List.pairwise_append.1 hp).2.2 x hx [] (by simp)
        simp at this
      have h2 : t = [] := by
        rw [List.eq_nil_iff_forall_not_mem]
        intro x hx
        have := (List.pairwise_cons.1 (List.pairwise_append.1 hp).2.1).1 x hx
        simp at this
      subst h1 h2
      simp
    · have key : ∀ b : Bool, ((W.filter fun w => w.head? = some b).map
          fun w => 2 ^ (D + 1 - w.length)).sum ≤ 2 ^ D := by
        intro b
        have e : ∀ w ∈ W.filter (fun w => w.head? = some b), w = b :: w.tail := by
          intro w hw
          have := (List.mem_filter.1 hw).2
          cases w with
          | nil => simp at this
          | cons c w => simp at this; simp [this]
        have := ih ((W.filter fun w => w.head? = some b).map List.tail)
          (by
            intro w hw
            obtain ⟨v, hv, rfl⟩ := List.mem_map.1 hw
            have := hD v (List.mem_filter.1 hv).1
            rw [List.length_tail]; omega)
          (by
            rw [List.pairwise_map]
            refine ((hp.filter _).imp_of_mem ?_)
            intro x y hx hy h
            rw [e x hx, e y hy] at h
            simpa using h)
        rw [List.map_map] at this
        refine Nat.le_trans (Nat.le_of_eq ?_) this
        congr 1
        apply List.map_congr_left
        intro w hw
        have h1 := congrArg List.length (e w hw)
        simp only [Function.comp_apply, List.length_cons] at h1 ⊢
        congr 1; omega
      have hsplit : ∀ V : List (List Bool), [] ∉ V →
          (V.map fun w => 2 ^ (D + 1 - w.length)).sum =
          ((V.filter fun w => w.head? = some false).map fun w => 2 ^ (D + 1 - w.length)).sum +
          ((V.filter fun w => w.head? = some true).map fun w => 2 ^ (D + 1 - w.length)).sum := by
        intro V
        induction V with
        | nil => intro _; rfl
        | cons v V ihV =>
          intro hv
          have := ihV (by simp at hv; exact hv.2)
          cases v with
          | nil => simp at hv
          | cons b v => cases b <;> simp at this ⊢ <;> omega
      rw [hsplit W hnil, Nat.pow_succ]
      have := key false; have := key true
      omega

/-! ### Sums over an array and over its symbols -/

theorem sum_single (f : Nat → Nat) (x : Nat) (l : List Nat) (hnd : l.Nodup) (hx : x ∈ l) :
    (l.map fun c => if c = x then f c else 0).sum = f x := by
  induction l with
  | nil => simp at hx
  | cons a l ih =>
    obtain ⟨h1, h2⟩ := List.nodup_cons.1 hnd
    by_cases ha : a = x
    · subst ha
      have : (l.map fun c => if c = a then f c else 0).sum = 0 :=
        sum_map_zero _ _ fun y hy => if_neg fun h : y = a => h1 (h ▸ hy)
      simp [this]
    · have := ih h2 (by simpa [Ne.symm ha] using hx)
      simp [ha, this]

theorem sum_count (f : Nat → Nat) (s l : List Nat) (hnd : l.Nodup) (h : ∀ x ∈ s, x ∈ l) :
    (s.map f).sum = (l.map fun c => s.count c * f c).sum := by
  induction s with
  | nil => exact (sum_map_zero _ _ (by simp)).symm
  | cons x s ih =>
    have h1 := ih fun y hy => h y (by simp [hy])
    have h2 := sum_single f x l hnd (h x (by simp))
    rw [List.map_cons, List.sum_cons, h1, ← h2, ← sum_map_add]
    congr 1
    apply List.map_congr_left
    intro c _
    by_cases hc : c = x
    · subst hc
      simp [List.count_cons_self, Nat.add_mul, Nat.add_comm]
    · simp [hc, List.count_cons_of_ne (Ne.symm hc)]

/-! ### The heap after the insertions -/

/-- Frequency at heap position `i` (counted from one). -/
def fr (q : Queue) (i : Nat) : Nat := (q.getD (i - 1) (.leaf 0 0)).freq

theorem fr_set (q : Queue) (i k : Nat) (m : HTree) (hi : 1 ≤ i) (hq : i ≤ q.length)
    (hk : 1 ≤ k) : fr (q.set (i - 1) m) k = if k = i then m.freq else fr q k := by
  simp only [fr, List.getD_eq_getElem?_getD, List.getElem?_set]
  by_cases h : k = i
  · subst h; simp [show k - 1 < q.length by omega]
  · have h' : i - 1 ≠ k - 1 := by omega
    simp [h, h']

/-- No entry is more frequent than its children. -/
def IsHeap (q : Queue) : Prop := ∀ k, 2 ≤ k → k ≤ q.length → fr q (k / 2) ≤ fr q k

theorem siftUp_heap (fuel i : Nat) (n : HTree) (q q' : Queue) (h : siftUp fuel i n q = some q')
    (hi : 1 ≤ i) (hq : i ≤ q.length)
    (hA : ∀ k, 2 ≤ k → k ≤ q.length → k ≠ i → k / 2 ≠ i → fr q (k / 2) ≤ fr q k)
    (hB : ∀ k, 2 ≤ k → k ≤ q.length → k / 2 = i → n.freq ≤ fr q k)
    (hC : ∀ k, 2 ≤ k → k ≤ q.length → k / 2 = i → 2 ≤ i → fr q (i / 2) ≤ fr q k) :
    IsHeap q' := by
  induction fuel generalizing i q with
  | zero => simp [siftUp] at h
  | succ fuel ih =>
    simp only [siftUp] at h
    by_cases hj : i / 2 = 0
    · simp only [hj, if_true, Option.some.injEq] at h
      subst h
      intro k hk hkl
      rw [List.length_set] at hkl
      rw [fr_set q i _ n hi hq (by omega), fr_set q i _ n hi hq (by omega)]
      have hi1 : i = 1 := by omega
      rw [if_neg (by omega : k ≠ i)]
      by_cases hki : k / 2 = i
      · rw [if_pos hki]; exact hB k hk hkl hki
      · rw [if_neg hki]; exact hA k hk hkl (by omega) hki
    · simp only [hj, if_false] at h
      have hjl : i / 2 - 1 < q.length := by omega
      rw [List.getElem?_eq_getElem hjl] at h
      have hm : (q[i / 2 - 1]'hjl).freq = fr q (i / 2) := by
        simp [fr, hjl]
      generalize hmm : q[i / 2 - 1]'hjl = m at h hm
      simp only at h
      by_cases hle : m.freq ≤ n.freq
      · simp only [hle, if_true, Option.some.injEq] at h
        subst h
        intro k hk hkl
        rw [List.length_set] at hkl
        rw [fr_set q i _ n hi hq (by omega), fr_set q i _ n hi hq (by omega)]
        by_cases hki : k = i
        · subst hki
          rw [if_neg (by omega), if_pos rfl]; omega
        · rw [if_neg hki]
          by_cases hki' : k / 2 = i
          · rw [if_pos hki']; exact hB k hk hkl hki'
          · rw [if_neg hki']; exact hA k hk hkl hki hki'
      · simp only [hle, if_false] at h
        refine ih (i / 2) (q.set (i - 1) m) h (by omega) (by simp; omega) ?_ ?_ ?_
        · intro k hk hkl h1 h2
          rw [List.length_set] at hkl
          have hki : k ≠ i := by rintro rfl; exact h2 rfl
          rw [fr_set q i _ m hi hq (by omega), fr_set q i _ m hi hq (by omega), if_neg hki]
          by_cases hki' : k / 2 = i
          · rw [if_pos hki', hm]; exact hC k hk hkl hki' (by omega)
          · rw [if_neg hki']; exact hA k hk hkl hki hki'
        · intro k hk hkl h1
          rw [List.length_set] at hkl
          rw [fr_set q i _ m hi hq (by omega)]
          by_cases hki : k = i
          · rw [if_pos hki]; omega
          · rw [if_neg hki]
            have := hA k hk hkl hki (by omega)
            rw [h1] at this
            omega
        · intro k hk hkl h1 h2
          rw [List.length_set] at hkl
          rw [fr_set q i _ m hi hq (by omega), fr_set q i _ m hi hq (by omega),
            if_neg (by omega)]
          have hg := hA (i / 2) h2 (by omega) (by omega) (by omega)
          by_cases hki : k = i
          · rw [if_pos hki]; omega
          · rw [if_neg hki]
            have := hA k hk hkl hki (by omega)
            rw [h1] at this
            omega

theorem fr_append (q : Queue) (n : HTree) (k : Nat) (hk : 1 ≤ k) (hkl : k ≤ q.length) :
    fr (q ++ [n]) k = fr q k := by
  simp only [fr, List.getD_eq_getElem?_getD]
  rw [List.getElem?_append_left (by omega)]

theorem qinsert_heap (q q' : Queue) (n : HTree) (h : qinsert q n = some q') (hq : IsHeap q) :
    IsHeap q' := by
  refine siftUp_heap _ _ n _ q' h (by omega) (by simp) ?_ ?_ ?_
  · intro k hk hkl h1 h2
    simp only [List.length_append, List.length_cons, List.length_nil] at hkl
    rw [fr_append q n _ (by omega) (by omega), fr_append q n _ (by omega) (by omega)]
    exact hq k hk (by omega)
  · intro k hk hkl h1
    simp only [List.length_append, List.length_cons, List.length_nil] at hkl
    omega
  · intro k hk hkl h1
    simp only [List.length_append, List.length_cons, List.length_nil] at hkl
    omega

theorem insertLeaves_heap (w : Nat → Nat) (cs : List Nat) (q q' : Queue)
    (h : insertLeaves w cs q = some q') (hq : IsHeap q) : IsHeap q' := by
  induction cs generalizing q with
  | nil => simp only [insertLeaves, Option.some.injEq] at h; subst h; exact hq
  | cons c cs ih =>
    simp only [insertLeaves] at h
    by_cases hc : w c ≠ 0
    · obtain ⟨q1, e, p⟩ := qinsert_perm q (newLeaf (w c) c)
      rw [if_pos hc, e] at h
      exact ih q1 h (qinsert_heap q q1 _ e hq)
    · rw [if_neg hc] at h
      exact ih q h hq

/-- Position `a` bounds every position below it. -/
theorem heap_root (q : Queue) (hq : IsHeap q) (k : Nat) (hk : 1 ≤ k) (hkl : k ≤ q.length) :
    fr q 1 ≤ fr q k := by
  induction k using Nat.strongRecOn with
  | ind k ih =>
    by_cases h1 : k = 1
    · subst h1; exact Nat.le_refl _
    · exact Nat.le_trans (ih (k / 2) (by omega) (by omega) (by omega)) (hq k (by omega) hkl)

theorem heap_second (q : Queue) (hq : IsHeap q) (k : Nat) (hk : 2 ≤ k) (hkl : k ≤ q.length) :
    fr q 2 ≤ fr q k ∨ (3 ≤ q.length ∧ fr q 3 ≤ fr q k) := by
  induction k using Nat.strongRecOn with
  | ind k ih =>
    by_cases h2 : k = 2
    · subst h2; exact Or.inl (Nat.le_refl _)
    · by_cases h3 : k = 3
      · subst h3; exact Or.inr ⟨hkl, Nat.le_refl _⟩
      · have := hq k (by omega) hkl
        rcases ih (k / 2) (by omega) (by omega) (by omega) with h | ⟨h, h'⟩
        · left; omega
        · right; omega

/-- Below the root the loop of `qremove` does not touch the root. -/
theorem siftDown_root (fuel qend i : Nat) (q q' : Queue) (i' : Nat) (hi : 2 ≤ i)
    (h : siftDown fuel qend i q = some (q', i')) : q'[0]? = q[0]? ∧ 2 ≤ i' := by
  induction fuel generalizing i q with
  | zero => simp [siftDown] at h
  | succ fuel ih =>
    have hset : ∀ m, (q.set (i - 1) m)[0]? = q[0]? := by
      intro m; rw [List.getElem?_set_ne (by omega)]
    simp only [siftDown] at h
    split at h
    · split at h
      · simp at h
      · split at h
        · split at h
          · simp at h
          · split at h
            · obtain ⟨e, g⟩ := ih _ _ (by omega) h
              exact ⟨e.trans (hset _), g⟩
            · obtain ⟨e, g⟩ := ih _ _ (by omega) h
              exact ⟨e.trans (hset _), g⟩
        · obtain ⟨e, g⟩ := ih _ _ (by omega) h
          exact ⟨e.trans (hset _), g⟩
    · simp only [Option.some.injEq, Prod.mk.injEq] at h
      obtain ⟨rfl, rfl⟩ := h
      exact ⟨rfl, hi⟩

/-- After a removal from a queue of four or more entries the root is the less frequent of
the two children. -/
theorem qremove_root (q q1 : Queue) (a : HTree) (h4 : 4 ≤ q.length)
    (h : qremove q = some (a, q1)) : q[0]? = some a ∧
      fr q1 1 = (if fr q 3 < fr q 2 then fr q 3 else fr q 2) := by
  match q, h4 with
  | x0 :: x1 :: x2 :: x3 :: tl, _ =>
    simp only [qremove, List.length_cons] at h
    generalize hf : tl.length + 1 + 1 + 1 = f at h
    have hf3 : 3 ≤ f := by omega
    have e2 : (2 * 1 : Nat) < f + 1 := by omega
    have e3 : 2 * 1 + 1 < f + 1 := by omega
    simp only [siftDown, e2, e3, if_true] at h
    have g1 : (x0 :: x1 :: x2 :: x3 :: tl)[2 * 1 - 1]? = some x1 := rfl
    have g2 : (x0 :: x1 :: x2 :: x3 :: tl)[2 * 1]? = some x2 := rfl
    simp only [g1, g2] at h
    have f2 : fr (x0 :: x1 :: x2 :: x3 :: tl) 2 = x1.freq := rfl
    have f3 : fr (x0 :: x1 :: x2 :: x3 :: tl) 3 = x2.freq := rfl
    rw [f2, f3]
    have fin : ∀ (m : HTree) (i : Nat), 2 ≤ i → (match siftDown f (f + 1) i
          ((x0 :: x1 :: x2 :: x3 :: tl).set (1 - 1) m) with
        | none => none
        | some (q', i) =>
          match q'[f + 1 - 1]? with
          | none => none
          | some last => some (x0, (q'.set (i - 1) last).take (f + 1 - 1))) = some (a, q1) →
        a = x0 ∧ fr q1 1 = m.freq := by
      intro m i hi h
      cases hsd : siftDown f (f + 1) i ((x0 :: x1 :: x2 :: x3 :: tl).set (1 - 1) m) with
      | none => rw [hsd] at h; simp at h
      | some r =>
        obtain ⟨q', i'⟩ := r
        rw [hsd] at h
        obtain ⟨r1, r2⟩ := siftDown_root _ _ _ _ _ _ hi hsd
        simp only at h
        cases hl : q'[f + 1 - 1]? with
        | none => rw [hl] at h; simp at h
        | some last =>
          rw [hl] at h
          simp only [Option.some.injEq, Prod.mk.injEq] at h
          obtain ⟨rfl, rfl⟩ := h
          refine ⟨rfl, ?_⟩
          simp only [fr, List.getD_eq_getElem?_getD]
          rw [List.getElem?_take_of_lt (by omega), List.getElem?_set_ne (by omega), r1]
          rfl
    by_cases hlt : x2.freq < x1.freq
    · simp only [hlt, if_true] at h ⊢
      obtain ⟨rfl, g⟩ := fin x2 _ (by omega) h
      exact ⟨rfl, g⟩
    · simp only [hlt, if_false] at h ⊢
      obtain ⟨rfl, g⟩ := fin x1 _ (by omega) h
      exact ⟨rfl, g⟩

theorem mem_fr (q : Queue) (c : HTree) (hc : c ∈ q) : ∃ k, 1 ≤ k ∧ k ≤ q.length ∧
    q[k - 1]? = some c ∧ fr q k = c.freq := by
  obtain ⟨i, hi, rfl⟩ := List.getElem_of_mem hc
  refine ⟨i + 1, by omega, by omega, by simp [hi], by simp [fr, hi]⟩

/-- From a heap of four or more entries the two entries removed first are the least
frequent ones. -/
theorem heap_first_two (q : Queue) (hq : IsHeap q) (h4 : 4 ≤ q.length) :
    ∃ a q1 b q2, qremove q = some (a, q1) ∧ qremove q1 = some (b, q2) ∧
      a.freq ≤ b.freq ∧ ∀ c ∈ q2, b.freq ≤ c.freq := by
  obtain ⟨a, q1, e1, p1, l1⟩ := qremove_perm q (by rintro rfl; simp at h4)
  obtain ⟨b, q2, e2, p2, l2⟩ := qremove_perm q1 (by rintro rfl; simp at l1; omega)
  obtain ⟨ha, hroot⟩ := qremove_root q q1 a h4 e1
  have hb : fr q1 1 = b.freq := by
    match q1, e2 with
    | n :: tl, e2 =>
      simp only [qremove] at e2
      split at e2
      · simp at e2
      · split at e2
        · simp at e2
        · simp only [Option.some.injEq, Prod.mk.injEq] at e2
          rw [← e2.1]; rfl
  have haf : fr q 1 = a.freq := by
    simp [fr, List.getD_eq_getElem?_getD, ha]
  refine ⟨a, q1, b, q2, e1, e2, ?_, ?_⟩
  · have h2 := heap_root q hq 2 (by omega) (by omega)
    have h3 := heap_root q hq 3 (by omega) (by omega)
    rw [hb] at hroot
    split at hroot <;> omega
  · intro c hc
    have hqt : q = a :: q.tail := by
      cases q with
      | nil => simp at h4
      | cons x tl => simp at ha; simp [ha]
    have hct : c ∈ q.tail := by
      have p3 : q1.Perm q.tail := by
        have := p1
        rw [hqt] at this
        exact this.cons_inv
      exact p3.mem_iff.1 (p2.mem_iff.1 (by simp [hc]))
    obtain ⟨i, hi, hci⟩ := List.getElem_of_mem hct
    have hlt : i + 1 < q.length := by rw [List.length_tail] at hi; omega
    have hf : fr q (i + 2) = c.freq := by
      rw [← hci, List.getElem_tail]
      simp [fr, hlt]
    have := heap_second q hq (i + 2) (by omega) (by omega)
    rw [hb] at hroot
    split at hroot <;> omega

end CpSZ.Huff
