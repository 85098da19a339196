import Verif.Huffman.Heap

/-!
# C105: the Huffman coder frees every block once
-/

namespace CpSZ.Huff

theorem codePtrs_spec (n : Nat) (t : HTree) (p : Nat → Option Nat) (h : Heap)
    (hc : ∀ c ∈ t.syms, c < n) (hnd : t.syms.Nodup) :
    ∃ p' h', codePtrs n t p h = some (p', h') ∧ h'.next = h.next + t.syms.length ∧
      (∀ b, b ∈ h'.live ↔ b ∈ h.live ∨ (h.next ≤ b ∧ b < h'.next)) ∧
      ∀ c, p' c = if c ∈ t.syms then some (h.next + t.syms.idxOf c) else p c := by
  induction t generalizing p h with
  | leaf f c =>
    refine ⟨_, _, if_pos (hc c (by simp [HTree.syms])), rfl, fun b => ?_, fun d => ?_⟩
    · simp only [Heap.malloc, Finset.mem_insert]
      constructor
      · rintro (h | h)
        · exact .inr ⟨by omega, by omega⟩
        · exact .inl h
      · rintro (h | h)
        · exact .inr h
        · exact .inl (by omega)
    · by_cases hd : d = c
      · subst hd; simp [HTree.syms]
      · simp [HTree.syms, hd]
  | node f l r ihl ihr =>
    rw [HTree.syms] at hnd
    obtain ⟨n1, n2, n3⟩ := List.nodup_append.1 hnd
    obtain ⟨p1, h1, a1, a2, a3, a4⟩ := ihl p h (fun c h => hc c (by simp [HTree.syms, h])) n1
    obtain ⟨p2, h2, b1, b2, b3, b4⟩ := ihr p1 h1 (fun c h => hc c (by simp [HTree.syms, h])) n2
    refine ⟨p2, h2, by simp only [codePtrs, a1, b1], ?_, fun b => ?_, fun c => ?_⟩
    · rw [b2, a2, HTree.syms, List.length_append]; omega
    · rw [b3, a3]
      constructor
      · rintro ((h | h) | h)
        · exact .inl h
        · exact .inr ⟨h.1, by omega⟩
        · exact .inr ⟨by omega, h.2⟩
      · rintro (h | h)
        · exact .inl (.inl h)
        · by_cases hb : b < h1.next
          · exact .inl (.inr ⟨h.1, hb⟩)
          · exact .inr ⟨by omega, h.2⟩
    · rw [b4, a4, HTree.syms]
      by_cases hl : c ∈ l.syms
      · have hr : c ∉ r.syms := fun h => n3 c hl c h rfl
        rw [if_neg hr, if_pos hl, if_pos (by simp [hl]), List.idxOf_append_of_mem hl]
      · by_cases hr : c ∈ r.syms
        · rw [if_pos hr, if_pos (by simp [hr]), List.idxOf_append_of_notMem hl, a2]
          congr 1; omega
        · rw [if_neg hr, if_neg hl, if_neg (by simp [hl, hr])]

theorem codePtrs_none (n : Nat) (t : HTree) (p : Nat → Option Nat) (h : Heap) {c : Nat}
    (hc : c ∈ t.syms) (hn : n ≤ c) : codePtrs n t p h = none := by
  induction t generalizing p h with
  | leaf f d =>
    simp only [HTree.syms, List.mem_singleton] at hc
    exact if_neg (by omega)
  | node f l r ihl ihr =>
    rw [HTree.syms, List.mem_append] at hc
    rw [codePtrs]
    rcases hc with hc | hc
    · rw [ihl _ _ hc]
    · cases codePtrs n l p h with
      | none => rfl
      | some x => exact ihr _ _ hc

theorem freeCodes_spec (p : Nat → Option Nat)
    (inj : ∀ i j b, p i = some b → p j = some b → i = j) (l : List Nat) (hl : l.Nodup) (h : Heap)
    (hin : ∀ i ∈ l, ∀ b, p i = some b → b ∈ h.live) :
    ∃ h', freeCodes p l h = some h' ∧ h'.next = h.next ∧
      ∀ x, x ∈ h'.live ↔ x ∈ h.live ∧ ∀ i ∈ l, p i ≠ some x := by
  induction l generalizing h with
  | nil => exact ⟨h, rfl, rfl, by simp⟩
  | cons i is ih =>
    obtain ⟨hi, hn⟩ := List.nodup_cons.1 hl
    cases hp : p i with
    | none =>
      obtain ⟨h', a1, a2, a3⟩ := ih hn h fun j hj => hin j (by simp [hj])
      refine ⟨h', by simp only [freeCodes, hp, a1], a2, fun x => ?_⟩
      rw [a3]; simp [hp]
    | some b =>
      have hb := hin i (by simp) b hp
      obtain ⟨h', a1, a2, a3⟩ := ih hn { h with live := h.live.erase b } (fun j hj c hc =>
        Finset.mem_erase.2 ⟨fun e => hi (inj i j b hp (e ▸ hc) ▸ hj), hin j (by simp [hj]) c hc⟩)
      refine ⟨h', by simp only [freeCodes, hp, Heap.free, if_pos hb, a1], a2, fun x => ?_⟩
      rw [a3]
      simp only [Finset.mem_erase, List.mem_cons, forall_eq_or_imp, hp, ne_eq, Option.some.injEq]
      constructor
      · rintro ⟨⟨h1, h2⟩, h3⟩; exact ⟨h2, fun e => h1 e.symm, h3⟩
      · rintro ⟨h1, h2, h3⟩; exact ⟨⟨fun e => h2 e.symm, h1⟩, h3⟩

theorem encodeHeap_spec (P : Ptrs) (s : List Nat) (h : Heap)
    (hs : ∀ c ∈ s, ∃ b, P.code c = some b ∧ b ∈ h.live) : encodeHeap P s h = some h := by
  induction s with
  | nil => rfl
  | cons c cs ih =>
    obtain ⟨b, h1, h2⟩ := hs c (by simp)
    simp only [encodeHeap, h1, Heap.use, if_pos h2]
    exact ih fun d hd => hs d (by simp [hd])

theorem free_some {b : Nat} {h : Heap} (hb : b ∈ h.live) :
    h.free b = some { h with live := h.live.erase b } := if_pos hb

theorem arrays_spec (out : Bool) (h : Heap) (ho : h.Ok) :
    ∃ h', arraysHeap out h = some (h.next + 4, h') ∧ h'.next = h.next + (if out then 5 else 4) ∧
      ∀ x, x ∈ h'.live ↔ x ∈ h.live ∨ (out = true ∧ x = h.next + 4) := by
  have ho' : ∀ b, b ∈ h.live → b < h.next := ho
  obtain ⟨n, l⟩ := h
  simp only at ho'
  have e1 : ∀ l' : Finset Nat, (∀ x, x ∈ l' ↔ (x ∈ l ∨ (out = true ∧ x = n + 4)) ∨ x = n ∨
      x = n + 1 ∨ x = n + 2 ∨ x = n + 3) →
      n ∈ l' ∧ n + 1 ∈ l'.erase n ∧ n + 2 ∈ (l'.erase n).erase (n + 1) ∧
      n + 3 ∈ ((l'.erase n).erase (n + 1)).erase (n + 2) ∧
      ∀ x, x ∈ (((l'.erase n).erase (n + 1)).erase (n + 2)).erase (n + 3) ↔
        x ∈ l ∨ (out = true ∧ x = n + 4) := by
    intro l' hl
    simp only [Finset.mem_erase, hl]
    refine ⟨by simp, by simp, by simp, by simp, fun x => ?_⟩
    have := ho' x
    constructor
    · rintro ⟨q1, q2, q3, q4, q5 | q5⟩
      · exact q5
      · omega
    · intro q
      refine ⟨?_, ?_, ?_, ?_, .inl q⟩ <;> rcases q with q | q <;> first | omega | (have := this q; omega)
  cases out
  · obtain ⟨f1, f2, f3, f4, f5⟩ := e1 (insert (n + 3) (insert (n + 2) (insert (n + 1) (insert n l))))
      (fun x => by simp only [Finset.mem_insert]; tauto)
    refine ⟨⟨n + 4, ((((insert (n + 3) (insert (n + 2) (insert (n + 1) (insert n l))) : Finset Nat).erase n).erase (n + 1)).erase
      (n + 2)).erase (n + 3)⟩, ?_, rfl, f5⟩
    · simp only [arraysHeap, Heap.malloc, Heap.free, Bool.false_eq_true, if_false, if_pos f1, if_pos f2,
        if_pos f3, if_pos f4]
  · obtain ⟨f1, f2, f3, f4, f5⟩ := e1
      (insert (n + 4) (insert (n + 3) (insert (n + 2) (insert (n + 1) (insert n l)))))
      (fun x => by simp only [Finset.mem_insert]; tauto)
    refine ⟨⟨n + 5, ((((insert (n + 4) (insert (n + 3) (insert (n + 2) (insert (n + 1) (insert n l)))) : Finset Nat).erase n).erase (n + 1)).erase
      (n + 2)).erase (n + 3)⟩, ?_, rfl, f5⟩
    · simp only [arraysHeap, Heap.malloc, Heap.free, if_true, if_pos f1, if_pos f2, if_pos f3,
        if_pos f4]

theorem release_spec (n : Nat) (P : Ptrs) (h : Heap)
    (inj : ∀ i j b, P.code i = some b → P.code j = some b → i = j)
    (hin : ∀ i b, P.code i = some b → i < n ∧ b ∈ h.live)
    (hd : [P.self, P.pool, P.qqq, P.codeB, P.cout].Nodup)
    (hl : ∀ b ∈ [P.self, P.pool, P.qqq, P.codeB, P.cout], b ∈ h.live ∧ ∀ i, P.code i ≠ some b) :
    ∃ h', release n P h = some h' ∧ h'.next = h.next ∧
      ∀ x, x ∈ h'.live ↔ x ∈ h.live ∧ x ∉ [P.self, P.pool, P.qqq, P.codeB, P.cout] ∧
        ∀ i, P.code i ≠ some x := by
  obtain ⟨self, pool, qqq, codeB, cout, code⟩ := P
  simp only [List.nodup_cons, List.mem_cons, List.not_mem_nil, or_false, not_or, forall_eq_or_imp,
    forall_eq, List.nodup_nil, not_false_eq_true, and_true] at hd hl ⊢
  obtain ⟨l1, l2, l3, l4, l5⟩ := hl
  have e1 : pool ∈ h.live := l2.1
  have e2 : qqq ∈ h.live.erase pool := by rw [Finset.mem_erase]; exact ⟨by tauto, l3.1⟩
  have e3 : codeB ∈ (h.live.erase pool).erase qqq := by
    simp only [Finset.mem_erase]; refine ⟨?_, ?_, l4.1⟩ <;> intro e <;> subst e <;> tauto
  obtain ⟨h1, a1, a2, a3⟩ := freeCodes_spec code inj (List.range n) List.nodup_range
    ⟨h.next, (h.live.erase pool).erase qqq⟩ (fun i _ b hb => by
      simp only [Finset.mem_erase]
      exact ⟨fun e => l3.2 i (e ▸ hb), fun e => l2.2 i (e ▸ hb), (hin i b hb).2⟩)
  have a3' : ∀ x, x ∈ h1.live ↔ (x ≠ qqq ∧ x ≠ pool ∧ x ∈ h.live) ∧ ∀ i, code i ≠ some x := by
    intro x
    rw [a3]
    simp only [Finset.mem_erase, List.mem_range]
    refine and_congr_right fun _ => ⟨fun hx i e => hx i (hin i x e).1 e, fun hx i _ => hx i⟩
  have f1 : codeB ∈ h1.live := (a3' _).2 ⟨⟨by grind, by grind, l4.1⟩, l4.2⟩
  have f2 : cout ∈ h1.live.erase codeB :=
    Finset.mem_erase.2 ⟨by grind, (a3' _).2 ⟨⟨by grind, by grind, l5.1⟩, l5.2⟩⟩
  have f3 : self ∈ (h1.live.erase codeB).erase cout :=
    Finset.mem_erase.2 ⟨by grind, Finset.mem_erase.2
      ⟨by grind, (a3' _).2 ⟨⟨by grind, by grind, l1.1⟩, l1.2⟩⟩⟩
  refine ⟨⟨h1.next, ((h1.live.erase codeB).erase cout).erase self⟩, ?_, ?_, ?_⟩
  · simp only [release, Heap.free, Heap.use, if_pos e1, if_pos e2, if_pos e3, a1, if_pos f1,
      if_pos f2, if_pos f3]
  · exact a2
  · intro x
    simp only [Finset.mem_erase, a3']
    tauto

theorem mem_create (h : Heap) (x : Nat) :
    x ∈ (create h).2.live ↔ x ∈ h.live ∨ (h.next ≤ x ∧ x < h.next + 5) := by
  simp only [create, Heap.malloc, Finset.mem_insert]
  constructor
  · rintro (h | h | h | h | h | h)
    all_goals first | exact .inl h | (right; omega)
  · rintro (h | h)
    · simp [h]
    · omega

/-- **C105**, compression.  Let `s` be a non-empty array of symbols below `state_num`.
`Huffman_encode_tree_and_data` uses and frees only blocks that are allocated, and afterwards exactly the
blocks are allocated that were before: nothing is freed twice, nothing of the caller's is freed, and
nothing leaks.  It allocates eleven blocks and one for each symbol that occurs. -/
theorem C105_encode (swap : Nat → Bool) (n : Nat) (s : List Nat) (hs : s ≠ [])
    (hb : ∀ x ∈ s, x < n) (h : Heap) (ho : h.Ok) :
    huffEncodeHeap swap n s h = some ⟨h.next + 11 + s.dedup.length, h.live⟩ := by
  obtain ⟨t, t1, t2, t3⟩ := buildTree_spec swap n s hs fun x hx => by have := hb x hx; omega
  have ho' : ∀ b, b ∈ h.live → b < h.next := ho
  have hlen : t.syms.length = s.dedup.length :=
    ((List.perm_ext_iff_of_nodup t2 s.nodup_dedup).2 fun c => by rw [t3, List.mem_dedup]).length_eq
  obtain ⟨p, h1, a1, a2, a3, a4⟩ := codePtrs_spec n t (fun _ => none) (create h).2.malloc
    (fun c hc => hb c ((t3 c).1 hc)) t2
  have cn : (create h).2.malloc.next = h.next + 6 := rfl
  rw [cn] at a2 a3 a4
  have live0 : ∀ x, x ∈ (create h).2.malloc.live ↔ x ∈ h.live ∨ (h.next ≤ x ∧ x < h.next + 6) := by
    intro x
    have : x ∈ (create h).2.malloc.live ↔ x = h.next + 5 ∨ x ∈ (create h).2.live :=
      Finset.mem_insert
    rw [this, mem_create]
    constructor
    · rintro (q | q | q)
      · right; omega
      · exact .inl q
      · right; omega
    · rintro (q | q)
      · exact .inr (.inl q)
      · by_cases x = h.next + 5
        · simp [*]
        · right; right; omega
  have live1 : ∀ x, x ∈ h1.live ↔ x ∈ h.live ∨ (h.next ≤ x ∧ x < h1.next) := by
    intro x; rw [a3, live0]
    constructor
    · rintro ((q | q) | q)
      · exact .inl q
      · right; omega
      · right; omega
    · rintro (q | q)
      · exact .inl (.inl q)
      · by_cases x < h.next + 6
        · left; right; omega
        · right; omega
  have pc : ∀ c b, p c = some b → c ∈ t.syms ∧ b = h.next + 6 + t.syms.idxOf c := by
    intro c b e
    rw [a4] at e
    by_cases hc : c ∈ t.syms
    · rw [if_pos hc] at e
      exact ⟨hc, (Option.some.inj e).symm⟩
    · rw [if_neg hc] at e; cases e
  have pb : ∀ c b, p c = some b → h.next + 6 ≤ b ∧ b < h1.next := by
    intro c b e
    obtain ⟨q1, q2⟩ := pc c b e
    have := List.idxOf_lt_length_of_mem q1
    omega
  have inj : ∀ i j b, p i = some b → p j = some b → i = j := by
    intro i j b ei ej
    obtain ⟨q1, q2⟩ := pc i b ei
    obtain ⟨q3, q4⟩ := pc j b ej
    exact (List.idxOf_inj q1).1 (by omega)
  have surj : ∀ b, h.next + 6 ≤ b → b < h1.next → ∃ c, p c = some b := by
    intro b b1 b2
    have hi : b - (h.next + 6) < t.syms.length := by omega
    refine ⟨t.syms[b - (h.next + 6)], ?_⟩
    rw [a4, if_pos (List.getElem_mem hi), List.Nodup.idxOf_getElem t2]
    congr 1; omega
  have ff : h.next + 5 ∈ h1.live := (live1 _).2 (.inr ⟨by omega, by omega⟩)
  set h2 : Heap := { h1 with live := h1.live.erase (h.next + 5) } with hh2
  have live2 : ∀ x, x ∈ h2.live ↔ x ≠ h.next + 5 ∧ (x ∈ h.live ∨ (h.next ≤ x ∧ x < h1.next)) := by
    intro x; rw [hh2, Finset.mem_erase, live1]
  have ok2 : h2.Ok := fun b hb => by
    rcases ((live2 b).1 hb).2 with q | q
    · have := ho' b q; change b < h1.next; omega
    · exact q.2
  set P : Ptrs := { (create h).1 with code := p } with hP
  have i1 : initHeap swap n s (create h).1 (create h).2 = some (P, h2) := by
    have e : (create h).2.next = h.next + 5 := rfl
    have e' : (create h).1.code = fun _ => none := rfl
    simp only [initHeap, t1, e, e', a1, free_some ff]
    rfl
  obtain ⟨h3, c1, c2, c3⟩ := arrays_spec true h2 ok2
  have n2 : h2.next = h1.next := rfl
  have e1 : encodeHeap P s h3 = some h3 := by
    refine encodeHeap_spec P s h3 fun c hc => ?_
    have hm := (t3 c).2 hc
    have hp : p c = some (h.next + 6 + t.syms.idxOf c) := by rw [a4, if_pos hm]
    refine ⟨_, hp, (c3 _).2 (.inl ((live2 _).2 ⟨by omega, .inr ?_⟩))⟩
    have := pb c _ hp
    exact ⟨by omega, this.2⟩
  have f1 : h2.next + 4 ∈ h3.live := (c3 _).2 (.inr ⟨rfl, rfl⟩)
  set h4 : Heap := { h3 with live := h3.live.erase (h2.next + 4) } with hh4
  have live4 : ∀ x, x ∈ h4.live ↔ x ∈ h2.live := by
    intro x
    rw [hh4, Finset.mem_erase, c3]
    constructor
    · rintro ⟨q1, q2 | q2⟩
      · exact q2
      · exact absurd q2.2 q1
    · intro q
      exact ⟨fun e => by have := ok2 x q; omega, .inl q⟩
  have base : ∀ b ∈ [P.self, P.pool, P.qqq, P.codeB, P.cout], h.next ≤ b ∧ b < h.next + 5 := by
    intro b hb
    simp only [hP, create, List.mem_cons, List.not_mem_nil, or_false] at hb
    omega
  obtain ⟨h5, d1, d2, d3⟩ := release_spec n P h4 inj
    (fun i b e => by
      refine ⟨hb i ((t3 i).1 (pc i b e).1), (live4 b).2 ((live2 b).2 ?_)⟩
      have := pb i b e
      exact ⟨by omega, .inr ⟨by omega, this.2⟩⟩)
    (by simp [hP, create])
    (fun b hb => by
      have := base b hb
      refine ⟨(live4 b).2 ((live2 b).2 ⟨by omega, .inr ⟨by omega, by omega⟩⟩), fun i e => ?_⟩
      have := pb i b e
      omega)
  have run : huffEncodeHeap swap n s h = some h5 := by
    simp only [huffEncodeHeap, i1, c1, e1, free_some f1]
    exact d1
  rw [run]
  congr 1
  have l5 : h5.live = h.live := by
    ext x
    rw [d3, live4, live2]
    constructor
    · rintro ⟨⟨q1, q2 | q2⟩, q3, q4⟩
      · exact q2
      · exfalso
        by_cases hx : x < h.next + 5
        · refine q3 ?_
          simp only [hP, create, List.mem_cons, List.not_mem_nil, or_false]
          omega
        · obtain ⟨c, hc⟩ := surj x (by omega) q2.2
          exact q4 c hc
    · intro q
      have := ho' x q
      exact ⟨⟨by omega, .inl q⟩, fun m => by have := base x m; omega,
        fun i e => by have := pb i x e; omega⟩
  have n5 : h5.next = h.next + 11 + s.dedup.length := by
    rw [d2]; change h3.next = _; rw [c2, n2, a2, hlen]; simp only [if_true]; omega
  obtain ⟨x, y⟩ := h5
  simp only at l5 n5
  rw [l5, n5]

/-- A symbol that is not below `state_num`: an entry beyond the end of `code` is written (or, from
`2*state_num` on, of `freq`). -/
theorem C105_outside (swap : Nat → Bool) (n : Nat) (s : List Nat) (h : Heap) {c : Nat} (hc : c ∈ s)
    (hn : n ≤ c) : huffEncodeHeap swap n s h = none := by
  have i1 : initHeap swap n s (create h).1 (create h).2 = none := by
    by_cases hb : ∀ x ∈ s, x < 2 * n
    · obtain ⟨t, t1, -, t3⟩ := buildTree_spec swap n s (List.ne_nil_of_mem hc) hb
      simp only [initHeap, t1, codePtrs_none n t _ _ ((t3 c).2 hc) hn]
    · have : buildTree swap n s = none := by
        rw [buildTree, if_neg]
        simpa using hb
      simp only [initHeap, this]
  simp only [huffEncodeHeap, i1]

/-- The blocks of the codes are those of the entries of the table that is built (`buildCode`). -/
theorem C105_codes (n : Nat) (ub : BitVec 64) (t : HTree) (h : Heap)
    (hc : ∀ c ∈ t.syms, c < n) (hnd : t.syms.Nodup) :
    ∃ tab p h', buildCode n ub t 0 0#64 0#64 (fun _ => none) = some tab ∧
      codePtrs n t (fun _ => none) h = some (p, h') ∧ ∀ c, (tab c).isSome ↔ (p c).isSome := by
  obtain ⟨tab, a1, a2⟩ := buildCode_dom n ub t 0 0#64 0#64 (fun _ => none) hc
  obtain ⟨p, h', b1, -, -, b4⟩ := codePtrs_spec n t (fun _ => none) h hc hnd
  refine ⟨tab, p, h', a1, b1, fun c => ?_⟩
  rw [a2, b4]
  by_cases hm : c ∈ t.syms <;> simp [hm]

/-- **C105**, decompression: all blocks but the array that is returned are freed, each once, and
nothing of the caller's. -/
theorem C105_decode (n : Nat) (h : Heap) (ho : h.Ok) :
    ∃ out h', huffDecodeHeap n h = some (out, h') ∧ out ∉ h.live ∧ h'.live = insert out h.live ∧
      h'.Ok ∧ h'.next = h.next + 10 := by
  have ho' : ∀ b, b ∈ h.live → b < h.next := ho
  have okc : (create h).2.Ok := fun b hb => by
    rcases (mem_create h b).1 hb with q | q
    · have := ho' b q; change b < h.next + 5; omega
    · exact q.2
  obtain ⟨h1, a1, a2, a3⟩ := arrays_spec false (create h).2 okc
  have cn : (create h).2.next = h.next + 5 := rfl
  have n1 : h1.next = h.next + 9 := by rw [a2, cn]; simp
  have live1 : ∀ x, x ∈ h1.malloc.live ↔
      x = h.next + 9 ∨ x ∈ h.live ∨ (h.next ≤ x ∧ x < h.next + 5) := by
    intro x
    have : x ∈ h1.malloc.live ↔ x = h1.next ∨ x ∈ h1.live := Finset.mem_insert
    rw [this, a3, mem_create, n1]
    simp
  have base : ∀ b ∈ [(create h).1.self, (create h).1.pool, (create h).1.qqq, (create h).1.codeB,
      (create h).1.cout], h.next ≤ b ∧ b < h.next + 5 := by
    intro b hb
    simp only [create, List.mem_cons, List.not_mem_nil, or_false] at hb
    omega
  obtain ⟨h2, d1, d2, d3⟩ := release_spec n (create h).1 h1.malloc
    (fun i j b e => by cases e) (fun i b e => by cases e) (by simp [create])
    (fun b hb => ⟨(live1 b).2 (.inr (.inr (base b hb))), fun i e => by cases e⟩)
  refine ⟨h1.next, h2, by simp only [huffDecodeHeap, a1, d1], fun e => ?_, ?_, fun b hb => ?_, ?_⟩
  · have := ho' _ e; omega
  · ext x
    rw [d3, live1, Finset.mem_insert, n1]
    constructor
    · rintro ⟨q | q | q, q2, -⟩
      · exact .inl q
      · exact .inr q
      · exfalso; refine q2 ?_
        simp only [create, List.mem_cons, List.not_mem_nil, or_false]
        omega
    · rintro (q | q)
      · exact ⟨.inl q, fun m => by have := base x m; omega, fun i e => by cases e⟩
      · have := ho' x q
        exact ⟨.inr (.inl q), fun m => by have := base x m; omega, fun i e => by cases e⟩
  · rw [d2]
    change b < h1.next + 1
    rcases (live1 b).1 ((d3 b).1 hb).1 with q | q | q
    · omega
    · have := ho' b q; omega
    · omega
  · rw [d2]; change h1.next + 1 = _; omega

/-- Three symbols, one block of the caller's. -/
example : huffEncodeHeap (fun _ => false) 4 [1, 3, 1, 0] ⟨1, {0}⟩ = some ⟨15, {0}⟩ :=
  C105_encode _ 4 [1, 3, 1, 0] (by simp) (by simp) ⟨1, {0}⟩ (by simp [Heap.Ok])

example : ∃ out h', huffDecodeHeap 4 ⟨1, {0}⟩ = some (out, h') ∧ out ∉ ({0} : Finset Nat) ∧
    h'.live = insert out {0} ∧ h'.Ok ∧ h'.next = 11 :=
  C105_decode 4 ⟨1, {0}⟩ (by simp [Heap.Ok])

/-- The hypothesis of `C105_outside`. -/
example : huffEncodeHeap (fun _ => false) 4 [1, 5] ⟨1, {0}⟩ = none :=
  C105_outside _ 4 [1, 5] _ (c := 5) (by simp) (by simp)

end CpSZ.Huff
