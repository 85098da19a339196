import Verif.Huffman.Optimal
/-
Properties C01, C02, C04, C05, C06, C07 (entropy coder).
-/

namespace CpSZ.Huff

/-- C01.  Decoding the bytes produced for a non-empty array returns the array and leaves
the cursor at the first byte behind it, for every evaluation order (`swap`), every value of
the out-of-range shift (`ub`), every previous buffer content (`mem`), every value of the
uninitialised local (`b0`) and every continuation of the stream (`rest`), as long as no code
word is longer than 64 bits. -/
theorem C01_huffman_roundtrip (swap : Nat → Bool) (ub : BitVec 64) (b0 : Nat) (mem : Mem)
    (stateNum : Nat) (s : List Nat) (hs : s ≠ []) (hb : ∀ x ∈ s, x < stateNum)
    (hst : stateNum ≤ 2 ^ 26) (hlen : s.length < 2 ^ 60)
    (hdepth : ∀ t, buildTree swap stateNum s = some t → t.depth ≤ 64) :
    ∃ bytes, huffEncode swap ub b0 mem stateNum s = some bytes ∧
      ∀ rest, huffDecode stateNum s.length (bytes ++ rest) = some (s, rest) :=
  huffman_roundtrip swap ub b0 mem stateNum s hs hb hst hlen hdepth

/-- C01, unconditional form for arrays with at most 65 different symbols (all possible
symbols are listed in `l`). -/
theorem C01_huffman_roundtrip_few_symbols (swap : Nat → Bool) (ub : BitVec 64) (b0 : Nat)
    (mem : Mem) (stateNum : Nat) (s : List Nat) (l : List Nat) (hs : s ≠ [])
    (hb : ∀ x ∈ s, x < stateNum) (hst : stateNum ≤ 2 ^ 26) (hlen : s.length < 2 ^ 60)
    (hl : l.length ≤ 65) (hsl : ∀ x ∈ s, x ∈ l) :
    ∃ bytes, huffEncode swap ub b0 mem stateNum s = some bytes ∧
      ∀ rest, huffDecode stateNum s.length (bytes ++ rest) = some (s, rest) := by
  apply C01_huffman_roundtrip swap ub b0 mem stateNum s hs hb hst hlen
  intro t ht
  obtain ⟨t', ht', hnd, hmem⟩ := buildTree_spec swap stateNum s hs
    (fun x hx => by have := hb x hx; omega)
  rw [ht] at ht'
  obtain rfl := Option.some.inj ht'
  have hsub : t.syms.length ≤ l.length :=
    nodup_subset_length t.syms l hnd (fun c hc => hsl c ((hmem c).1 hc))
  have := t.depth_lt_syms
  omega

/-- A six element array with four symbols satisfies the hypotheses of C01. -/
example : ∃ bytes, huffEncode (fun _ => false) 7#64 99 (fun _ => 255#8) 4 [3, 1, 3, 2, 0, 3] =
    some bytes ∧ ∀ rest, huffDecode 4 6 (bytes ++ rest) = some ([3, 1, 3, 2, 0, 3], rest) :=
  C01_huffman_roundtrip_few_symbols _ _ _ _ 4 [3, 1, 3, 2, 0, 3] [0, 1, 2, 3] (by decide)
    (by decide) (by decide) (by decide) (by decide) (by decide)

/-- C02.  The table has a code for exactly the occurring symbols; no code is a prefix of the
code of another symbol; the Kraft sum `∑ 2^-len` is one (scaled by `2^64`). -/
theorem C02_prefix_code (swap : Nat → Bool) (ub : BitVec 64) (stateNum : Nat) (s : List Nat)
    (hs : s ≠ []) (hb : ∀ x ∈ s, x < stateNum)
    (hdepth : ∀ t, buildTree swap stateNum s = some t → t.depth ≤ 64) :
    ∃ t tab, initHuff swap stateNum ub s = some (t, tab) ∧
      (∀ c, (tab c).isSome ↔ c ∈ s) ∧
      (∀ c d cd dd, tab c = some cd → tab d = some dd → cd.bits <+: dd.bits → c = d) ∧
      ((List.range stateNum).map fun c =>
        match tab c with
        | some cd => 2 ^ (64 - cd.bits.length)
        | none => 0).sum = 2 ^ 64 := by
  obtain ⟨t, ht, hnd, hmem⟩ := buildTree_spec swap stateNum s hs
    (fun x hx => by have := hb x hx; omega)
  have hd := hdepth t ht
  have hcs : ∀ c ∈ t.syms, c < stateNum := fun c h => hb c ((hmem c).1 h)
  obtain ⟨tab, h1, h2, h3⟩ := buildCode_table stateNum ub t hcs hnd hd
  have hpath : ∀ c cd, tab c = some cd → (c, cd.bits) ∈ t.paths := by
    intro c cd hc
    have hmc : c ∈ t.syms := (h2 c).1 (by simp [hc])
    have hp := mem_paths_bitsOf t c hmc
    obtain ⟨cd', e1, e2⟩ := h3 _ hp
    simp only at e1 e2
    rw [hc] at e1
    obtain rfl := Option.some.inj e1
    rw [e2]; exact hp
  refine ⟨t, tab, by simp only [initHuff, ht, h1], fun c => (h2 c).trans (hmem c), ?_, ?_⟩
  · intro c d cd dd hc hdd hpre
    exact paths_prefix t _ _ (hpath c cd hc) (hpath d dd hdd) hnd hpre
  · rw [sum_range_support _ stateNum t.syms hnd hcs]
    · rw [← paths_kraft t 64 hd, ← HTree.paths_syms, List.map_map]
      congr 1
      apply List.map_congr_left
      intro p hp
      obtain ⟨cd, e1, e2⟩ := h3 p hp
      simp only [Function.comp_apply, e1, e2]
    · intro c hc
      have : tab c = none := by
        have := mt (h2 c).1 hc
        simpa using this
      simp [this]

example : ∃ t tab, initHuff (fun _ => true) 8 0#64 [5, 5, 1, 7] = some (t, tab) ∧
    ∀ c, (tab c).isSome ↔ c ∈ [5, 5, 1, 7] := by
  obtain ⟨t, tab, h1, h2, _⟩ := C02_prefix_code (fun _ => true) 0#64 8 [5, 5, 1, 7] (by decide)
    (by decide) (by
      intro t ht
      have : buildTree (fun _ => true) 8 [5, 5, 1, 7] =
          some (.node 4 (.node 3 (.leaf 2 5) (.leaf 1 1)) (.leaf 1 7)) := by decide
      rw [this] at ht
      obtain rfl := Option.some.inj ht
      decide)
  exact ⟨t, tab, h1, h2⟩

/-- C04, proved part.  If in the run of the merge loop no entry left in the queue is less
frequent than one of the two entries just joined (`leastMerges`, a computable condition on the
array), then the code is optimal: for every prefix code `other` of the occurring symbols the
number of payload bits is at most the number `other` needs.  Missing: `qremove` does not
establish this condition, see `C04_not_optimal`. -/
theorem C04_optimal_partial (swap : Nat → Bool) (ub : BitVec 64) (stateNum : Nat) (s : List Nat)
    (hs : s ≠ []) (hb : ∀ x ∈ s, x < stateNum)
    (hdepth : ∀ t, buildTree swap stateNum s = some t → t.depth ≤ 64)
    (hleast : ∀ q, insertLeaves (fun c => s.count c) (List.range (2 * stateNum)) [] = some q →
      leastMerges swap (q.length + 1) q = true) :
    ∃ t tab, initHuff swap stateNum ub s = some (t, tab) ∧
      ∀ other : Nat → List Bool, (∀ c ∈ s, ∀ d ∈ s, other c <+: other d → c = d) →
        (s.map fun c => ((tab c).map fun cd => cd.bits.length).getD 0).sum ≤
          (s.map fun c => (other c).length).sum := by
  have hb2 : ∀ x ∈ s, x < 2 * stateNum := fun x hx => by have := hb x hx; omega
  obtain ⟨t, ht, hnd, hmem⟩ := buildTree_spec swap stateNum s hs hb2
  have hd := hdepth t ht
  have hcs : ∀ c ∈ t.syms, c < stateNum := fun c h => hb c ((hmem c).1 h)
  obtain ⟨tab, h1, h2, h3⟩ := buildCode_table stateNum ub t hcs hnd hd
  refine ⟨t, tab, by simp only [initHuff, ht, h1], ?_⟩
  intro other hpf
  obtain ⟨q, hq, hqs, hql⟩ := insertLeaves_spec s (List.range (2 * stateNum)) []
  have hq0 : 0 < q.length := by
    obtain ⟨x, hx⟩ := List.exists_mem_of_ne_nil s hs
    have : x ∈ (List.range (2 * stateNum)).filter (· ∈ s) := by simp [hx, hb2 x hx]
    have := List.length_pos_of_mem this
    simp only [List.length_nil, Nat.zero_add] at hql
    omega
  obtain ⟨t', ht', hsy⟩ := mergeLoop_spec swap (q.length + 1) q hq0 (by omega)
  have hall : s.all (· < 2 * stateNum) = true := by
    simp only [List.all_eq_true, decide_eq_true_eq]; exact hb2
  have htt : t' = t := by
    simp only [buildTree, hall, if_true, treeOfFreq, hq, ht', List.head?_cons,
      Option.some.injEq] at ht
    exact ht
  subst htt
  have hleaf := insertLeaves_leaves _ _ _ _ hq (by simp)
  have hw : t'.Weighted fun c => s.count c :=
    mergeLoop_weighted _ swap _ q [t'] ht' (by
      intro x hx
      obtain ⟨c, rfl⟩ := hleaf x hx
      rfl) t' (by simp)
  have hcost := weighted_cost _ t' hw
  -- the payload of the program
  have hpay : (s.map fun c => ((tab c).map fun cd => cd.bits.length).getD 0).sum = t'.inner := by
    rw [sum_count _ s t'.syms hnd (fun x hx => (hmem x).2 hx), ← hcost, ← HTree.paths_syms,
      List.map_map]
    congr 1
    apply List.map_congr_left
    intro p hp
    obtain ⟨cd, e1, e2⟩ := h3 p hp
    simp only [Function.comp_apply, e1, Option.map_some, Option.getD_some, e2]
  -- the lengths of the competing code
  rw [hpay, sum_count _ s t'.syms hnd (fun x hx => (hmem x).2 hx)]
  have hfreq : ((t'.syms.map fun c => (s.count c, (other c).length)).map Prod.fst).Perm
      (q.map HTree.freq) := by
    rw [List.map_map]
    have e : q.map HTree.freq = (qsyms q).map fun c => s.count c := by
      clear hqs hql hq0 ht' hsy hq
      induction q with
      | nil => rfl
      | cons x q ih =>
        obtain ⟨c, rfl⟩ := hleaf x (by simp)
        have := ih (fun y hy => hleaf y (by simp [hy]))
        simp only [qsyms] at this
        simp [qsyms, HTree.syms, HTree.freq, this]
    rw [e]
    exact hsy.map _
  obtain ⟨D, hDm⟩ : ∃ D, ∀ c ∈ t'.syms, (other c).length ≤ D := by
    refine ⟨(t'.syms.map fun c => (other c).length).sum, ?_⟩
    intro c hc
    exact mem_le_sum _ _ (List.mem_map.2 ⟨c, hc, rfl⟩)
  have hkr := kraft_prefix D (t'.syms.map other)
    (by
      intro w hw
      obtain ⟨c, hc, rfl⟩ := List.mem_map.1 hw
      exact hDm c hc)
    (by
      rw [List.pairwise_map]
      refine hnd.imp_of_mem ?_
      intro a b ha hb hab
      exact ⟨fun h => hab (hpf a ((hmem a).1 ha) b ((hmem b).1 hb) h),
        fun h => hab (hpf b ((hmem b).1 hb) a ((hmem a).1 ha) h).symm⟩)
  have := mergeLoop_optimal swap D _ q t' (hleast q hq) ht'
    (t'.syms.map fun c => (s.count c, (other c).length)) hfreq
    (by
      intro p hp
      obtain ⟨c, hc, rfl⟩ := List.mem_map.1 hp
      exact hDm c hc)
    (by simpa [kraft, List.map_map, Function.comp_def] using hkr)
  have hin : (q.map HTree.inner).sum = 0 := by
    clear this hfreq hqs hql hq0 ht' hsy hq
    induction q with
    | nil => rfl
    | cons x q ih =>
      obtain ⟨c, rfl⟩ := hleaf x (by simp)
      have := ih (fun y hy => hleaf y (by simp [hy]))
      simp [HTree.inner, this]
  simpa [hin, cost, List.map_map, Function.comp_def] using this

/-- C04, where the queue works: with four or more different symbols the two leaves joined
first are the least frequent symbols (`a` at most as frequent as `b`, `b` at most as frequent
as every leaf left). -/
theorem C04_first_merge (stateNum : Nat) (s : List Nat) (q : Queue)
    (hq : insertLeaves (fun c => s.count c) (List.range (2 * stateNum)) [] = some q)
    (h4 : 4 ≤ q.length) :
    ∃ a q1 b q2, qremove q = some (a, q1) ∧ qremove q1 = some (b, q2) ∧
      a.freq ≤ b.freq ∧ ∀ c ∈ q2, b.freq ≤ c.freq :=
  heap_first_two q (insertLeaves_heap _ _ _ _ hq (by intro k _ hk; simp at hk; omega)) h4

/-- An array of eleven elements with five symbols meets the hypotheses of C04. -/
example : ∃ t tab, initHuff (fun _ => false) 8 0#64
      [0, 1, 2, 2, 3, 3, 3, 4, 4, 4, 4] = some (t, tab) ∧
      ∀ other : Nat → List Bool, (∀ c ∈ [0, 1, 2, 2, 3, 3, 3, 4, 4, 4, 4],
          ∀ d ∈ [0, 1, 2, 2, 3, 3, 3, 4, 4, 4, 4],
          other c <+: other d → c = d) →
        ([0, 1, 2, 2, 3, 3, 3, 4, 4, 4, 4].map fun c =>
          ((tab c).map fun cd => cd.bits.length).getD 0).sum ≤
          ([0, 1, 2, 2, 3, 3, 3, 4, 4, 4, 4].map fun c =>
            (other c).length).sum :=
  C04_optimal_partial _ _ 8 _ (by decide) (by decide)
    (by
      intro t ht
      obtain ⟨t', h1, h2, h3⟩ := buildTree_spec (fun _ => false) 8
        [0, 1, 2, 2, 3, 3, 3, 4, 4, 4, 4] (by decide) (by decide)
      rw [h1] at ht
      obtain rfl := Option.some.inj ht
      have hsub := nodup_subset_length t'.syms [0, 1, 2, 3, 4] h2
        (fun c hc => by have := (h3 c).1 hc; revert this; simp)
      have := t'.depth_lt_syms
      simp only [List.length_cons, List.length_nil] at hsub
      omega)
    (by
      intro q hq
      have e : insertLeaves (fun c => List.count c
          [0, 1, 2, 2, 3, 3, 3, 4, 4, 4, 4]) (List.range (2 * 8)) [] =
          some [.leaf 1 0, .leaf 1 1, .leaf 2 2, .leaf 3 3, .leaf 4 4] := by decide
      rw [e] at hq
      obtain rfl := Option.some.inj hq
      decide)

example : ∃ a q1 b q2, qremove [.leaf 1 0, .leaf 1 1, .leaf 2 2, .leaf 3 3, .leaf 4 4] =
      some (a, q1) ∧ qremove q1 = some (b, q2) ∧ a.freq ≤ b.freq ∧ ∀ c ∈ q2, b.freq ≤ c.freq :=
  C04_first_merge 8 [0, 1, 2, 2, 3, 3, 3, 4, 4, 4, 4] _ (by decide) (by decide)

/-- C04 is false: for the array `5,5,1,7` and every evaluation order, the code built by the
program needs 7 bits while another prefix code (`5 ↦ 0`, `1 ↦ 10`, `7 ↦ 11`) needs 6.  The
cause is `qremove`, which never compares the entry it moves into the hole. -/
theorem C04_not_optimal (swap : Nat → Bool) (ub : BitVec 64) :
    ∃ (s : List Nat) (t : HTree) (tab : CodeTab) (other : Nat → List Bool),
      initHuff swap 8 ub s = some (t, tab) ∧
      (∀ c ∈ s, ∀ d ∈ s, other c <+: other d → c = d) ∧
      (s.map fun c => (other c).length).sum <
        (s.map fun c => ((tab c).map fun cd => cd.bits.length).getD 0).sum := by
  have hb : ∃ b1 b2 : Bool, buildTree swap 8 [5, 5, 1, 7] =
      buildTree (fun k => if k = 3 then b1 else b2) 8 [5, 5, 1, 7] := by
    refine ⟨swap 3, swap 2, ?_⟩
    have : ∀ b1 b2 : Bool, swap 3 = b1 → swap 2 = b2 → buildTree swap 8 [5, 5, 1, 7] =
      buildTree (fun k => if k = 3 then b1 else b2) 8 [5, 5, 1, 7] := by
      rintro b1 b2 rfl rfl
      have hq : insertLeaves (fun c => List.count c [5, 5, 1, 7]) (List.range (2 * 8)) [] =
          some [.leaf 1 1, .leaf 2 5, .leaf 1 7] := by decide
      have hall : ([5, 5, 1, 7].all (· < 2 * 8)) = true := by decide
      simp only [buildTree, hall, if_true, treeOfFreq, hq]
      cases h3 : swap 3 <;> cases h2 : swap 2 <;>
        simp [mergeLoop, qremove, siftDown, qinsert, siftUp, h3, h2, newNode, HTree.freq]
    exact this _ _ rfl rfl
  obtain ⟨b1, b2, hb⟩ := hb
  refine ⟨[5, 5, 1, 7], ?_⟩
  let other : Nat → List Bool := fun c => if c = 5 then [false] else if c = 1 then [true, false]
    else [true, true]
  have hpf : ∀ c ∈ [5, 5, 1, 7], ∀ d ∈ [5, 5, 1, 7], other c <+: other d → c = d := by decide
  have hcost : ([5, 5, 1, 7].map fun c => (other c).length).sum = 6 := by decide
  cases b1 <;> cases b2
  all_goals
    obtain ⟨t, ht⟩ : ∃ t, buildTree swap 8 [5, 5, 1, 7] = some t := by
      rw [hb]; exact ⟨_, rfl⟩
    have ht' := hb.symm.trans ht
    have hmain : ∃ tab, buildCode 8 ub t 0 0#64 0#64 (fun _ => none) = some tab ∧
        ([5, 5, 1, 7].map fun c => ((tab c).map fun cd => cd.bits.length).getD 0).sum = 7 := by
      have e := ht'
      simp only [buildTree] at e
      obtain rfl := Option.some.inj (e.symm.trans (by rfl))
      exact ⟨_, rfl, by simp [Code.bits]⟩
    obtain ⟨tab, h1, h2⟩ := hmain
    exact ⟨t, tab, other, by simp only [initHuff, ht, h1], hpf, by rw [hcost, h2]; decide⟩

/-- C05.  The reported payload size is the total number of code bits rounded up to bytes and
no byte at or beyond eight bytes past that size is changed. -/
theorem C05_payload_size_and_footprint (swap : Nat → Bool) (ub : BitVec 64) (b0 : Nat)
    (mem : Mem) (stateNum : Nat) (s : List Nat) (hs : s ≠ []) (hb : ∀ x ∈ s, x < stateNum)
    (hdepth : ∀ t, buildTree swap stateNum s = some t → t.depth ≤ 64)
    (htwo : ∃ x ∈ s, ∃ y ∈ s, x ≠ y) :
    ∃ t tab st, initHuff swap stateNum ub s = some (t, tab) ∧ encode tab s mem b0 = some st ∧
      st.outSize = ((s.map fun c => ((tab c).map fun cd => cd.len.toNat).getD 0).sum + 7) / 8 ∧
      ∀ i, st.outSize + 8 ≤ i → st.mem i = mem i := by
  obtain ⟨t, ht, hnd, hmem⟩ := buildTree_spec swap stateNum s hs
    (fun x hx => by have := hb x hx; omega)
  have hd := hdepth t ht
  have hcs : ∀ c ∈ t.syms, c < stateNum := fun c h => hb c ((hmem c).1 h)
  have hd0 : 0 < t.depth := by
    cases t with
    | node f l r => simp [HTree.depth]
    | leaf f c =>
      obtain ⟨x, hx, y, hy, hxy⟩ := htwo
      have h1 := (hmem x).2 hx
      have h2 := (hmem y).2 hy
      simp only [HTree.syms, List.mem_singleton] at h1 h2
      exact absurd (h1.trans h2.symm) hxy
  obtain ⟨tab, st, h1, h2, h3, h4, h5, h6⟩ :=
    encode_run swap ub b0 mem stateNum s t hb ht hnd hmem hd0 hd
  refine ⟨t, tab, st, h1, h2, ?_, h6⟩
  have hsum : (s.map fun c => ((tab c).map fun cd => cd.len.toNat).getD 0).sum =
      (s.flatMap (bitsOf t)).length := by
    rw [List.length_flatMap]
    congr 1
    apply List.map_congr_left
    intro c hc
    obtain ⟨tab', e1, e2, e3⟩ := buildCode_table stateNum ub t hcs hnd hd
    have : initHuff swap stateNum ub s = some (t, tab') := by simp only [initHuff, ht, e1]
    rw [h1] at this
    have : tab = tab' := by simpa using this
    subst this
    obtain ⟨cd, e4, e5⟩ := e3 _ (h5 c hc).1
    simp only at e4 e5
    simp only [e4, Option.map_some, Option.getD_some, ← e5]
    simp [Code.bits]
  rw [hsum, h4.hout]
  unfold ceil8; split <;> omega

/-- C06.  Serialising a tree of `n` nodes and reading it back gives the same tree, for all
three index widths, whatever follows in the stream; `n` is twice the number of leaves minus
one. -/
theorem C06_tree_roundtrip (t : HTree) (pool : Nat) (hsz : t.size < 2 ^ 28)
    (hpool : t.size ≤ pool) (hc : ∀ c ∈ t.syms, c < 2 ^ 32) :
    t.size = 2 * t.syms.length - 1 ∧
    ∃ tb, treeBytes t.toNode t.size = some tb ∧
      tb.length = 1 + 5 * t.size +
        2 * t.size * (if t.size ≤ 256 then 1 else if t.size ≤ 65536 then 2 else 4) ∧
      ∀ rest, readTree pool t.size (tb ++ rest) = some t.toNode := by
  refine ⟨by have := t.size_syms; omega, ?_⟩
  obtain ⟨tb, h1, h2, h3⟩ := readTree_treeBytes t pool hsz hpool hc
  refine ⟨tb, h1, ?_, h3⟩
  rw [h2]
  simp only [treeSize, widthOf]
  rw [Nat.mod_eq_of_lt]
  · split
    · omega
    · split <;> omega
  · split
    · omega
    · split <;> omega

example : ∃ tb, treeBytes (HTree.node 4 (.leaf 2 5) (.node 2 (.leaf 1 7) (.leaf 1 1))).toNode 5 =
    some tb ∧ ∀ rest, readTree 32 5 (tb ++ rest) =
      some (HTree.node 4 (.leaf 2 5) (.node 2 (.leaf 1 7) (.leaf 1 1))).toNode := by
  obtain ⟨_, tb, h1, _, h2⟩ := C06_tree_roundtrip
    (.node 4 (.leaf 2 5) (.node 2 (.leaf 1 7) (.leaf 1 1))) 32 (by decide) (by decide) (by decide)
  exact ⟨tb, h1, h2⟩

/-- C07, negative part: encoding an empty array dereferences a null pointer, whatever the
number of states. -/
theorem C07_empty_input_crashes (swap : Nat → Bool) (ub : BitVec 64) (b0 : Nat) (mem : Mem)
    (stateNum : Nat) : huffEncode swap ub b0 mem stateNum [] = none := by
  have h : ∀ (cs : List Nat), insertLeaves (fun _ => 0) cs [] = some [] := by
    intro cs
    induction cs with
    | nil => rfl
    | cons c cs ih => simpa [insertLeaves] using ih
  simp [huffEncode, initHuff, buildTree, treeOfFreq, h, mergeLoop]

/-- C07, positive part: for a non-empty array of symbols below the number of states the encoder
never reaches undefined memory accesses, whatever the code lengths. -/
theorem C07_nonempty_input_defined_partial (swap : Nat → Bool) (ub : BitVec 64) (b0 : Nat)
    (mem : Mem) (stateNum : Nat) (s : List Nat) (hs : s ≠ []) (hb : ∀ x ∈ s, x < stateNum)
    (hst : stateNum ≤ 2 ^ 26) : (huffEncode swap ub b0 mem stateNum s).isSome := by
  obtain ⟨t, ht, hnd, hmem⟩ := buildTree_spec swap stateNum s hs
    (fun x hx => by have := hb x hx; omega)
  have hcs : ∀ c ∈ t.syms, c < stateNum := fun c h => hb c ((hmem c).1 h)
  have hsyms : t.syms.length ≤ stateNum := nodup_length_le t.syms stateNum hnd hcs
  have hsize := t.size_syms
  obtain ⟨tab, h7, h8⟩ := buildCode_dom stateNum ub t 0 0#64 0#64 (fun _ => none) hcs
  have h8' : ∀ c, (tab c).isSome ↔ c ∈ t.syms := fun c => by simpa using h8 c
  obtain ⟨tb, htb1, _, _⟩ := readTree_treeBytes t (4 * stateNum) (by omega) (by omega)
    (fun c h => by have := hcs c h; omega)
  have hcount : codeCount tab stateNum * 2 - 1 = t.size := by
    rw [codeCount_eq tab stateNum t.syms hnd hcs h8']; omega
  have henc : ∀ (xs : List Nat) (st : WState), (∀ x ∈ xs, x ∈ s) →
      (encodeLoop tab xs st).isSome := by
    intro xs
    induction xs with
    | nil => intro st _; rfl
    | cons x xs ih =>
      intro st hx
      have : (tab x).isSome := (h8' x).2 ((hmem x).2 (hx x (by simp)))
      obtain ⟨cd, hcd⟩ := Option.isSome_iff_exists.1 this
      simp only [encodeLoop, hcd]
      exact ih _ (fun y hy => hx y (by simp [hy]))
  obtain ⟨st, hst⟩ := Option.isSome_iff_exists.1
    (henc s ⟨mem, 0, 0, 0, b0⟩ (fun _ h => h))
  have hst' : encode tab s mem b0 = some st := hst
  simp only [huffEncode, initHuff, ht, h7, hcount, htb1, hst', Option.isSome_some]

example : (huffEncode (fun _ => false) 0#64 0 (fun _ => 0#8) 2048 [0, 0, 17, 17, 3]).isSome :=
  C07_nonempty_input_defined_partial _ _ _ _ 2048 _ (by decide) (by decide) (by decide)

end CpSZ.Huff
