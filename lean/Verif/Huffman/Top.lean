import Verif.Huffman.Serial
/-
End-to-end lemmas for the entropy coder.
-/

namespace CpSZ.Huff

theorem HTree.depth_lt_syms (t : HTree) : t.depth < t.syms.length := by
  induction t with
  | leaf => simp [depth, syms]
  | node f l r ihl ihr => simp [depth, syms]; omega

/-- Domain of the code table, for trees of any depth. -/
theorem buildCode_dom (stateNum : Nat) (ub : BitVec 64) (t : HTree) (len : Nat)
    (o1 o2 : BitVec 64) (tab : CodeTab) (hc : ∀ c ∈ t.syms, c < stateNum) :
    ∃ tab', buildCode stateNum ub t len o1 o2 tab = some tab' ∧
      ∀ c, (tab' c).isSome ↔ (c ∈ t.syms ∨ (tab c).isSome) := by
  induction t generalizing len o1 o2 tab with
  | leaf f c =>
    have hcs : c < stateNum := hc c (by simp [HTree.syms])
    simp only [buildCode, hcs, if_true]
    refine ⟨_, rfl, fun c' => ?_⟩
    by_cases h : c' = c <;> simp [h, HTree.syms]
  | node f l r ihl ihr =>
    have hl : ∀ c ∈ l.syms, c < stateNum := fun c h => hc c (by simp [HTree.syms, h])
    have hr : ∀ c ∈ r.syms, c < stateNum := fun c h => hc c (by simp [HTree.syms, h])
    simp only [buildCode]
    split
    · obtain ⟨t1, h1, h2⟩ := ihl (len + 1) (o1 <<< 1 ||| 0#64) 0#64 tab hl
      obtain ⟨t2, h3, h4⟩ := ihr (len + 1) (o1 <<< 1 ||| 0#64 ||| 1#64) 0#64 t1 hr
      simp only [h1]
      refine ⟨t2, h3, fun c => ?_⟩
      rw [h4, h2]; simp only [HTree.syms, List.mem_append]
      constructor
      · rintro (h | h | h) <;> simp [h]
      · rintro ((h | h) | h) <;> simp [h]
    · obtain ⟨t1, h1, h2⟩ := ihl (len + 1) o1
        ((if len % 64 ≠ 0 then o2 <<< 1 else o2) ||| 0#64) tab hl
      obtain ⟨t2, h3, h4⟩ := ihr (len + 1) o1
        ((if len % 64 ≠ 0 then o2 <<< 1 else o2) ||| 0#64 ||| 1#64) t1 hr
      simp only [h1]
      refine ⟨t2, h3, fun c => ?_⟩
      rw [h4, h2]; simp only [HTree.syms, List.mem_append]
      constructor
      · rintro (h | h | h) <;> simp [h]
      · rintro ((h | h) | h) <;> simp [h]

theorem codeCount_eq (tab : CodeTab) (stateNum : Nat) (l : List Nat) (hnd : l.Nodup)
    (hlt : ∀ c ∈ l, c < stateNum) (hdom : ∀ c, (tab c).isSome ↔ c ∈ l) :
    codeCount tab stateNum = l.length := by
  unfold codeCount
  apply List.Perm.length_eq
  rw [List.perm_ext_iff_of_nodup (List.filter_sublist.nodup List.nodup_range) hnd]
  intro c
  simp only [List.mem_filter, List.mem_range, hdom]
  exact ⟨fun h => h.2, fun h => ⟨hlt c h, h⟩⟩

theorem nodup_length_le (l : List Nat) (n : Nat) (hnd : l.Nodup) (hlt : ∀ c ∈ l, c < n) :
    l.length ≤ n := by
  have hp : ((List.range n).filter (· ∈ l)).Perm l := by
    rw [List.perm_ext_iff_of_nodup (List.filter_sublist.nodup List.nodup_range) hnd]
    intro c
    simp only [List.mem_filter, List.mem_range, decide_eq_true_eq]
    exact ⟨fun h => h.2, fun h => ⟨hlt c h, h⟩⟩
  have h1 := hp.length_eq
  have h2 := List.length_filter_le (· ∈ l) (List.range n)
  rw [List.length_range] at h2
  omega

theorem nodup_subset_length (l l' : List Nat) (hnd : l.Nodup) (h : ∀ c ∈ l, c ∈ l') :
    l.length ≤ l'.length := by
  induction l generalizing l' with
  | nil => simp
  | cons a l ih =>
    rw [List.nodup_cons] at hnd
    have ha : a ∈ l' := h a (by simp)
    have := ih (l'.erase a) hnd.2 (fun c hc => by
      have hne : c ≠ a := fun e => hnd.1 (e ▸ hc)
      exact (List.mem_erase_of_ne hne).2 (h c (by simp [hc])))
    rw [List.length_erase_of_mem ha] at this
    have hp : 0 < l'.length := List.length_pos_of_mem ha
    simp only [List.length_cons]
    omega

theorem flatMap_length_le (f : Nat → List Bool) (s : List Nat) (b : Nat)
    (h : ∀ c ∈ s, (f c).length ≤ b) : (s.flatMap f).length ≤ b * s.length := by
  induction s with
  | nil => simp
  | cons c cs ih =>
    have h1 := ih (fun x hx => h x (by simp [hx]))
    have h2 := h c (by simp)
    rw [List.flatMap_cons, List.length_append, List.length_cons, Nat.mul_succ]
    omega

/-- Everything about one run of the encoder on an input whose tree has depth in `1..64`. -/
theorem encode_run (swap : Nat → Bool) (ub : BitVec 64) (b0 : Nat) (mem : Mem) (stateNum : Nat)
    (s : List Nat) (t : HTree) (hb : ∀ x ∈ s, x < stateNum)
    (ht : buildTree swap stateNum s = some t) (hnd : t.syms.Nodup)
    (hmem : ∀ c, c ∈ t.syms ↔ c ∈ s) (hd1 : 0 < t.depth) (hd2 : t.depth ≤ 64) :
    ∃ tab st, initHuff swap stateNum ub s = some (t, tab) ∧ encode tab s mem b0 = some st ∧
      (∀ c, (tab c).isSome ↔ c ∈ t.syms) ∧
      Written st (s.flatMap (bitsOf t)) ∧
      (∀ c ∈ s, (c, bitsOf t c) ∈ t.paths ∧ bitsOf t c ≠ []) ∧
      ∀ i, st.outSize + 8 ≤ i → st.mem i = mem i := by
  have hcs : ∀ c ∈ t.syms, c < stateNum := fun c h => hb c ((hmem c).1 h)
  obtain ⟨tab, h1, h2, h3⟩ := buildCode_spec stateNum ub t [] (fun _ => none) (by simpa using hd2)
    (Or.inr hd1) hcs hnd
  have hpath : ∀ c ∈ s, (c, bitsOf t c) ∈ t.paths := fun c hc =>
    mem_paths_bitsOf t c ((hmem c).2 hc)
  have hne : ∀ c ∈ s, bitsOf t c ≠ [] := by
    intro c hc h
    have hp := hpath c hc
    rw [h] at hp
    cases t with
    | leaf f c => simp [HTree.depth] at hd1
    | node f l r => simp [HTree.paths] at hp
  have hgood : GoodTab tab (bitsOf t) s := by
    intro c hc
    obtain ⟨cd, hcd1, hcd2⟩ := h2 _ (hpath c hc)
    exact ⟨cd, hcd1, by simpa using hcd2, hne c hc⟩
  obtain ⟨st, h4, h5, h6⟩ := encodeLoop_written tab (bitsOf t) s _ [] hgood (written_init mem b0)
  have hb0 : ofBits [] = 0#64 := rfl
  have h1' : buildCode stateNum ub t 0 0#64 0#64 (fun _ => none) = some tab := h1
  refine ⟨tab, st, by simp only [initHuff, ht, h1'], h4, ?_, by simpa using h5,
    fun c hc => ⟨hpath c hc, hne c hc⟩, h6⟩
  obtain ⟨tab', h7, h8⟩ := buildCode_dom stateNum ub t 0 0#64 0#64 (fun _ => none) hcs
  rw [h1'] at h7
  obtain rfl := Option.some.inj h7
  intro c; simpa using h8 c

/-- Encoder on a constant array: nothing is written, whatever the out-of-range shift
produces. -/
theorem encodeLoop_const (cd : Code) (hcd : cd.len = 0#8) (tab : CodeTab) (c : Nat)
    (htab : tab c = some cd) (s : List Nat) (hs : ∀ x ∈ s, x = c) (st : WState)
    (h1 : st.p = 0) (h2 : st.lack = 0) (h3 : st.outSize = 0) :
    ∃ st', encodeLoop tab s st = some st' ∧ st'.outSize = 0 := by
  induction s generalizing st with
  | nil => exact ⟨st, rfl, h3⟩
  | cons x xs ih =>
    have hx : x = c := hs x (by simp)
    subst hx
    simp only [encodeLoop, htab]
    apply ih (fun y hy => hs y (by simp [hy]))
    · simp [encodeStep, h2, hcd, h1, ceil8]
    · simp [encodeStep, h2, hcd, lackOf, ceil8]
    · simp [encodeStep, h2, hcd, h3, ceil8]

theorem huffman_roundtrip (swap : Nat → Bool) (ub : BitVec 64) (b0 : Nat) (mem : Mem)
    (stateNum : Nat) (s : List Nat) (hs : s ≠ []) (hb : ∀ x ∈ s, x < stateNum)
    (hst : stateNum ≤ 2 ^ 26) (hlen : s.length < 2 ^ 60)
    (hdepth : ∀ t, buildTree swap stateNum s = some t → t.depth ≤ 64) :
    ∃ bytes, huffEncode swap ub b0 mem stateNum s = some bytes ∧
      ∀ rest, huffDecode stateNum s.length (bytes ++ rest) = some (s, rest) := by
  obtain ⟨t, ht, hnd, hmem⟩ := buildTree_spec swap stateNum s hs
    (fun x hx => by have := hb x hx; omega)
  have hd := hdepth t ht
  have hcs : ∀ c ∈ t.syms, c < stateNum := fun c h => hb c ((hmem c).1 h)
  have hsyms : t.syms.length ≤ stateNum := by
    exact nodup_length_le t.syms stateNum hnd hcs
  have hsize := t.size_syms
  obtain ⟨tb, htb1, htb2, htb3⟩ := readTree_treeBytes t (4 * stateNum) (by omega) (by omega)
    (fun c h => by have := hcs c h; omega)
  have hts : treeSize t.size < 256 ^ 4 := by
    unfold treeSize; exact Nat.mod_lt _ (by decide)
  -- common decoding argument
  have fin : ∀ (tab : CodeTab) (st : WState), initHuff swap stateNum ub s = some (t, tab) →
      encode tab s mem b0 = some st → (∀ c, (tab c).isSome ↔ c ∈ t.syms) →
      st.outSize < 2 ^ 64 →
      (∀ rest, decode ((List.range st.outSize).map st.mem ++ rest) s.length t.toNode = some s) →
      ∃ bytes, huffEncode swap ub b0 mem stateNum s = some bytes ∧
        ∀ rest, huffDecode stateNum s.length (bytes ++ rest) = some (s, rest) := by
    intro tab st h1 h2 h3 h4 h5
    have hcount : codeCount tab stateNum * 2 - 1 = t.size := by
      rw [codeCount_eq tab stateNum t.syms hnd hcs h3]; omega
    refine ⟨_, by simp only [huffEncode, h1, hcount, htb1, h2]; rfl, ?_⟩
    intro rest
    have htake : tb.take (treeSize t.size) = tb := List.take_of_length_le (by omega)
    rw [htake]
    simp only [huffDecode, List.append_assoc]
    rw [readLE_leBytes (by omega)]
    simp only
    rw [readLE_leBytes hts]
    simp only
    rw [htb3]
    simp only
    rw [takeBytes_append' _ _ htb2]
    simp only
    rw [readLE_leBytes (by simpa using h4)]
    simp only
    rw [h5, takeBytes_append' _ _ (by simp)]
  by_cases hd0 : 0 < t.depth
  · obtain ⟨tab, st, h1, h2, h3, h4, h5, _⟩ :=
      encode_run swap ub b0 mem stateNum s t hb ht hnd hmem hd0 hd
    have hbits : (s.flatMap (bitsOf t)).length ≤ 64 * s.length := by
      apply flatMap_length_le
      intro c hc
      have := t.paths_length _ (h5 c hc).1
      exact Nat.le_trans this hd
    refine fin tab st h1 h2 h3 ?_ ?_
    · rw [h4.hout]; unfold ceil8; split <;> omega
    · intro rest
      have hroot : ∃ t0 c0 l0 r0, t.toNode = .mk t0 c0 l0 r0 ∧ t0 = 0 := by
        cases t with
        | leaf => simp [HTree.depth] at hd0
        | node f l r => exact ⟨0, 0, _, _, rfl, rfl⟩
      obtain ⟨t0, c0, l0, r0, hr, ht0⟩ := hroot
      have hdec : decode ((List.range st.outSize).map st.mem ++ rest) s.length t.toNode =
          decodeLoop ((List.range st.outSize).map st.mem ++ rest) t.toNode
            (8 * ((List.range st.outSize).map st.mem ++ rest).length) 0 t.toNode s.length := by
        rw [hr]; simp [decode, ht0]
      rw [hdec]
      have hcl : (s.flatMap (bitsOf t)).length ≤ 8 * st.outSize := by
        rw [h4.hout]; unfold ceil8; split <;> omega
      apply decodeLoop_all _ t s (bitsOf t) h5
      · intro k hk
        rw [Nat.zero_add, bitAt_of_mem _ _ _ _ (by omega), h4.hbits k hk]
      · simp only [List.length_append, List.length_map, List.length_range]; omega
  · cases t with
    | node f l r => simp [HTree.depth] at hd0
    | leaf f c =>
      have hall : ∀ x ∈ s, x = c := fun x hx => by
        have := (hmem x).2 hx; simpa [HTree.syms] using this
      have hcst : c < stateNum := hcs c (by simp [HTree.syms])
      let cd : Code := ⟨shl64 ub 0#64 (64 - 0), 0#64, BitVec.ofNat 8 0⟩
      have hbc : buildCode stateNum ub (.leaf f c) 0 0#64 0#64 (fun _ => none) =
          some (fun x => if x = c then some cd else none) := by
        simp [buildCode, hcst, cd]
      obtain ⟨st, h1, h2⟩ := encodeLoop_const cd rfl (fun x => if x = c then some cd else none) c
        (by simp) s hall ⟨mem, 0, 0, 0, b0⟩ rfl rfl rfl
      refine fin _ st (by simp only [initHuff, ht, hbc]) h1 ?_ (by omega) ?_
      · intro x
        by_cases hx : x = c <;> simp [hx, HTree.syms]
      · intro rest
        simp only [decode, HTree.toNode, ne_eq, Nat.one_ne_zero, not_false_eq_true, if_true,
          Option.some.injEq]
        exact (List.eq_replicate_iff.2 ⟨rfl, hall⟩).symm

end CpSZ.Huff
