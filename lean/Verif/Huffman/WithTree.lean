import Verif.Huffman.Top
/-
`encode_withTree` and `decode_withTree` (src/sz_huffman.cpp L651-709): the entropy coder as a self
contained stream that starts with the node count and the number of intervals.
-/

namespace CpSZ.Huff

/-- `intToBytes_bigEndian` (src/sz_huffman.cpp L26-32). -/
def beBytes4 (n : Nat) : List Byte :=
  [BitVec.ofNat 8 (n / 2 ^ 24), BitVec.ofNat 8 (n / 2 ^ 16), BitVec.ofNat 8 (n / 2 ^ 8),
    BitVec.ofNat 8 n]

/-- `bytesToInt_bigEndian` (src/sz_huffman.cpp L34-56) on four bytes; with the highest bit set the
result is a negative `int` whose use as a node count is not modelled (`none`). -/
def readBE4 : List Byte → Option Nat
  | a :: b :: c :: d :: _ =>
    let n := ((a.toNat * 2 ^ 8 + b.toNat) * 2 ^ 8 + c.toNat) * 2 ^ 8 + d.toNat
    if n < 2 ^ 31 then some n else none
  | _ => none

/-- `memcpy(m + p, bs, |bs|)`.  (src/sz_huffman.cpp L664-667.) -/
def putBytes (m : Mem) (p : Nat) (bs : List Byte) : Mem := fun i =>
  if p ≤ i ∧ i < p + bs.length then bs.getD (i - p) 0#8 else m i

/-- What `encode_withTree` leaves behind: the number of bytes requested from `malloc`, the memory
from `*out` on (also beyond the requested bytes) and `*outSize`.  (src/sz_huffman.cpp L662-671.) -/
structure OutBuf where
  alloc : Nat
  mem : Mem
  outSize : Nat

/-- The first `*outSize` bytes at `*out`.  (src/sz_huffman.cpp L671.) -/
def OutBuf.bytes (r : OutBuf) : List Byte := (List.range r.outSize).map r.mem

/-- `encode_withTree` (src/sz_huffman.cpp L651-676) on a fresh tree object.  `mem` is the content of
the memory at and behind `*out` before the call.  `length*sizeof(int)+treeByteSize` is computed
without wrap around. -/
def encodeWithTree (swap : Nat → Bool) (ub : BitVec 64) (byteSize0 : Nat) (mem : Mem)
    (stateNum : Nat) (s : List Nat) : Option OutBuf :=
  match initHuff swap stateNum ub s with
  | none => none
  | some (t, tab) =>
    let cnt := codeCount tab stateNum * 2 - 1
    match treeBytes t.toNode cnt with
    | none => none
    | some tb =>
      let tsz := treeSize cnt
      let m1 := putBytes mem 0 (beBytes4 cnt)
      let m2 := putBytes m1 4 (beBytes4 (stateNum / 2))
      let m3 := putBytes m2 8 (tb.take tsz)
      match encode tab s (fun i => m3 (8 + tsz + i)) byteSize0 with
      | none => none
      | some st =>
        some { alloc := 4 * s.length + tsz
               mem := fun i => if i < 8 + tsz then m3 i else st.mem (i - (8 + tsz))
               outSize := 8 + tsz + st.outSize }

/-- `encodeStartIndex` (src/sz_huffman.cpp L702-707), in `size_t` arithmetic. -/
def startIndex (cnt : Nat) : Nat :=
  if cnt ≤ 256 then 1 + 3 * cnt + cnt * 4
  else if cnt ≤ 65536 then 1 + 2 * cnt * 2 + cnt + cnt * 4
  else 1 + 3 * cnt * 4 + cnt

/-- `decode_withTree` (src/sz_huffman.cpp L682-709) with a tree object made for `stateNum` states;
the stored number of intervals is not read. -/
def decodeWithTree (stateNum : Nat) (s : List Byte) (target : Nat) : Option (List Nat) :=
  match readBE4 s with
  | none => none
  | some cnt =>
    match readTree (4 * stateNum) cnt (s.drop 8) with
    | none => none
    | some root => decode (s.drop (8 + startIndex cnt)) target root

theorem readBE4_beBytes4 (n : Nat) (hn : n < 2 ^ 31) (rest : List Byte) :
    readBE4 (beBytes4 n ++ rest) = some n := by
  simp only [beBytes4, List.cons_append, List.nil_append, readBE4, BitVec.toNat_ofNat]
  have e : ((n / 2 ^ 24 % 2 ^ 8 * 2 ^ 8 + n / 2 ^ 16 % 2 ^ 8) * 2 ^ 8 + n / 2 ^ 8 % 2 ^ 8) * 2 ^ 8 +
      n % 2 ^ 8 = n := by omega
  rw [e, if_pos hn]

theorem startIndex_eq (cnt : Nat) (h : cnt < 2 ^ 28) : startIndex cnt = treeSize cnt := by
  unfold startIndex treeSize widthOf
  split
  · omega
  · split <;> omega

/-- The stores of a constant array stay in the first eight bytes. -/
theorem encodeLoop_const_foot (cd : Code) (hcd : cd.len = 0#8) (tab : CodeTab) (c : Nat)
    (htab : tab c = some cd) (s : List Nat) (hs : ∀ x ∈ s, x = c) (st : WState)
    (h1 : st.p = 0) (h2 : st.lack = 0) (h3 : st.outSize = 0) :
    ∃ st', encodeLoop tab s st = some st' ∧ st'.outSize = 0 ∧ ∀ i, 8 ≤ i → st'.mem i = st.mem i := by
  induction s generalizing st with
  | nil => exact ⟨st, rfl, h3, fun _ _ => rfl⟩
  | cons x xs ih =>
    have hx : x = c := hs x (by simp)
    subst hx
    simp only [encodeLoop, htab]
    obtain ⟨st', e1, e2, e3⟩ := ih (fun y hy => hs y (by simp [hy])) (encodeStep st cd)
      (by simp [encodeStep, h2, hcd, h1, ceil8]) (by simp [encodeStep, h2, hcd, lackOf, ceil8])
      (by simp [encodeStep, h2, hcd, h3, ceil8])
    refine ⟨st', e1, e2, fun i hi => ?_⟩
    rw [e3 i hi]
    simp only [encodeStep, h2, hcd, h1, if_true]
    simp [ceil8, writeBE]
    omega

/-- One run of tree construction and encoder on a non-empty array: the reported size, the bytes
touched and what `decode` returns. -/
theorem encode_core (swap : Nat → Bool) (ub : BitVec 64) (b0 : Nat)
    (stateNum : Nat) (s : List Nat) (t : HTree) (hb : ∀ x ∈ s, x < stateNum)
    (ht : buildTree swap stateNum s = some t) (hnd : t.syms.Nodup)
    (hmem : ∀ c, c ∈ t.syms ↔ c ∈ s) (hd : t.depth ≤ 64) :
    ∃ tab, initHuff swap stateNum ub s = some (t, tab) ∧ (∀ c, (tab c).isSome ↔ c ∈ t.syms) ∧
      ∀ mem : Mem, ∃ st, encode tab s mem b0 = some st ∧
        8 * st.outSize < t.depth * s.length + 8 ∧
        (∀ i, st.outSize + 8 ≤ i → st.mem i = mem i) ∧
        ∀ rest, decode ((List.range st.outSize).map st.mem ++ rest) s.length t.toNode = some s := by
  have hcs : ∀ c ∈ t.syms, c < stateNum := fun c h => hb c ((hmem c).1 h)
  by_cases hd0 : 0 < t.depth
  · obtain ⟨tab, _, h1, _, h3, _⟩ :=
      encode_run swap ub b0 (fun _ => 0#8) stateNum s t hb ht hnd hmem hd0 hd
    refine ⟨tab, h1, h3, fun mem => ?_⟩
    obtain ⟨tab', st, h1', h2, _, h4, h5, h6⟩ :=
      encode_run swap ub b0 mem stateNum s t hb ht hnd hmem hd0 hd
    rw [h1] at h1'
    have : tab = tab' := by simpa using h1'
    subst this
    have hbits : (s.flatMap (bitsOf t)).length ≤ t.depth * s.length := by
      apply flatMap_length_le
      intro c hc
      exact t.paths_length _ (h5 c hc).1
    refine ⟨st, h2, ?_, h6, ?_⟩
    · rw [h4.hout]; unfold ceil8; split <;> omega
    · intro rest
      have hroot : ∃ t0 c0 l0 r0, t.toNode = .mk t0 c0 l0 r0 ∧ t0 = 0 := by
        cases t with
        | leaf => simp [HTree.depth] at hd0
        | node f l r => exact ⟨0, 0, _, _, rfl, rfl⟩
      obtain ⟨t0, c0, l0, r0, hr, ht0⟩ := hroot
      have hdec : decode ((List.range st.outSize).map st.mem ++ rest) s.length t.toNode =
          decodeLoop ((List.range st.outSize).map st.mem ++ rest) t.toNode
            (8 * ((List.range st.outSize).map st.mem ++ rest).length) 0 t.toNode s.length := by
        rw [hr]; simp [decode, ht0]
      rw [hdec]
      have hcl : (s.flatMap (bitsOf t)).length ≤ 8 * st.outSize := by
        rw [h4.hout]; unfold ceil8; split <;> omega
      apply decodeLoop_all _ t s (bitsOf t) h5
      · intro k hk
        rw [Nat.zero_add, bitAt_of_mem _ _ _ _ (by omega), h4.hbits k hk]
      · simp only [List.length_append, List.length_map, List.length_range]; omega
  · cases t with
    | node f l r => simp [HTree.depth] at hd0
    | leaf f c =>
      have hall : ∀ x ∈ s, x = c := fun x hx => by
        have := (hmem x).2 hx; simpa [HTree.syms] using this
      have hcst : c < stateNum := hcs c (by simp [HTree.syms])
      let cd : Code := ⟨shl64 ub 0#64 (64 - 0), 0#64, BitVec.ofNat 8 0⟩
      have hbc : buildCode stateNum ub (.leaf f c) 0 0#64 0#64 (fun _ => none) =
          some (fun x => if x = c then some cd else none) := by
        simp [buildCode, hcst, cd]
      refine ⟨fun x => if x = c then some cd else none, by simp only [initHuff, ht, hbc], ?_,
        fun mem => ?_⟩
      · intro x
        by_cases hx : x = c <;> simp [hx, HTree.syms]
      · obtain ⟨st, h1, h2, h3⟩ := encodeLoop_const_foot cd rfl
          (fun x => if x = c then some cd else none) c (by simp) s hall ⟨mem, 0, 0, 0, b0⟩ rfl rfl rfl
        refine ⟨st, h1, by omega, fun i hi => h3 i (by omega), ?_⟩
        intro rest
        simp only [decode, HTree.toNode, ne_eq, Nat.one_ne_zero, not_false_eq_true, if_true,
          Option.some.injEq]
        exact (List.eq_replicate_iff.2 ⟨rfl, hall⟩).symm

theorem range_map_split (a b : Nat) (f : Nat → Byte) :
    (List.range (a + b)).map f = (List.range a).map f ++ (List.range b).map fun i => f (a + i) := by
  rw [List.range_add, List.map_append, List.map_map]
  rfl

theorem put_read (m : Mem) (p : Nat) (bs : List Byte) :
    ((List.range bs.length).map fun i => putBytes m p bs (p + i)) = bs := by
  apply List.ext_getElem
  · simp
  · intro i h1 h2
    simp only [List.getElem_map, List.getElem_range, putBytes]
    rw [if_pos ⟨by omega, by omega⟩, show p + i - p = i by omega, List.getD_eq_getElem?_getD,
      List.getElem?_eq_getElem h2, Option.getD_some]

theorem put_out (m : Mem) (p : Nat) (bs : List Byte) (i : Nat) (h : i < p ∨ p + bs.length ≤ i) :
    putBytes m p bs i = m i := by
  unfold putBytes
  rw [if_neg (by omega)]

/-- `encode_withTree` on a non-empty array: the stream, the requested size and the bytes touched. -/
theorem withTree_run (swap : Nat → Bool) (ub : BitVec 64) (b0 : Nat)
    (stateNum : Nat) (s : List Nat) (hs : s ≠ []) (hb : ∀ x ∈ s, x < stateNum)
    (hst : stateNum ≤ 2 ^ 26)
    (hdepth : ∀ t, buildTree swap stateNum s = some t → t.depth ≤ 64) :
    ∃ t tb, buildTree swap stateNum s = some t ∧ t.size < 2 ^ 27 ∧ tb.length = treeSize t.size ∧
      (∀ c, c ∈ t.syms ↔ c ∈ s) ∧ t.syms.Nodup ∧
      (∀ pool rest, t.size ≤ pool → readTree pool t.size (tb ++ rest) = some t.toNode) ∧
      ∀ mem, ∃ r pay, encodeWithTree swap ub b0 mem stateNum s = some r ∧
        r.alloc = 4 * s.length + tb.length ∧
        r.outSize = 8 + tb.length + pay.length ∧
        r.bytes = beBytes4 t.size ++ beBytes4 (stateNum / 2) ++ tb ++ pay ∧
        8 * pay.length < t.depth * s.length + 8 ∧
        (∀ i, r.outSize + 8 ≤ i → r.mem i = mem i) ∧
        (∀ i, i < tb.length → r.mem (8 + i) = tb.getD i 0#8) ∧
        ∀ rest, decode (pay ++ rest) s.length t.toNode = some s := by
  obtain ⟨t, ht, hnd, hmem⟩ := buildTree_spec swap stateNum s hs
    (fun x hx => by have := hb x hx; omega)
  have hd := hdepth t ht
  have hcs : ∀ c ∈ t.syms, c < stateNum := fun c h => hb c ((hmem c).1 h)
  have hsyms : t.syms.length ≤ stateNum := nodup_length_le t.syms stateNum hnd hcs
  have hsize := t.size_syms
  obtain ⟨tb, htb1, htb2, _⟩ := readTree_treeBytes t t.size (by omega) (by omega)
    (fun c h => by have := hcs c h; omega)
  obtain ⟨tab, h1, h2, h3⟩ := encode_core swap ub b0 stateNum s t hb ht hnd hmem hd
  refine ⟨t, tb, ht, by omega, htb2, hmem, hnd, ?_, fun mem => ?_⟩
  · intro pool rest hp
    obtain ⟨tb', e1, _, e3⟩ := readTree_treeBytes t pool (by omega) hp
      (fun c h => by have := hcs c h; omega)
    rw [htb1] at e1
    obtain rfl := Option.some.inj e1
    exact e3 rest
  have hcount : codeCount tab stateNum * 2 - 1 = t.size := by
    rw [codeCount_eq tab stateNum t.syms hnd hcs h2]; omega
  have htake : tb.take (treeSize t.size) = tb := List.take_of_length_le (by omega)
  obtain ⟨m3, hm3⟩ : ∃ m3, m3 = putBytes (putBytes (putBytes mem 0 (beBytes4 t.size)) 4
    (beBytes4 (stateNum / 2))) 8 tb := ⟨_, rfl⟩
  have hlen4 : ∀ n, (beBytes4 n).length = 4 := fun _ => rfl
  obtain ⟨st, e1, e2, e3, e4⟩ := h3 (fun i => m3 (8 + treeSize t.size + i))
  refine ⟨_, (List.range st.outSize).map st.mem, by
    simp only [encodeWithTree, h1, hcount, htb1, htake, ← hm3, e1]; rfl, ?_, ?_, ?_, ?_, ?_, ?_, e4⟩
  · simp only [htb2]
  · simp only [htb2, List.length_map, List.length_range]
  · simp only [OutBuf.bytes]
    rw [range_map_split (8 + treeSize t.size) st.outSize]
    congr 1
    · rw [range_map_split 8 (treeSize t.size), range_map_split 4 4]
      congr 1
      · congr 1
        · refine Eq.trans (List.map_congr_left ?_) (put_read mem 0 (beBytes4 t.size))
          intro i hi
          have hi : i < 4 := List.mem_range.1 hi
          rw [if_pos (by omega), hm3, put_out _ _ _ _ (by omega), put_out _ _ _ _ (by omega),
            Nat.zero_add]
        · refine Eq.trans (List.map_congr_left ?_)
            (put_read (putBytes mem 0 (beBytes4 t.size)) 4 (beBytes4 (stateNum / 2)))
          intro i hi
          have hi : i < 4 := List.mem_range.1 hi
          rw [if_pos (by omega), hm3, put_out _ _ _ _ (by omega)]
      · rw [← htb2]
        refine Eq.trans (List.map_congr_left ?_) (put_read (putBytes (putBytes mem 0
          (beBytes4 t.size)) 4 (beBytes4 (stateNum / 2))) 8 tb)
        intro i hi
        simp only [List.mem_range] at hi
        rw [if_pos (by omega), hm3]
    · apply List.map_congr_left
      intro i _
      rw [if_neg (by omega), show 8 + treeSize t.size + i - (8 + treeSize t.size) = i by omega]
  · simpa using e2
  · intro i hi
    simp only at hi ⊢
    rw [if_neg (by omega), e3 _ (by omega),
      show 8 + treeSize t.size + (i - (8 + treeSize t.size)) = i by omega, hm3,
      put_out _ _ _ _ (by omega), put_out _ _ _ _ (by rw [hlen4]; omega),
      put_out _ _ _ _ (by rw [hlen4]; omega)]
  · intro i hi
    simp only
    rw [if_pos (by omega), hm3]
    simp only [putBytes]
    rw [if_pos (by omega), show 8 + i - 8 = i by omega]

/-- The stream is read back by a tree object with room for the nodes. -/
theorem withTree_decode (stateNum state2 : Nat) (s : List Nat) (t : HTree)
    (tb pay : List Byte) (hsz : t.size < 2 ^ 27) (hpool : t.size ≤ 4 * state2)
    (htb : tb.length = treeSize t.size)
    (hrd : ∀ pool rest, t.size ≤ pool → readTree pool t.size (tb ++ rest) = some t.toNode)
    (hdec : ∀ rest, decode (pay ++ rest) s.length t.toNode = some s) (rest : List Byte) :
    decodeWithTree state2 (beBytes4 t.size ++ beBytes4 (stateNum / 2) ++ tb ++ pay ++ rest) s.length =
      some s := by
  have h8 : (beBytes4 t.size ++ beBytes4 (stateNum / 2)).length = 8 := rfl
  have hsi := startIndex_eq t.size (by omega)
  simp only [decodeWithTree]
  rw [List.append_assoc, List.append_assoc, List.append_assoc,
    readBE4_beBytes4 _ (by omega), ← List.append_assoc]
  simp only
  rw [List.drop_left' h8, hrd _ _ hpool]
  simp only
  rw [hsi, ← htb, ← List.append_assoc _ tb, List.drop_left' (by
    rw [List.length_append, h8])]
  exact hdec rest

end CpSZ.Huff
