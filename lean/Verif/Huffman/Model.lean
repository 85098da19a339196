import Verif.Bytes
/-
Model of src/sz_huffman.cpp and of the two wrappers
`Huffman_encode_tree_and_data` (src/sz_compression_utils.cpp L61-82) and
`Huffman_decode_tree_and_data` (src/sz_decompression_utils.cpp L92-108).

`none` is undefined behaviour (null dereference, out of bounds access) or a call to
`exit`.
-/

namespace CpSZ.Huff

/-- Nodes reachable from the priority queue (`struct node_t`,
include/sz_huffman.hpp L22-27): `t = 1` is `leaf`, `t = 0` is `node`; the frequency is stored in
the node.
Pool addresses are abstracted away: every pool slot is handed out once and is referenced
by exactly one queue slot or parent. -/
inductive HTree where
  | leaf (freq : Nat) (c : Nat)
  | node (freq : Nat) (l r : HTree)
  deriving Repr, DecidableEq

namespace HTree

/-- `n->freq`.  (include/sz_huffman.hpp L22-27.) -/
def freq : HTree → Nat
  | leaf f _ => f
  | node f _ _ => f

/-- Symbols at the leaves, left to right. -/
def syms : HTree → List Nat
  | leaf _ c => [c]
  | node _ l r => l.syms ++ r.syms

/-- Height of the tree = length of the longest code word. -/
def depth : HTree → Nat
  | leaf _ _ => 0
  | node _ l r => max l.depth r.depth + 1

end HTree

/-! ### Priority queue (L118-144)

`qq[1..qend-1]` is the list of queue entries (position `i` of the C array is index `i-1`
of the list), so `qend = q.length + 1`.  Slots at `qend` and above are never read before
being written and are not represented. -/

/-- Queue entries (src/sz_huffman.cpp L118-144). -/
abbrev Queue := List HTree

/-- The loop of `qinsert` (src/sz_huffman.cpp L122-127).  `fuel` bounds the number of iterations;
`i` halves in each one so `fuel = i` always suffices. -/
def siftUp : Nat → Nat → HTree → Queue → Option Queue
  | 0, _, _, _ => none
  | fuel + 1, i, n, q =>
    let j := i / 2
    if j = 0 then some (q.set (i - 1) n)
    else match q[j - 1]? with
      | none => none
      | some m =>
        if m.freq ≤ n.freq then some (q.set (i - 1) n)
        else siftUp fuel j n (q.set (i - 1) m)

/-- `qinsert` (src/sz_huffman.cpp L119-128): the new slot is `i = qend++`. -/
def qinsert (q : Queue) (n : HTree) : Option Queue :=
  siftUp (q.length + 1) (q.length + 1) n (q ++ [n])

/-- The loop of `qremove` (src/sz_huffman.cpp L137-141), returning the queue and the final hole `i`.
`qend` is the already decremented value. -/
def siftDown : Nat → Nat → Nat → Queue → Option (Queue × Nat)
  | 0, _, _, _ => none
  | fuel + 1, qend, i, q =>
    let l := 2 * i
    if l < qend then
      match q[l - 1]? with
      | none => none
      | some a =>
        if l + 1 < qend then
          match q[l]? with
          | none => none
          | some b =>
            if b.freq < a.freq then siftDown fuel qend (l + 1) (q.set (i - 1) b)
            else siftDown fuel qend l (q.set (i - 1) a)
        else siftDown fuel qend l (q.set (i - 1) a)
    else some (q, i)

/-- `qremove` (src/sz_huffman.cpp L130-144).  Returns the removed node and the remaining queue;
`none` for the empty queue, where the code returns a null pointer. -/
def qremove (q : Queue) : Option (HTree × Queue) :=
  match q with
  | [] => none
  | n :: _ =>
    let qend := q.length
    match siftDown qend qend 1 q with
    | none => none
    | some (q', i) =>
      match q'[qend - 1]? with
      | none => none
      | some last => some (n, (q'.set (i - 1) last).take (qend - 1))

/-- `new_node(huffmanTree, freq, c, 0, 0)` with `freq ≠ 0` (src/sz_huffman.cpp L92-100). -/
def newLeaf (freq c : Nat) : HTree := .leaf freq c

/-- `new_node(huffmanTree, 0, 0, a, b)` (src/sz_huffman.cpp L101-107). -/
def newNode (a b : HTree) : HTree := .node (a.freq + b.freq) a b

/-- `while (qend > 2) qinsert(new_node(0,0,qremove(),qremove()))` (src/sz_huffman.cpp L210-211).
C++ leaves the order in which the two arguments are evaluated unspecified: `swap k` tells whether
at the step with `k` queue entries the second argument is evaluated first. -/
def mergeLoop (swap : Nat → Bool) : Nat → Queue → Option Queue
  | 0, _ => none
  | fuel + 1, q =>
    if q.length > 1 then
      match qremove q with
      | none => none
      | some (a, q1) =>
        match qremove q1 with
        | none => none
        | some (b, q2) =>
          match qinsert q2 (if swap q.length then newNode b a else newNode a b) with
          | none => none
          | some q3 => mergeLoop swap fuel q3
    else some q

/-- Insert one leaf per occurring symbol in increasing symbol order (src/sz_huffman.cpp L206-208).
-/
def insertLeaves (freq : Nat → Nat) : List Nat → Queue → Option Queue
  | [], q => some q
  | c :: cs, q =>
    if freq c ≠ 0 then
      match qinsert q (newLeaf (freq c) c) with
      | none => none
      | some q' => insertLeaves freq cs q'
    else insertLeaves freq cs q

/-- src/sz_huffman.cpp L206-211 and the root `qq[1]`, which is the null pointer if there is no
symbol. -/
def treeOfFreq (swap : Nat → Bool) (freq : Nat → Nat) (allNodes : Nat) : Option HTree :=
  match insertLeaves freq (List.range allNodes) [] with
  | none => none
  | some q =>
    match mergeLoop swap (q.length + 1) q with
    | none => none
    | some q' => q'.head?

/-- Tree construction part of `init` (src/sz_huffman.cpp L195-211).  `freq` has `allNodes =
2*stateNum` entries, a larger symbol is an out of bounds write; `freq[index]++` per element
(L200-204) makes `freq[c]` the number of occurrences of `c`. -/
def buildTree (swap : Nat → Bool) (stateNum : Nat) (s : List Nat) : Option HTree :=
  if s.all (· < 2 * stateNum) then treeOfFreq swap (fun c => s.count c) (2 * stateNum) else none

/-! ### Code table -/

/-- `code[c][0]`, `code[c][1]`, `cout[c]`.  (src/sz_huffman.cpp L152-166.) -/
structure Code where
  w0 : BitVec 64
  w1 : BitVec 64
  len : BitVec 8
  deriving DecidableEq

/-- The tables `code` and `cout`; `none` is a null pointer (src/sz_huffman.cpp L152-166). -/
abbrev CodeTab := Nat → Option Code

/-- `unsigned long` left shift; an amount of 64 or more is undefined and yields the
arbitrary value `ub`.  (src/sz_huffman.cpp L158, L164.) -/
def shl64 (ub : BitVec 64) (x : BitVec 64) (k : Nat) : BitVec 64 :=
  if k < 64 then x <<< k else ub

/-- `build_code` (src/sz_huffman.cpp L152-187). -/
def buildCode (stateNum : Nat) (ub : BitVec 64) :
    HTree → Nat → BitVec 64 → BitVec 64 → CodeTab → Option CodeTab
  | .leaf _ c, len, out1, out2, tab =>
    if c < stateNum then
      let cd : Code :=
        if len ≤ 64 then ⟨shl64 ub out1 (64 - len), out2, BitVec.ofNat 8 len⟩
        else ⟨out1, if len ≤ 128 then shl64 ub out2 (128 - len) else ub, BitVec.ofNat 8 len⟩
      some (fun x => if x = c then some cd else tab x)
    else none
  | .node _ l r, len, out1, out2, tab =>
    if len / 64 = 0 then
      let o := (out1 <<< 1) ||| 0#64
      match buildCode stateNum ub l (len + 1) o 0#64 tab with
      | none => none
      | some tab' => buildCode stateNum ub r (len + 1) (o ||| 1#64) 0#64 tab'
    else
      let o := (if len % 64 ≠ 0 then out2 <<< 1 else out2) ||| 0#64
      match buildCode stateNum ub l (len + 1) out1 o tab with
      | none => none
      | some tab' => buildCode stateNum ub r (len + 1) out1 (o ||| 1#64) tab'

/-- `init` (src/sz_huffman.cpp L195-215): tree and code table; dereferences the null root on empty
input. -/
def initHuff (swap : Nat → Bool) (stateNum : Nat) (ub : BitVec 64) (s : List Nat) :
    Option (HTree × CodeTab) :=
  match buildTree swap stateNum s with
  | none => none
  | some t =>
    match buildCode stateNum ub t 0 0#64 0#64 (fun _ => none) with
    | none => none
    | some tab => some (t, tab)

/-! ### Bit writer (L217-320) -/

/-- Byte addressed output buffer.  (src/sz_huffman.cpp L217-222.) -/
abbrev Mem := Nat → Byte

/-- Assignment to one byte (src/sz_huffman.cpp L14-24). -/
def Mem.set (m : Mem) (p : Nat) (b : Byte) : Mem := fun i => if i = p then b else m i

/-- `longToBytes_bigEndian` (src/sz_huffman.cpp L14-24). -/
def writeBE (m : Mem) (p : Nat) (w : BitVec 64) : Mem := fun i =>
  if p ≤ i ∧ i < p + 8 then (w >>> (56 - 8 * (i - p))).truncate 8 else m i

/-- Local variables of `encode`.  (src/sz_huffman.cpp L219-223.) -/
structure WState where
  mem : Mem
  p : Nat
  lack : Nat
  outSize : Nat
  byteSize : Nat

/-- `bitSize%8==0 ? bitSize/8 : bitSize/8+1`.  (src/sz_huffman.cpp L242, L272, L293.) -/
def ceil8 (b : Nat) : Nat := if b % 8 = 0 then b / 8 else b / 8 + 1

/-- `bitSize%8==0 ? 0 : 8 - bitSize%8`.  (src/sz_huffman.cpp L257, L276, L297.) -/
def lackOf (b : Nat) : Nat := if b % 8 = 0 then 0 else 8 - b % 8

/-- One iteration of `encode` (src/sz_huffman.cpp L227-312) for a symbol with code `cd`. -/
def encodeStep (st : WState) (cd : Code) : WState :=
  let bitSize := cd.len.toNat
  if st.lack = 0 then
    let byteSize := ceil8 bitSize
    let byteSizep := bitSize / 8
    let m1 := writeBE st.mem st.p cd.w0
    if byteSize ≤ 8 then
      { mem := m1, p := st.p + byteSizep, lack := lackOf bitSize,
        outSize := st.outSize + byteSize, byteSize := byteSize }
    else
      { mem := writeBE m1 (st.p + 8) cd.w1, p := st.p + 8 + (byteSizep - 8),
        lack := lackOf bitSize, outSize := st.outSize + byteSize, byteSize := byteSize }
  else
    let m0 := st.mem.set st.p (st.mem st.p ||| (cd.w0 >>> (64 - st.lack)).truncate 8)
    if st.lack < bitSize then
      let m1 := writeBE m0 (st.p + 1) (cd.w0 <<< st.lack)
      if bitSize ≤ 64 then
        let b := bitSize - st.lack
        { mem := m1, p := st.p + 1 + b / 8, lack := lackOf b,
          outSize := st.outSize + ceil8 b, byteSize := ceil8 b }
      else
        let p := st.p + 1 + 7
        let outSize := st.outSize + st.byteSize
        let b := bitSize - 64
        if st.lack < b then
          let m2 := m1.set p (m1 p ||| (cd.w0 >>> (64 - st.lack)).truncate 8)
          let m3 := writeBE m2 (p + 1) (cd.w1 <<< st.lack)
          let b' := b - st.lack
          { mem := m3, p := p + 1 + b' / 8, lack := lackOf b',
            outSize := outSize + ceil8 b', byteSize := ceil8 b' }
        else
          { mem := m1.set p (m1 p ||| (cd.w0 >>> (64 - b)).truncate 8), p := p,
            lack := st.lack - b, outSize := outSize, byteSize := st.byteSize }
    else
      let lack := st.lack - bitSize
      { st with mem := m0, lack := lack, p := if lack = 0 then st.p + 1 else st.p }

/-- `encode`: the loop over the symbols; a symbol without a code dereferences a null
pointer.  (src/sz_huffman.cpp L225-313.) -/
def encodeLoop (tab : CodeTab) : List Nat → WState → Option WState
  | [], st => some st
  | c :: cs, st =>
    match tab c with
    | none => none
    | some cd => encodeLoop tab cs (encodeStep st cd)

/-- `encode` called with `*outSize = 0` on a buffer with arbitrary contents; `byteSize`
is an uninitialised local, hence arbitrary.  (src/sz_huffman.cpp L217-320;
src/sz_compression_utils.cpp L76-77.) -/
def encode (tab : CodeTab) (s : List Nat) (mem : Mem) (byteSize0 : Nat) : Option WState :=
  encodeLoop tab s { mem := mem, p := 0, lack := 0, outSize := 0, byteSize := byteSize0 }

/-! ### Tree serialisation (L357-499) -/

/-- A node as seen through pointers: possibly null, with the `t` and `c` fields.
(include/sz_huffman.hpp L22-27.) -/
inductive Node where
  | null
  | mk (t : Nat) (c : Nat) (l r : Node)
  deriving Repr, DecidableEq

/-- Pool nodes are zero initialised (src/sz_huffman.cpp L72), so a leaf has null children and an
inner node has `c = 0`. -/
def HTree.toNode : HTree → Node
  | .leaf _ c => .mk 1 c .null .null
  | .node _ l r => .mk 0 0 l.toNode r.toNode

/-- The four arrays `L`, `R`, `C`, `t`.  (src/sz_huffman.cpp L419-486.) -/
structure Arrs where
  L : Nat → Nat
  R : Nat → Nat
  C : Nat → Nat
  t : Nat → Nat

/-- Assignment to one array element (src/sz_huffman.cpp L359-373). -/
def upd (f : Nat → Nat) (i v : Nat) : Nat → Nat := fun x => if x = i then v else f x

/-- `pad_tree_uchar/ushort/uint` (src/sz_huffman.cpp L357-415) with index type of `w` bytes; all
arrays have `cnt` entries and a write beyond is undefined.  Returns the arrays and `n_inode`. -/
def padTree (w cnt : Nat) : Node → Nat → Nat → Arrs → Option (Arrs × Nat)
  | .null, _, ni, a => some (a, ni)
  | .mk t c l r, i, ni, a =>
    if i < cnt then
      let a := { a with C := upd a.C i (c % 2 ^ 32), t := upd a.t i (t % 256) }
      match (if l = .null then some (a, ni)
        else padTree w cnt l (ni + 1) (ni + 1) { a with L := upd a.L i ((ni + 1) % 256 ^ w) }) with
      | none => none
      | some (a, ni) =>
        if r = .null then some (a, ni)
        else padTree w cnt r (ni + 1) (ni + 1) { a with R := upd a.R i ((ni + 1) % 256 ^ w) }
    else none

/-- `memcpy` of the first `cnt` entries of an array of `w` byte integers. 
(src/sz_huffman.cpp L417-499.) -/
def arrBytes (w cnt : Nat) (f : Nat → Nat) : List Byte :=
  (List.range cnt).flatMap fun i => leBytes w (f i)

/-- Index width chosen from the node count (src/sz_huffman.cpp L419, L446, L470 and L572, L596,
L623). -/
def widthOf (cnt : Nat) : Nat := if cnt ≤ 256 then 1 else if cnt ≤ 65536 then 2 else 4

/-- `totalSize` (src/sz_huffman.cpp L432, L457, L486): `unsigned int` arithmetic. -/
def treeSize (cnt : Nat) : Nat := (1 + 2 * cnt * widthOf cnt + cnt + 4 * cnt) % 2 ^ 32

/-- `convert_HuffTree_to_bytes_anyStates` (src/sz_huffman.cpp L417-499). -/
def treeBytes (t : Node) (cnt : Nat) : Option (List Byte) :=
  match padTree (widthOf cnt) cnt t 0 0 ⟨fun _ => 0, fun _ => 0, fun _ => 0, fun _ => 0⟩ with
  | none => none
  | some (a, _) =>
    some (0#8 :: (arrBytes (widthOf cnt) cnt a.L ++ arrBytes (widthOf cnt) cnt a.R ++
      arrBytes 4 cnt a.C ++ arrBytes 1 cnt a.t))

/-! ### Tree reconstruction (L501-649) -/

/-- The array entries; reading at or beyond `cnt` is out of bounds.  (src/sz_huffman.cpp L501-568.)
-/
structure RArrs where
  L : List Nat
  R : List Nat
  C : List Nat
  t : List Nat

/-- `unpad_tree_uchar/ushort/uint` (src/sz_huffman.cpp L501-568).  `nn` is `n_nodes`, the pool has
`pool` slots.  The recursion depth is bounded by `fuel` (malformed arrays may be cyclic, in which
case the C++ recursion does not terminate). -/
def unpadTree (a : RArrs) (pool : Nat) : Nat → Nat → Nat → Nat → Nat → Option (Node × Nat)
  | 0, _, _, _, _ => none
  | fuel + 1, i, t, c, nn =>
    if t = 0 then
      match a.L[i]? with
      | none => none
      | some l =>
        match (if l ≠ 0 then
            match a.C[l]?, a.t[l]? with
            | some cl, some tl =>
              if nn < pool then unpadTree a pool fuel l tl cl (nn + 1) else none
            | _, _ => none
          else some (Node.null, nn)) with
        | none => none
        | some (ln, nn) =>
          match a.R[i]? with
          | none => none
          | some r =>
            match (if r ≠ 0 then
                match a.C[r]?, a.t[r]? with
                | some cr, some tr =>
                  if nn < pool then unpadTree a pool fuel r tr cr (nn + 1) else none
                | _, _ => none
              else some (Node.null, nn)) with
            | none => none
            | some (rn, nn) => some (.mk t c ln rn, nn)
    else some (.mk t c .null .null, nn)

/-- Read `cnt` integers of `w` bytes.  (src/sz_huffman.cpp L570-649.) -/
def readArr (w : Nat) : Nat → List Byte → Option (List Nat × List Byte)
  | 0, bs => some ([], bs)
  | n + 1, bs => do
    let (a, bs) ← readLE w bs
    let (as, bs) ← readArr w n bs
    return (a :: as, bs)

/-- `reconstruct_HuffTree_from_bytes_anyStates` (src/sz_huffman.cpp L570-649).  The one byte
variant reads the root's fields from the arrays (L588); the others assume an inner root (L615,
L641). -/
def readTree (pool cnt : Nat) (bs : List Byte) : Option Node :=
  match bs with
  | [] => none
  | _ :: bs =>
    match readArr (widthOf cnt) cnt bs with
    | none => none
    | some (L, bs) =>
      match readArr (widthOf cnt) cnt bs with
      | none => none
      | some (R, bs) =>
        match readArr 4 cnt bs with
        | none => none
        | some (C, bs) =>
          match readArr 1 cnt bs with
          | none => none
          | some (t, _) =>
            if cnt ≤ 256 then
              match C[0]?, t[0]? with
              | some c0, some t0 =>
                if 0 < pool then
                  (unpadTree ⟨L, R, C, t⟩ pool (cnt + 1) 0 t0 c0 1).map (·.1)
                else none
              | _, _ => none
            else if 0 < pool then
              (unpadTree ⟨L, R, C, t⟩ pool (cnt + 1) 0 0 0 1).map (·.1)
            else none

/-! ### Bit reader (L322-355) -/

/-- Bit `i` of the payload: `(s[i>>3] >> (7 - i%8)) & 1`; `none` if out of bounds.
(src/sz_huffman.cpp L338-340.) -/
def bitAt (s : List Byte) (i : Nat) : Option Bool :=
  match s[i / 8]? with
  | none => none
  | some b => some (((b >>> (7 - i % 8)) &&& 1#8) ≠ 0#8)

/-- The main loop of `decode` (src/sz_huffman.cpp L335-351); `fuel` bounds the number of bits
looked at, which is at most the number of bits in the stream. -/
def decodeLoop (s : List Byte) (root : Node) : Nat → Nat → Node → Nat → Option (List Nat)
  | _, _, _, 0 => some []
  | 0, _, _, _ + 1 => none
  | fuel + 1, i, n, target + 1 =>
    match bitAt s i with
    | none => none
    | some b =>
      match n with
      | .null => none
      | .mk _ _ l r =>
        match (if b = false then l else r) with
        | .null => none
        | .mk t c l' r' =>
          if t ≠ 0 then (decodeLoop s root fuel (i + 1) root target).map (c :: ·)
          else decodeLoop s root fuel (i + 1) (.mk t c l' r') (target + 1)

/-- `decode` (src/sz_huffman.cpp L322-355). -/
def decode (s : List Byte) (target : Nat) (root : Node) : Option (List Nat) :=
  match root with
  | .null => none
  | .mk t c _ _ =>
    if t ≠ 0 then some (List.replicate target c)
    else decodeLoop s root (8 * s.length) 0 root target

/-! ### Wrappers -/

/-- Number of symbols with a code, `for (i = 0; i < state_num; i++) if (code[i]) …`.
(src/sz_compression_utils.cpp L65-67.) -/
def codeCount (tab : CodeTab) (stateNum : Nat) : Nat :=
  ((List.range stateNum).filter fun i => (tab i).isSome).length

/-- `Huffman_encode_tree_and_data` (src/sz_compression_utils.cpp L61-82): the bytes between
the old and the new position of `compressed_pos`.  `mem` is the previous content of the
buffer behind the size field. -/
def huffEncode (swap : Nat → Bool) (ub : BitVec 64) (byteSize0 : Nat) (mem : Mem)
    (stateNum : Nat) (s : List Nat) : Option (List Byte) :=
  match initHuff swap stateNum ub s with
  | none => none
  | some (t, tab) =>
    let cnt := codeCount tab stateNum * 2 - 1
    match treeBytes t.toNode cnt with
    | none => none
    | some tb =>
      match encode tab s mem byteSize0 with
      | none => none
      | some st =>
        some (leBytes 8 cnt ++ leBytes 4 (treeSize cnt) ++ tb.take (treeSize cnt) ++
          leBytes 8 st.outSize ++ (List.range st.outSize).map st.mem)

/-- `Huffman_decode_tree_and_data` (src/sz_decompression_utils.cpp L92-108).  The pool has
`2*allNodes = 4*stateNum` slots (L67). -/
def huffDecode (stateNum num : Nat) (bs : List Byte) : Option (List Nat × List Byte) :=
  match readLE 8 bs with
  | none => none
  | some (cnt, bs) =>
    match readLE 4 bs with
    | none => none
    | some (tsz, bs) =>
      match readTree (4 * stateNum) cnt bs with
      | none => none
      | some root =>
        match takeBytes tsz bs with
        | none => none
        | some (_, bs) =>
          match readLE 8 bs with
          | none => none
          | some (sz, bs) =>
            match decode bs num root with
            | none => none
            | some out =>
              match takeBytes sz bs with
              | none => none
              | some (_, bs) => some (out, bs)

end CpSZ.Huff
