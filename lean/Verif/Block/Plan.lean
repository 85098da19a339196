import Mathlib.Data.List.Perm.Basic
import Mathlib.Tactic.Ring
/-
Traversal of the block codecs: which points of the data and of the prediction buffer are
visited, in which order.  The loops are modelled with the cursors of the code
(`x_data_pos`, `y_data_pos`, `cur_data_pos`, `pred_buffer_pos`, `buffer_pos`, ...) as offsets
from the start of the data and of the buffer.

Sources: src/sz_compress_3d.cpp L35-72, L150-189, L272-311, L344-388, L471-517,
src/sz_decompress_3d.cpp L16-40, L94-119, L176-202, L220-249 and the inner loops in
include/sz_compress_block_processing.hpp, include/sz_decompress_block_processing.hpp.
-/

namespace CpSZ.Block

/-- One visited point: offset in the data, offset in the prediction buffer, position inside
the block.  (include/sz_compress_block_processing.hpp L26-137.) -/
structure Pt where
  pos : Nat
  buf : Nat
  x : Nat
  y : Nat
  z : Nat
deriving DecidableEq, Repr

/-- What the traversal does, in order.  (src/sz_compress_3d.cpp L36-72.) -/
inductive Ev where
  /-- a block of the given size starts at data offset `o`: the indicator is written/read -/
  | start (o sx sy sz : Nat)
  /-- a point is predicted and quantised/recovered -/
  | pt (p : Pt)
  /-- `memcpy(pred_buffer, pred_buffer + src, len)` -/
  | copy (src len : Nat)
deriving DecidableEq, Repr

/-- `for(i=0; i<n; i++)` with loop state, collecting what the bodies produce.
(src/sz_compress_3d.cpp L36-39.) -/
def loop {σ ε : Type} (body : Nat → σ → List ε × σ) : Nat → σ → List ε × σ
  | 0, s => ([], s)
  | n + 1, s =>
    let r := loop body n s
    let q := body n r.2
    (r.1 ++ q.1, q.2)

/-- `(r - 1) / bs + 1` (include/sz_def.hpp L103-104, L128-130). -/
def numBlk (d bs : Nat) : Nat := (d - 1) / bs + 1

/-- `size_x` etc.: `((i+1)*bs < d) ? bs : d - i*bs`.  (src/sz_compress_3d.cpp L40-41.) -/
def blkSize (d bs i : Nat) : Nat := if (i + 1) * bs < d then bs else d - i * bs

/-- Innermost loop: `cur_data_pos ++`, `cur_buffer_pos ++`.
(include/sz_compress_block_processing.hpp L26-137.) -/
def rowEvs (mk : Nat → Nat → Nat → Pt) (n : Nat) (s : Nat × Nat) : List Ev × (Nat × Nat) :=
  loop (fun j s => ([Ev.pt (mk s.1 s.2 j)], (s.1 + 1, s.2 + 1))) n s

/-- Loops over one block in 2D (include/sz_compress_block_processing.hpp L32-44, L83-101,
L109-138; include/sz_decompress_block_processing.hpp L4-85): `data` and `buffer`
are the arguments `data_pos` and `buffer`, `off` is `buffer_dim0_offset`. -/
def blockEvs2 (dim0 off sx sy data buffer : Nat) : List Ev :=
  (loop (fun i s =>
    let r := rowEvs (fun c b j => ⟨c, b, i, j, 0⟩) sy s
    (r.1, (r.2.1 + dim0 - sy, s.2 + off))) sx (data, buffer + off + 1)).1

/-- Block loops of the 2D compressors (src/sz_compress_3d.cpp L35-72, L150-189): both
cursors advance by `block_size`. -/
def planC2 (d1 d2 bs : Nat) : List Ev :=
  (loop (fun i x =>
    let r := loop (fun j s =>
      (Ev.start s.1 (blkSize d1 bs i) (blkSize d2 bs j) 1 ::
        blockEvs2 d2 (d2 + 1) (blkSize d1 bs i) (blkSize d2 bs j) s.1 s.2,
       (s.1 + bs, s.2 + bs))) (numBlk d2 bs) (x, 0)
    (r.1 ++ [Ev.copy (bs * (d2 + 1)) (d2 + 1)], x + bs * d2)) (numBlk d1 bs) 0).1

/-- Block loops of the 2D decompressors (src/sz_decompress_3d.cpp L16-40, L94-119): both
cursors advance by `size_y`. -/
def planD2 (d1 d2 bs : Nat) : List Ev :=
  (loop (fun i x =>
    let r := loop (fun j s =>
      (Ev.start s.1 (blkSize d1 bs i) (blkSize d2 bs j) 1 ::
        blockEvs2 d2 (d2 + 1) (blkSize d1 bs i) (blkSize d2 bs j) s.1 s.2,
       (s.1 + blkSize d2 bs j, s.2 + blkSize d2 bs j))) (numBlk d2 bs) (x, 0)
    (r.1 ++ [Ev.copy (bs * (d2 + 1)) (d2 + 1)], x + bs * d2)) (numBlk d1 bs) 0).1

/-- Loops over one block in 3D (include/sz_compress_block_processing.hpp L171-181, L190-206,
L215-237, L245-279; include/sz_decompress_block_processing.hpp L87-155): `off0`, `off1` are
`buffer_dim0_offset` and `buffer_dim1_offset`. -/
def blockEvs3 (dim0 dim1 off0 off1 sx sy sz data buffer : Nat) : List Ev :=
  (loop (fun i s =>
    let r := loop (fun j s =>
      let r := rowEvs (fun c b k => ⟨c, b, i, j, k⟩) sz s
      (r.1, (r.2.1 + dim1 - sz, s.2 + off1))) sy s
    (r.1, (r.2.1 + dim0 - sy * dim1, r.2.2 + off0 - sy * off1)))
    sx (data, buffer + off0 + off1 + 1)).1

/-- Block loops of the 3D codecs whose blocks depend on each other (compressor
src/sz_compress_3d.cpp L344-388 and L471-517, decompressor
src/sz_decompress_3d.cpp L220-249): the same in both programs. -/
def plan3 (d1 d2 d3 bs : Nat) : List Ev :=
  (loop (fun i x =>
    let r := loop (fun j s =>
      let q := loop (fun k s =>
        (Ev.start s.1 (blkSize d1 bs i) (blkSize d2 bs j) (blkSize d3 bs k) ::
          blockEvs3 (d2 * d3) d3 ((d2 + 1) * (d3 + 1)) (d3 + 1) (blkSize d1 bs i)
            (blkSize d2 bs j) (blkSize d3 bs k) s.1 s.2,
         (s.1 + blkSize d3 bs k, s.2 + bs))) (numBlk d3 bs) s
      (q.1, (s.1 + bs * d3, q.2.2 + bs * (d3 + 1) - bs * numBlk d3 bs))) (numBlk d2 bs) (x, 0)
    (r.1 ++ [Ev.copy (bs * ((d2 + 1) * (d3 + 1))) ((d2 + 1) * (d3 + 1))], x + bs * (d2 * d3)))
    (numBlk d1 bs) 0).1

/-- Block loops of the 3D codecs with independent blocks (compressor
src/sz_compress_3d.cpp L272-311, decompressor src/sz_decompress_3d.cpp L176-202): every block uses
the same corner
of a buffer of `(bs+1)^3` values. -/
def plan3i (d1 d2 d3 bs : Nat) : List Ev :=
  (loop (fun i x =>
    let r := loop (fun j y =>
      let q := loop (fun k z =>
        (Ev.start z (blkSize d1 bs i) (blkSize d2 bs j) (blkSize d3 bs k) ::
          blockEvs3 (d2 * d3) d3 ((bs + 1) * (bs + 1)) (bs + 1) (blkSize d1 bs i)
            (blkSize d2 bs j) (blkSize d3 bs k) z 0,
         z + blkSize d3 bs k)) (numBlk d3 bs) y
      (q.1, y + bs * d3)) (numBlk d2 bs) x
    (r.1, x + bs * (d2 * d3))) (numBlk d1 bs) 0).1

/-- Data offsets in the order in which they are visited. -/
def positions : List Ev → List Nat
  | [] => []
  | .pt p :: es => p.pos :: positions es
  | _ :: es => positions es

/-- Number of blocks that are started. -/
def starts : List Ev → Nat
  | [] => 0
  | .start .. :: es => starts es + 1
  | _ :: es => starts es

/-! ### Closed forms -/

theorem loop_closed {σ ε : Type} (body : Nat → σ → List ε × σ) (f : Nat → σ)
    (g : Nat → List ε) (n : Nat) (h : ∀ i < n, body i (f i) = (g i, f (i + 1))) :
    loop body n (f 0) = ((List.range n).flatMap g, f n) := by
  induction n with
  | zero => rfl
  | succ n ih =>
    have ih' := ih (fun i hi => h i (by omega))
    simp only [loop, ih', h n (by omega), List.range_succ, List.flatMap_append,
      List.flatMap_cons, List.flatMap_nil, List.append_nil]

theorem loop_congr {σ ε : Type} (b1 b2 : Nat → σ → List ε × σ) (n : Nat) (s : σ)
    (h : ∀ i < n, ∀ s, b1 i s = b2 i s) : loop b1 n s = loop b2 n s := by
  induction n with
  | zero => rfl
  | succ n ih => simp only [loop, ih (fun i hi => h i (by omega)), h n (by omega)]

theorem rowEvs_closed (mk : Nat → Nat → Nat → Pt) (n c b : Nat) :
    rowEvs mk n (c, b) =
      ((List.range n).flatMap fun j => [Ev.pt (mk (c + j) (b + j) j)], (c + n, b + n)) :=
  loop_closed _ (fun j => (c + j, b + j)) (fun j => [Ev.pt (mk (c + j) (b + j) j)]) n
    (fun _ _ => rfl)

theorem blockEvs2_closed (dim0 off sx sy data buffer : Nat) :
    blockEvs2 dim0 off sx sy data buffer = (List.range sx).flatMap fun i =>
      (List.range sy).flatMap fun j =>
        [Ev.pt ⟨data + i * dim0 + j, buffer + (i + 1) * off + 1 + j, i, j, 0⟩] := by
  have := loop_closed (fun i (s : Nat × Nat) =>
    let r := rowEvs (fun c b j => ⟨c, b, i, j, 0⟩) sy s
    (r.1, (r.2.1 + dim0 - sy, s.2 + off)))
    (fun i => (data + i * dim0, buffer + (i + 1) * off + 1))
    (fun i => (List.range sy).flatMap fun j =>
        [Ev.pt ⟨data + i * dim0 + j, buffer + (i + 1) * off + 1 + j, i, j, 0⟩]) sx
    (fun i _ => by
      simp only [rowEvs_closed, Prod.mk.injEq, true_and]
      constructor
      · rw [Nat.add_mul]; omega
      · rw [Nat.add_mul (i + 1)]; omega)
  simp only [Nat.zero_mul, Nat.add_zero, Nat.zero_add, Nat.one_mul] at this
  unfold blockEvs2
  rw [this]

/-- All events of one block of the 2D codecs.  (include/sz_compress_block_processing.hpp L26-137.)
-/
def blk2 (d1 d2 bs i j : Nat) : List Ev :=
  Ev.start (i * (bs * d2) + j * bs) (blkSize d1 bs i) (blkSize d2 bs j) 1 ::
    (List.range (blkSize d1 bs i)).flatMap fun x => (List.range (blkSize d2 bs j)).flatMap fun y =>
      [Ev.pt ⟨i * (bs * d2) + j * bs + x * d2 + y, j * bs + (x + 1) * (d2 + 1) + 1 + y, x, y, 0⟩]

theorem blkSize_eq (d bs i : Nat) : blkSize d bs i = min bs (d - i * bs) := by
  unfold blkSize
  split
  · rename_i h
    rw [Nat.add_mul] at h
    omega
  · rename_i h
    rw [Nat.add_mul] at h
    omega

theorem lt_numBlk {d bs i : Nat} (hd : 0 < d) (hb : 0 < bs) : i < numBlk d bs ↔ i * bs < d := by
  unfold numBlk
  rw [Nat.lt_succ_iff, Nat.le_div_iff_mul_le hb]
  omega

theorem planC2_closed (d1 d2 bs : Nat) :
    planC2 d1 d2 bs = (List.range (numBlk d1 bs)).flatMap fun i =>
      (List.range (numBlk d2 bs)).flatMap (blk2 d1 d2 bs i) ++
        [Ev.copy (bs * (d2 + 1)) (d2 + 1)] := by
  have := loop_closed (fun i x =>
    let r := loop (fun j (s : Nat × Nat) =>
      (Ev.start s.1 (blkSize d1 bs i) (blkSize d2 bs j) 1 ::
        blockEvs2 d2 (d2 + 1) (blkSize d1 bs i) (blkSize d2 bs j) s.1 s.2,
       (s.1 + bs, s.2 + bs))) (numBlk d2 bs) (x, 0)
    (r.1 ++ [Ev.copy (bs * (d2 + 1)) (d2 + 1)], x + bs * d2))
    (fun i => i * (bs * d2))
    (fun i => (List.range (numBlk d2 bs)).flatMap (blk2 d1 d2 bs i) ++
        [Ev.copy (bs * (d2 + 1)) (d2 + 1)]) (numBlk d1 bs)
    (fun i _ => by
      have hin := loop_closed (fun j (s : Nat × Nat) =>
        (Ev.start s.1 (blkSize d1 bs i) (blkSize d2 bs j) 1 ::
          blockEvs2 d2 (d2 + 1) (blkSize d1 bs i) (blkSize d2 bs j) s.1 s.2,
         (s.1 + bs, s.2 + bs)))
        (fun j => (i * (bs * d2) + j * bs, j * bs)) (blk2 d1 d2 bs i) (numBlk d2 bs)
        (fun j _ => by
          simp only [blockEvs2_closed, blk2, Prod.mk.injEq, true_and, Nat.add_mul j, Nat.one_mul]
          exact ⟨by omega, trivial⟩)
      simp only [Nat.zero_mul, Nat.add_zero] at hin
      simp only [hin, Nat.add_mul, Nat.one_mul])
  simp only [Nat.zero_mul] at this
  unfold planC2
  rw [this]

theorem planD2_closed (d1 d2 bs : Nat) (hd : 0 < d2) (hb : 0 < bs) :
    planD2 d1 d2 bs = (List.range (numBlk d1 bs)).flatMap fun i =>
      (List.range (numBlk d2 bs)).flatMap (blk2 d1 d2 bs i) ++
        [Ev.copy (bs * (d2 + 1)) (d2 + 1)] := by
  have := loop_closed (fun i x =>
    let r := loop (fun j (s : Nat × Nat) =>
      (Ev.start s.1 (blkSize d1 bs i) (blkSize d2 bs j) 1 ::
        blockEvs2 d2 (d2 + 1) (blkSize d1 bs i) (blkSize d2 bs j) s.1 s.2,
       (s.1 + blkSize d2 bs j, s.2 + blkSize d2 bs j))) (numBlk d2 bs) (x, 0)
    (r.1 ++ [Ev.copy (bs * (d2 + 1)) (d2 + 1)], x + bs * d2))
    (fun i => i * (bs * d2))
    (fun i => (List.range (numBlk d2 bs)).flatMap (blk2 d1 d2 bs i) ++
        [Ev.copy (bs * (d2 + 1)) (d2 + 1)]) (numBlk d1 bs)
    (fun i _ => by
      have hin := loop_closed (fun j (s : Nat × Nat) =>
        (Ev.start s.1 (blkSize d1 bs i) (blkSize d2 bs j) 1 ::
          blockEvs2 d2 (d2 + 1) (blkSize d1 bs i) (blkSize d2 bs j) s.1 s.2,
         (s.1 + blkSize d2 bs j, s.2 + blkSize d2 bs j)))
        (fun j => (i * (bs * d2) + min d2 (j * bs), min d2 (j * bs))) (blk2 d1 d2 bs i)
        (numBlk d2 bs)
        (fun j hj => by
          rw [lt_numBlk hd hb] at hj
          simp only [Nat.min_eq_right hj.le]
          simp only [blockEvs2_closed, blk2, Prod.mk.injEq, true_and, Nat.add_mul, Nat.one_mul,
            blkSize_eq]
          omega)
      simp only [Nat.zero_mul, Nat.add_zero, Nat.min_zero] at hin
      simp only [hin, Nat.add_mul, Nat.one_mul])
  simp only [Nat.zero_mul] at this
  unfold planD2
  rw [this]

theorem blockEvs3_closed (dim0 dim1 off0 off1 sx sy sz data buffer : Nat) :
    blockEvs3 dim0 dim1 off0 off1 sx sy sz data buffer = (List.range sx).flatMap fun i =>
      (List.range sy).flatMap fun j => (List.range sz).flatMap fun k =>
        [Ev.pt ⟨data + i * dim0 + j * dim1 + k,
          buffer + (i + 1) * off0 + (j + 1) * off1 + 1 + k, i, j, k⟩] := by
  have := loop_closed (fun i (s : Nat × Nat) =>
    let r := loop (fun j (s : Nat × Nat) =>
      let r := rowEvs (fun c b k => ⟨c, b, i, j, k⟩) sz s
      (r.1, (r.2.1 + dim1 - sz, s.2 + off1))) sy s
    (r.1, (r.2.1 + dim0 - sy * dim1, r.2.2 + off0 - sy * off1)))
    (fun i => (data + i * dim0, buffer + (i + 1) * off0 + off1 + 1))
    (fun i => (List.range sy).flatMap fun j => (List.range sz).flatMap fun k =>
        [Ev.pt ⟨data + i * dim0 + j * dim1 + k,
          buffer + (i + 1) * off0 + (j + 1) * off1 + 1 + k, i, j, k⟩]) sx
    (fun i _ => by
      have hin := loop_closed (fun j (s : Nat × Nat) =>
        let r := rowEvs (fun c b k => ⟨c, b, i, j, k⟩) sz s
        (r.1, (r.2.1 + dim1 - sz, s.2 + off1)))
        (fun j => (data + i * dim0 + j * dim1, buffer + (i + 1) * off0 + (j + 1) * off1 + 1))
        (fun j => (List.range sz).flatMap fun k =>
          [Ev.pt ⟨data + i * dim0 + j * dim1 + k,
            buffer + (i + 1) * off0 + (j + 1) * off1 + 1 + k, i, j, k⟩]) sy
        (fun j _ => by
          simp only [rowEvs_closed, Prod.mk.injEq, true_and]
          constructor
          · rw [Nat.add_mul]; omega
          · rw [Nat.add_mul (j + 1)]; omega)
      simp only [Nat.zero_mul, Nat.add_zero, Nat.zero_add, Nat.one_mul] at hin
      simp only [hin, Prod.mk.injEq, true_and]
      constructor
      · rw [Nat.add_mul]; omega
      · rw [Nat.add_mul (i + 1), Nat.add_mul sy]; omega)
  simp only [Nat.zero_mul, Nat.add_zero, Nat.zero_add, Nat.one_mul] at this
  unfold blockEvs3
  rw [this]

/-- All events of one block of the 3D codecs; `base` is the corner of the block in the
buffer.  (include/sz_compress_block_processing.hpp L166-280.) -/
def blk3 (d1 d2 d3 bs off0 off1 base i j k : Nat) : List Ev :=
  Ev.start (i * (bs * (d2 * d3)) + j * (bs * d3) + k * bs) (blkSize d1 bs i) (blkSize d2 bs j)
      (blkSize d3 bs k) ::
    (List.range (blkSize d1 bs i)).flatMap fun x => (List.range (blkSize d2 bs j)).flatMap fun y =>
      (List.range (blkSize d3 bs k)).flatMap fun z =>
      [Ev.pt ⟨i * (bs * (d2 * d3)) + j * (bs * d3) + k * bs + x * (d2 * d3) + y * d3 + z,
        base + (x + 1) * off0 + (y + 1) * off1 + 1 + z, x, y, z⟩]

theorem plan3_closed (d1 d2 d3 bs : Nat) (hd : 0 < d3) (hb : 0 < bs) :
    plan3 d1 d2 d3 bs = (List.range (numBlk d1 bs)).flatMap fun i =>
      ((List.range (numBlk d2 bs)).flatMap fun j => (List.range (numBlk d3 bs)).flatMap fun k =>
        blk3 d1 d2 d3 bs ((d2 + 1) * (d3 + 1)) (d3 + 1) (j * (bs * (d3 + 1)) + k * bs) i j k) ++
        [Ev.copy (bs * ((d2 + 1) * (d3 + 1))) ((d2 + 1) * (d3 + 1))] := by
  have := loop_closed (fun i x =>
    let r := loop (fun j (s : Nat × Nat) =>
      let q := loop (fun k (s : Nat × Nat) =>
        (Ev.start s.1 (blkSize d1 bs i) (blkSize d2 bs j) (blkSize d3 bs k) ::
          blockEvs3 (d2 * d3) d3 ((d2 + 1) * (d3 + 1)) (d3 + 1) (blkSize d1 bs i)
            (blkSize d2 bs j) (blkSize d3 bs k) s.1 s.2,
         (s.1 + blkSize d3 bs k, s.2 + bs))) (numBlk d3 bs) s
      (q.1, (s.1 + bs * d3, q.2.2 + bs * (d3 + 1) - bs * numBlk d3 bs))) (numBlk d2 bs) (x, 0)
    (r.1 ++ [Ev.copy (bs * ((d2 + 1) * (d3 + 1))) ((d2 + 1) * (d3 + 1))], x + bs * (d2 * d3)))
    (fun i => i * (bs * (d2 * d3)))
    (fun i => ((List.range (numBlk d2 bs)).flatMap fun j =>
      (List.range (numBlk d3 bs)).flatMap fun k =>
        blk3 d1 d2 d3 bs ((d2 + 1) * (d3 + 1)) (d3 + 1) (j * (bs * (d3 + 1)) + k * bs) i j k) ++
        [Ev.copy (bs * ((d2 + 1) * (d3 + 1))) ((d2 + 1) * (d3 + 1))]) (numBlk d1 bs)
    (fun i _ => by
      have hin := loop_closed (fun j (s : Nat × Nat) =>
        let q := loop (fun k (s : Nat × Nat) =>
          (Ev.start s.1 (blkSize d1 bs i) (blkSize d2 bs j) (blkSize d3 bs k) ::
            blockEvs3 (d2 * d3) d3 ((d2 + 1) * (d3 + 1)) (d3 + 1) (blkSize d1 bs i)
              (blkSize d2 bs j) (blkSize d3 bs k) s.1 s.2,
           (s.1 + blkSize d3 bs k, s.2 + bs))) (numBlk d3 bs) s
        (q.1, (s.1 + bs * d3, q.2.2 + bs * (d3 + 1) - bs * numBlk d3 bs)))
        (fun j => (i * (bs * (d2 * d3)) + j * (bs * d3), j * (bs * (d3 + 1))))
        (fun j => (List.range (numBlk d3 bs)).flatMap fun k =>
          blk3 d1 d2 d3 bs ((d2 + 1) * (d3 + 1)) (d3 + 1) (j * (bs * (d3 + 1)) + k * bs) i j k)
        (numBlk d2 bs)
        (fun j _ => by
          have hk := loop_closed (fun k (s : Nat × Nat) =>
            (Ev.start s.1 (blkSize d1 bs i) (blkSize d2 bs j) (blkSize d3 bs k) ::
              blockEvs3 (d2 * d3) d3 ((d2 + 1) * (d3 + 1)) (d3 + 1) (blkSize d1 bs i)
                (blkSize d2 bs j) (blkSize d3 bs k) s.1 s.2,
             (s.1 + blkSize d3 bs k, s.2 + bs)))
            (fun k => (i * (bs * (d2 * d3)) + j * (bs * d3) + min d3 (k * bs),
              j * (bs * (d3 + 1)) + k * bs))
            (fun k => blk3 d1 d2 d3 bs ((d2 + 1) * (d3 + 1)) (d3 + 1)
              (j * (bs * (d3 + 1)) + k * bs) i j k) (numBlk d3 bs)
            (fun k hk => by
              rw [lt_numBlk hd hb] at hk
              simp only [Nat.min_eq_right hk.le]
              simp only [blockEvs3_closed, blk3, Prod.mk.injEq, true_and, Nat.add_mul k,
                Nat.one_mul]
              rw [blkSize_eq d3]
              omega)
          simp only [Nat.zero_mul, Nat.add_zero, Nat.min_zero] at hk
          simp only [hk, Prod.mk.injEq, true_and, Nat.add_mul j, Nat.one_mul]
          rw [Nat.mul_comm bs (numBlk d3 bs)]
          omega)
      simp only [Nat.zero_mul, Nat.add_zero] at hin
      simp only [hin, Nat.add_mul i, Nat.one_mul])
  simp only [Nat.zero_mul] at this
  unfold plan3
  rw [this]

theorem plan3i_closed (d1 d2 d3 bs : Nat) (hd : 0 < d3) (hb : 0 < bs) :
    plan3i d1 d2 d3 bs = (List.range (numBlk d1 bs)).flatMap fun i =>
      (List.range (numBlk d2 bs)).flatMap fun j => (List.range (numBlk d3 bs)).flatMap fun k =>
        blk3 d1 d2 d3 bs ((bs + 1) * (bs + 1)) (bs + 1) 0 i j k := by
  have := loop_closed (fun i x =>
    let r := loop (fun j y =>
      let q := loop (fun k z =>
        (Ev.start z (blkSize d1 bs i) (blkSize d2 bs j) (blkSize d3 bs k) ::
          blockEvs3 (d2 * d3) d3 ((bs + 1) * (bs + 1)) (bs + 1) (blkSize d1 bs i)
            (blkSize d2 bs j) (blkSize d3 bs k) z 0,
         z + blkSize d3 bs k)) (numBlk d3 bs) y
      (q.1, y + bs * d3)) (numBlk d2 bs) x
    (r.1, x + bs * (d2 * d3)))
    (fun i => i * (bs * (d2 * d3)))
    (fun i => (List.range (numBlk d2 bs)).flatMap fun j =>
      (List.range (numBlk d3 bs)).flatMap fun k =>
        blk3 d1 d2 d3 bs ((bs + 1) * (bs + 1)) (bs + 1) 0 i j k) (numBlk d1 bs)
    (fun i _ => by
      have hin := loop_closed (fun j y =>
        let q := loop (fun k z =>
          (Ev.start z (blkSize d1 bs i) (blkSize d2 bs j) (blkSize d3 bs k) ::
            blockEvs3 (d2 * d3) d3 ((bs + 1) * (bs + 1)) (bs + 1) (blkSize d1 bs i)
              (blkSize d2 bs j) (blkSize d3 bs k) z 0,
           z + blkSize d3 bs k)) (numBlk d3 bs) y
        (q.1, y + bs * d3))
        (fun j => i * (bs * (d2 * d3)) + j * (bs * d3))
        (fun j => (List.range (numBlk d3 bs)).flatMap fun k =>
          blk3 d1 d2 d3 bs ((bs + 1) * (bs + 1)) (bs + 1) 0 i j k)
        (numBlk d2 bs)
        (fun j _ => by
          have hk := loop_closed (fun k z =>
            (Ev.start z (blkSize d1 bs i) (blkSize d2 bs j) (blkSize d3 bs k) ::
              blockEvs3 (d2 * d3) d3 ((bs + 1) * (bs + 1)) (bs + 1) (blkSize d1 bs i)
                (blkSize d2 bs j) (blkSize d3 bs k) z 0,
             z + blkSize d3 bs k))
            (fun k => i * (bs * (d2 * d3)) + j * (bs * d3) + min d3 (k * bs))
            (fun k => blk3 d1 d2 d3 bs ((bs + 1) * (bs + 1)) (bs + 1) 0 i j k) (numBlk d3 bs)
            (fun k hk => by
              rw [lt_numBlk hd hb] at hk
              simp only [Nat.min_eq_right hk.le]
              simp only [blockEvs3_closed, blk3, Prod.mk.injEq, true_and, Nat.add_mul k,
                Nat.one_mul]
              rw [blkSize_eq d3]
              omega)
          simp only [Nat.zero_mul, Nat.add_zero, Nat.min_zero] at hk
          simp only [hk, Prod.mk.injEq, true_and, Nat.add_mul j, Nat.one_mul]
          omega)
      simp only [Nat.zero_mul, Nat.add_zero] at hin
      simp only [hin, Nat.add_mul i, Nat.one_mul])
  simp only [Nat.zero_mul] at this
  unfold plan3i
  rw [this]

/-! ### Tiling -/

theorem positions_append (a b : List Ev) : positions (a ++ b) = positions a ++ positions b := by
  induction a with
  | nil => rfl
  | cons e a ih => cases e <;> simp [positions, ih]

theorem positions_flatMap {α : Type} (l : List α) (f : α → List Ev) :
    positions (l.flatMap f) = l.flatMap fun a => positions (f a) := by
  induction l with
  | nil => rfl
  | cons a l ih => simp only [List.flatMap_cons, positions_append, ih]

theorem starts_append (a b : List Ev) : starts (a ++ b) = starts a + starts b := by
  induction a with
  | nil => simp [starts]
  | cons e a ih => cases e <;> (simp [starts, ih]; try omega)

theorem starts_flatMap {α : Type} (l : List α) (f : α → List Ev) (c : Nat)
    (h : ∀ a ∈ l, starts (f a) = c) : starts (l.flatMap f) = l.length * c := by
  induction l with
  | nil => simp [starts]
  | cons a l ih =>
    rw [List.flatMap_cons, starts_append, h a (by simp), ih (fun a ha => h a (by simp [ha])),
      List.length_cons, Nat.add_mul]
    omega

/-- The blocks of one dimension concatenate to the whole range. -/
theorem blocks_range (d bs : Nat) (hd : 0 < d) (hb : 0 < bs) :
    ((List.range (numBlk d bs)).flatMap fun i =>
      (List.range (blkSize d bs i)).map fun l => i * bs + l) = List.range d := by
  have key : ∀ n, ((List.range n).flatMap fun i =>
      (List.range (blkSize d bs i)).map fun l => i * bs + l) = List.range (min d (n * bs)) := by
    intro n
    induction n with
    | zero => simp
    | succ n ih =>
      rw [List.range_succ, List.flatMap_append, ih, List.flatMap_cons, List.flatMap_nil,
        List.append_nil, Nat.add_mul, Nat.one_mul]
      rcases Nat.lt_or_ge (n * bs) d with h | h
      · have : min d (n * bs + bs) = min d (n * bs) + blkSize d bs n := by
          rw [blkSize_eq]; omega
        rw [this, List.range_add, Nat.min_eq_right h.le]
      · rw [blkSize_eq, Nat.sub_eq_zero_of_le h, Nat.min_zero, List.range_zero, List.map_nil,
          List.append_nil, Nat.min_eq_left h, Nat.min_eq_left (by omega)]
  rw [key, Nat.min_eq_left]
  have := (lt_numBlk (i := numBlk d bs) hd hb)
  omega

theorem flatMap_swap {α β γ : Type} (l : List α) (m : List β) (f : α → β → List γ) :
    (l.flatMap fun a => m.flatMap fun b => f a b).Perm
      (m.flatMap fun b => l.flatMap fun a => f a b) := by
  induction l with
  | nil => simp
  | cons a l ih =>
    simp only [List.flatMap_cons]
    exact (ih.append_left _).trans (List.flatMap_append_perm m (fun b => f a b) _)

theorem flatMap_blocks {γ : Type} (d bs : Nat) (hd : 0 < d) (hb : 0 < bs) (f : Nat → List γ) :
    ((List.range (numBlk d bs)).flatMap fun i => (List.range (blkSize d bs i)).flatMap fun l =>
      f (i * bs + l)) = (List.range d).flatMap f := by
  rw [← blocks_range d bs hd hb, List.flatMap_assoc]
  simp only [List.flatMap_map]

theorem range_mul (a b : Nat) :
    ((List.range a).flatMap fun x => (List.range b).flatMap fun y => [x * b + y]) =
      List.range (a * b) := by
  induction a with
  | zero => simp
  | succ n ih =>
    rw [List.range_succ, List.flatMap_append, ih, Nat.add_mul, Nat.one_mul, List.range_add]
    simp only [List.flatMap_cons, List.flatMap_nil, List.append_nil]
    rw [← List.map_eq_flatMap]

theorem tiling2 (d1 d2 bs : Nat) (h1 : 0 < d1) (h2 : 0 < d2) (hb : 0 < bs) :
    (positions (planC2 d1 d2 bs)).Perm (List.range (d1 * d2)) := by
  rw [planC2_closed, positions_flatMap]
  simp only [positions_append, positions_flatMap, blk2, positions, List.append_nil]
  have e : ∀ i j x y, i * (bs * d2) + j * bs + x * d2 + y = (i * bs + x) * d2 + (j * bs + y) := by
    intros; ring
  simp only [e]
  refine (List.Perm.flatMap_left _ (fun i _ => flatMap_swap (List.range (numBlk d2 bs))
    (List.range (blkSize d1 bs i)) _)).trans ?_
  rw [flatMap_blocks d1 bs h1 hb (fun X => (List.range (numBlk d2 bs)).flatMap fun j =>
    (List.range (blkSize d2 bs j)).flatMap fun y => [X * d2 + (j * bs + y)])]
  have e2 : ∀ X, ((List.range (numBlk d2 bs)).flatMap fun j =>
      (List.range (blkSize d2 bs j)).flatMap fun y => [X * d2 + (j * bs + y)]) =
      (List.range d2).flatMap fun Y => [X * d2 + Y] := fun X =>
    flatMap_blocks d2 bs h2 hb (fun Y => [X * d2 + Y])
  simp only [e2, range_mul]
  exact List.Perm.refl _

theorem tiling3_aux (d1 d2 d3 bs off0 off1 : Nat) (base : Nat → Nat → Nat → Nat) (h1 : 0 < d1)
    (h2 : 0 < d2) (h3 : 0 < d3) (hb : 0 < bs) :
    ((List.range (numBlk d1 bs)).flatMap fun i => (List.range (numBlk d2 bs)).flatMap fun j =>
      (List.range (numBlk d3 bs)).flatMap fun k =>
        positions (blk3 d1 d2 d3 bs off0 off1 (base i j k) i j k)).Perm
      (List.range (d1 * d2 * d3)) := by
  simp only [positions_flatMap, blk3, positions]
  have e : ∀ i j k x y z, i * (bs * (d2 * d3)) + j * (bs * d3) + k * bs + x * (d2 * d3) + y * d3 + z
      = ((i * bs + x) * d2 + (j * bs + y)) * d3 + (k * bs + z) := by
    intros; ring
  simp only [e]
  -- move `x` before `j` and `k`, then `y` before `k`
  refine (List.Perm.flatMap_left _ (fun i _ => (List.Perm.flatMap_left _ (fun j _ =>
    flatMap_swap (List.range (numBlk d3 bs)) (List.range (blkSize d1 bs i)) _)).trans
      (flatMap_swap (List.range (numBlk d2 bs)) (List.range (blkSize d1 bs i)) _))).trans ?_
  rw [flatMap_blocks d1 bs h1 hb (fun X => (List.range (numBlk d2 bs)).flatMap fun j =>
    (List.range (numBlk d3 bs)).flatMap fun k => (List.range (blkSize d2 bs j)).flatMap fun y =>
      (List.range (blkSize d3 bs k)).flatMap fun z =>
        [(X * d2 + (j * bs + y)) * d3 + (k * bs + z)])]
  refine (List.Perm.flatMap_left _ (fun X _ => List.Perm.flatMap_left _ (fun j _ =>
    flatMap_swap (List.range (numBlk d3 bs)) (List.range (blkSize d2 bs j)) _))).trans ?_
  have e3 : ∀ X Y, ((List.range (numBlk d3 bs)).flatMap fun k =>
      (List.range (blkSize d3 bs k)).flatMap fun z => [(X * d2 + Y) * d3 + (k * bs + z)]) =
      (List.range d3).flatMap fun Z => [(X * d2 + Y) * d3 + Z] := fun X Y =>
    flatMap_blocks d3 bs h3 hb (fun Z => [(X * d2 + Y) * d3 + Z])
  simp only [e3]
  have e2 : ∀ X, ((List.range (numBlk d2 bs)).flatMap fun j =>
      (List.range (blkSize d2 bs j)).flatMap fun y =>
        (List.range d3).flatMap fun Z => [(X * d2 + (j * bs + y)) * d3 + Z]) =
      (List.range d2).flatMap fun Y => (List.range d3).flatMap fun Z => [(X * d2 + Y) * d3 + Z] :=
    fun X => flatMap_blocks d2 bs h2 hb
      (fun Y => (List.range d3).flatMap fun Z => [(X * d2 + Y) * d3 + Z])
  simp only [e2]
  have e4 : ((List.range d1).flatMap fun X => (List.range d2).flatMap fun Y =>
      (List.range d3).flatMap fun Z => [(X * d2 + Y) * d3 + Z]) = List.range (d1 * d2 * d3) := by
    rw [← range_mul (d1 * d2) d3, ← range_mul d1 d2, List.flatMap_assoc]
    simp only [List.flatMap_assoc, List.flatMap_cons, List.flatMap_nil, List.append_nil]
  rw [e4]

theorem tiling3 (d1 d2 d3 bs : Nat) (h1 : 0 < d1) (h2 : 0 < d2) (h3 : 0 < d3) (hb : 0 < bs) :
    (positions (plan3 d1 d2 d3 bs)).Perm (List.range (d1 * d2 * d3)) := by
  rw [plan3_closed _ _ _ _ h3 hb, positions_flatMap]
  simp only [positions_append, positions_flatMap, positions, List.append_nil]
  exact tiling3_aux d1 d2 d3 bs _ _ (fun _ j k => j * (bs * (d3 + 1)) + k * bs) h1 h2 h3 hb

theorem tiling3i (d1 d2 d3 bs : Nat) (h1 : 0 < d1) (h2 : 0 < d2) (h3 : 0 < d3) (hb : 0 < bs) :
    (positions (plan3i d1 d2 d3 bs)).Perm (List.range (d1 * d2 * d3)) := by
  rw [plan3i_closed _ _ _ _ h3 hb, positions_flatMap]
  simp only [positions_flatMap]
  exact tiling3_aux d1 d2 d3 bs _ _ (fun _ _ _ => 0) h1 h2 h3 hb

end CpSZ.Block
