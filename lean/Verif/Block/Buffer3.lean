import Verif.Block.Buffer
/-
The prediction buffers of the 3D block codecs.  With dependent blocks the rolling buffer holds
exactly the reconstructed neighbours, so that predictions equal Lorenzo predictions on the
whole reconstructed grid, padded with zeros; with independent blocks they equal Lorenzo
predictions on the block alone, padded with zeros.
-/

namespace CpSZ.Block.Buf3

variable {T F D : Type}

/-- Row-major offset of `(a, b, c)` in an array whose last two dimensions are `n2` and `n3`. -/
def idx3 (n2 n3 a b c : Nat) : Nat := a * (n2 * n3) + b * n3 + c

/-- Specification: value at the one-based coordinates `(A, B, C)` of a row-major grid of which
only the part beyond the corner `o` exists; everything before the corner counts as zero. -/
def padAt (zero : T) (d2 d3 : Nat) (o : Nat × Nat × Nat) (R : Nat → T) (A B C : Nat) : T :=
  if A ≤ o.1 ∨ B ≤ o.2.1 ∨ C ≤ o.2.2 then zero else R (idx3 d2 d3 (A - 1) (B - 1) (C - 1))

/-- Specification: the 3D Lorenzo prediction at `(X, Y, Z)` from the part of a row-major grid
that begins at the corner `o`. -/
def lorGrid3 (B : BOps T F D) (d2 d3 : Nat) (o : Nat × Nat × Nat) (R : Nat → T)
    (X Y Z : Nat) : F :=
  B.lor3 (padAt B.zeroT d2 d3 o R (X + 1) (Y + 1) Z) (padAt B.zeroT d2 d3 o R (X + 1) Y (Z + 1))
    (padAt B.zeroT d2 d3 o R X (Y + 1) (Z + 1)) (padAt B.zeroT d2 d3 o R (X + 1) Y Z)
    (padAt B.zeroT d2 d3 o R X (Y + 1) Z) (padAt B.zeroT d2 d3 o R X Y (Z + 1))
    (padAt B.zeroT d2 d3 o R X Y Z)

/-- Corner of the block that contains `(X, Y, Z)`. -/
def corner (bs X Y Z : Nat) : Nat × Nat × Nat := (X / bs * bs, Y / bs * bs, Z / bs * bs)

/-- Where the visible part of the grid begins: at the grid's corner, or at that of the block. -/
def org (indep : Bool) (bs X Y Z : Nat) : Nat × Nat × Nat :=
  if indep then corner bs X Y Z else (0, 0, 0)

/-- The arguments with which the predictor of the block containing `(X, Y, Z)` is chosen. -/
def selAt {α : Type} (sel : Nat → Nat → Nat → Nat → α) (d1 d2 d3 bs X Y Z : Nat) : α :=
  sel (idx3 d2 d3 (X / bs * bs) (Y / bs * bs) (Z / bs * bs)) (min bs (d1 - X / bs * bs))
    (min bs (d2 - Y / bs * bs)) (min bs (d3 - Z / bs * bs))

/-! ### Index arithmetic -/

theorem idx3_inj {n2 n3 a b c a' b' c' : Nat} (h : idx3 n2 n3 a b c = idx3 n2 n3 a' b' c')
    (hb : b < n2) (hc : c < n3) (hb' : b' < n2) (hc' : c' < n3) : a = a' ∧ b = b' ∧ c = c' := by
  unfold idx3 at h
  have e : ∀ a b c, a * (n2 * n3) + b * n3 + c = (a * n2 + b) * n3 + c := fun a b c => by ring
  rw [e, e] at h
  obtain ⟨h1, h2⟩ := idx_inj h hc hc'
  obtain ⟨h3, h4⟩ := idx_inj h1 hb hb'
  exact ⟨h3, h4, h2⟩

theorem idx3_zero_lt {n2 n3 b c : Nat} (hb : b < n2) (hc : c < n3) :
    idx3 n2 n3 0 b c < n2 * n3 := by
  unfold idx3
  have : (b + 1) * n3 ≤ n2 * n3 := Nat.mul_le_mul_right _ hb
  rw [Nat.add_mul] at this
  omega

theorem idx3_div {d2 d3 X Y Z : Nat} (hY : Y < d2) (hZ : Z < d3) :
    idx3 d2 d3 X Y Z / d3 / d2 = X ∧ idx3 d2 d3 X Y Z / d3 % d2 = Y ∧
      idx3 d2 d3 X Y Z % d3 = Z := by
  have e : idx3 d2 d3 X Y Z = (X * d2 + Y) * d3 + Z := by unfold idx3; ring
  rw [e, (grid_div hZ).1, (grid_div hZ).2, (grid_div hY).1, (grid_div hY).2]
  exact ⟨rfl, rfl, rfl⟩

theorem idx3_of_div (d2 d3 p : Nat) : idx3 d2 d3 (p / d3 / d2) (p / d3 % d2) (p % d3) = p := by
  have e : idx3 d2 d3 (p / d3 / d2) (p / d3 % d2) (p % d3) =
      (d2 * (p / d3 / d2) + p / d3 % d2) * d3 + p % d3 := by unfold idx3; ring
  rw [e, Nat.div_add_mod, Nat.mul_comm]
  exact Nat.div_add_mod _ _

theorem idx3_lt {d1 d2 d3 X Y Z : Nat} (hX : X < d1) (hY : Y < d2) (hZ : Z < d3) :
    idx3 d2 d3 X Y Z < d1 * d2 * d3 := by
  have h1 := idx3_zero_lt hY hZ
  have h2 : (X + 1) * (d2 * d3) ≤ d1 * (d2 * d3) := Nat.mul_le_mul_right _ hX
  unfold idx3 at *
  rw [Nat.mul_assoc]
  rw [Nat.add_mul] at h2
  omega

theorem idx3_mono {d2 d3 X Y Z A B C : Nat} (hA : A ≤ X) (hB : B ≤ Y) (hC : C ≤ Z) :
    idx3 d2 d3 A B C ≤ idx3 d2 d3 X Y Z := by
  unfold idx3
  have h1 : A * (d2 * d3) ≤ X * (d2 * d3) := Nat.mul_le_mul_right _ hA
  have h2 : B * d3 ≤ Y * d3 := Nat.mul_le_mul_right _ hB
  omega

/-! ### Traversals -/

/-- State of a traversal: corner of the buffer in the padded grid, corner of the current
block, visited points. -/
structure VSt where
  ux : Nat
  uy : Nat
  uz : Nat
  c : Nat × Nat × Nat
  done : Nat → Nat → Nat → Prop

/-- Dimensions: those of the grid, the block size, whether blocks are independent. -/
structure Geo where
  d1 : Nat
  d2 : Nat
  d3 : Nat
  bs : Nat
  indep : Bool

def Geo.n2 (g : Geo) : Nat := if g.indep then g.bs + 1 else g.d2 + 1
def Geo.n3 (g : Geo) : Nat := if g.indep then g.bs + 1 else g.d3 + 1

/-- The part of the padded grid that counts as zero. -/
def Geo.border (g : Geo) (s : VSt) (A B C : Nat) : Prop :=
  if g.indep then A ≤ s.ux ∨ B ≤ s.uy ∨ C ≤ s.uz else A = 0 ∨ B = 0 ∨ C = 0

/-- What a traversal may do, and what holds after it (`post`). -/
def Valid (g : Geo) : VSt → List Ev → (VSt → Prop) → Prop
  | s, [], post => post s
  | s, .start o sx sy sz :: es, post => ∃ X Y Z, o = idx3 g.d2 g.d3 X Y Z ∧
      sx = min g.bs (g.d1 - X) ∧ sy = min g.bs (g.d2 - Y) ∧ sz = min g.bs (g.d3 - Z) ∧
      (g.indep = true → ∀ X' Y' Z', s.done X' Y' Z' → ¬ (X ≤ X' ∧ X' < X + g.bs ∧ Y ≤ Y' ∧
        Y' < Y + g.bs ∧ Z ≤ Z' ∧ Z' < Z + g.bs)) ∧
      Valid g (if g.indep then ⟨X, Y, Z, (X, Y, Z), s.done⟩
        else ⟨s.ux, s.uy, s.uz, (X, Y, Z), s.done⟩) es post
  | s, .pt p :: es, post => ∃ X Y Z, p.pos = idx3 g.d2 g.d3 X Y Z ∧ X < g.d1 ∧ Y < g.d2 ∧
      Z < g.d3 ∧ s.ux ≤ X ∧ X < s.ux + g.bs ∧ s.uy ≤ Y ∧ Y + 1 - s.uy < g.n2 ∧
      s.uz ≤ Z ∧ Z + 1 - s.uz < g.n3 ∧
      p.buf = idx3 g.n2 g.n3 (X + 1 - s.ux) (Y + 1 - s.uy) (Z + 1 - s.uz) ∧
      s.c = corner g.bs X Y Z ∧
      (∀ A B C, X ≤ A → A ≤ X + 1 → Y ≤ B → B ≤ Y + 1 → Z ≤ C → C ≤ Z + 1 →
        ¬ (A = X + 1 ∧ B = Y + 1 ∧ C = Z + 1) → ¬ g.border s A B C →
        s.done (A - 1) (B - 1) (C - 1)) ∧
      ¬ s.done X Y Z ∧
      Valid g { s with done := fun X' Y' Z' => s.done X' Y' Z' ∨ (X' = X ∧ Y' = Y ∧ Z' = Z) } es
        post
  | s, .copy src len :: es, post => g.indep = false ∧ src = g.bs * (g.n2 * g.n3) ∧
      len = g.n2 * g.n3 ∧ Valid g { s with ux := s.ux + g.bs } es post

theorem Valid_append (g : Geo) (l1 l2 : List Ev) (s : VSt) (post : VSt → Prop) :
    Valid g s (l1 ++ l2) post ↔ Valid g s l1 (fun s => Valid g s l2 post) := by
  induction l1 generalizing s with
  | nil => exact Iff.rfl
  | cons e l1 ih => cases e <;> simp only [List.cons_append, Valid, ih]

theorem Valid_mono (g : Geo) (l : List Ev) (s : VSt) (post post' : VSt → Prop)
    (h : ∀ s, post s → post' s) (hv : Valid g s l post) : Valid g s l post' := by
  induction l generalizing s with
  | nil => exact h _ hv
  | cons e l ih =>
    cases e with
    | start =>
      obtain ⟨X, Y, Z, a, b, c, d, e, f⟩ := hv
      exact ⟨X, Y, Z, a, b, c, d, e, ih _ f⟩
    | copy =>
      obtain ⟨a, b, c, d⟩ := hv
      exact ⟨a, b, c, ih _ d⟩
    | pt p =>
      obtain ⟨X, Y, Z, a, b, c, d, e, f, g, h, i, j, k, l, m, n, o⟩ := hv
      exact ⟨X, Y, Z, a, b, c, d, e, f, g, h, i, j, k, l, m, n, ih _ o⟩

theorem Valid_flatMap (g : Geo) (n : Nat) (f : Nat → List Ev) (I : Nat → VSt → Prop)
    (h : ∀ k < n, ∀ s, I k s → Valid g s (f k) (I (k + 1))) (s : VSt) (h0 : I 0 s) :
    Valid g s ((List.range n).flatMap f) (I n) := by
  induction n with
  | zero => exact h0
  | succ n ih =>
    rw [List.range_succ, List.flatMap_append, Valid_append]
    refine Valid_mono _ _ _ _ _ (fun s' h' => ?_) (ih (fun k hk => h k (by omega)))
    simp only [List.flatMap_cons, List.flatMap_nil, List.append_nil]
    exact h n (by omega) s' h'

/-- The visited points when the traversal is at `(x, y, z)` inside the block with corner
`(a, b, c)`. -/
def Done (g : Geo) (a b c x y z X Y Z : Nat) : Prop :=
  X < g.d1 ∧ Y < g.d2 ∧ Z < g.d3 ∧ (X < a ∨ (X < a + g.bs ∧ (Y < b ∨ (Y < b + g.bs ∧
    (Z < c ∨ (Z < c + g.bs ∧ (X < a + x ∨ (X = a + x ∧ (Y < b + y ∨
      (Y = b + y ∧ Z < c + z))))))))))

theorem cover (d bs : Nat) (h : 0 < d) (hb : 0 < bs) : d ≤ numBlk d bs * bs := by
  by_contra hc
  have := (lt_numBlk (i := numBlk d bs) h hb).2 (by omega)
  omega

theorem div_block {bs i x : Nat} (hx : x < bs) : (i * bs + x) / bs * bs = i * bs := by
  rw [(grid_div hx).1]

/-- One block. -/
theorem block_valid (g : Geo) (hb : 0 < g.bs) (base i j k : Nat) (hi : i * g.bs < g.d1)
    (hj : j * g.bs < g.d2) (hk : k * g.bs < g.d3) (s : VSt)
    (hu : g.indep = false → s.ux = i * g.bs ∧ s.uy = 0 ∧ s.uz = 0)
    (hbase : base = if g.indep then 0 else j * (g.bs * g.n3) + k * g.bs)
    (hd : ∀ X Y Z, s.done X Y Z ↔ Done g (i * g.bs) (j * g.bs) (k * g.bs) 0 0 0 X Y Z) :
    Valid g s (blk3 g.d1 g.d2 g.d3 g.bs (g.n2 * g.n3) g.n3 base i j k) (fun s =>
      (g.indep = false → s.ux = i * g.bs ∧ s.uy = 0 ∧ s.uz = 0) ∧
      ∀ X Y Z, s.done X Y Z ↔ Done g (i * g.bs) (j * g.bs) ((k + 1) * g.bs) 0 0 0 X Y Z) := by
  unfold blk3
  simp only [Valid, blkSize_eq]
  refine ⟨i * g.bs, j * g.bs, k * g.bs, by unfold idx3; ring, rfl, rfl, rfl, ?_, ?_⟩
  · intro _ X Y Z h
    rw [hd] at h
    unfold Done at h
    omega
  generalize hs' : (if g.indep = true then
      (⟨i * g.bs, j * g.bs, k * g.bs, (i * g.bs, j * g.bs, k * g.bs), s.done⟩ : VSt)
    else ⟨s.ux, s.uy, s.uz, (i * g.bs, j * g.bs, k * g.bs), s.done⟩) = s'
  let U : VSt → Prop := fun t => t.c = (i * g.bs, j * g.bs, k * g.bs) ∧
    (if g.indep then t.ux = i * g.bs ∧ t.uy = j * g.bs ∧ t.uz = k * g.bs
      else t.ux = i * g.bs ∧ t.uy = 0 ∧ t.uz = 0)
  have hU : U s' := by
    rw [← hs']
    cases hg : g.indep with
    | true => simp [U, hg]
    | false => simpa [U, hg] using hu hg
  have hd' : ∀ X Y Z, s'.done X Y Z ↔ Done g (i * g.bs) (j * g.bs) (k * g.bs) 0 0 0 X Y Z := by
    rw [← hs']
    split <;> exact hd
  refine Valid_mono _ _ _ _ _ ?_ (Valid_flatMap g (min g.bs (g.d1 - i * g.bs)) _
    (fun x t => U t ∧ ∀ X Y Z, t.done X Y Z ↔
      Done g (i * g.bs) (j * g.bs) (k * g.bs) x 0 0 X Y Z) ?_ s' ⟨hU, hd'⟩)
  · rintro t ⟨⟨hc, ht⟩, h⟩
    refine ⟨fun hg => by simpa [hg] using ht, fun X Y Z => ?_⟩
    rw [h, Nat.add_mul, Nat.one_mul]
    unfold Done
    omega
  rintro x hx t ⟨hU, ht⟩
  refine Valid_mono _ _ _ _ _ ?_ (Valid_flatMap g (min g.bs (g.d2 - j * g.bs)) _
    (fun y t => U t ∧ ∀ X Y Z, t.done X Y Z ↔
      Done g (i * g.bs) (j * g.bs) (k * g.bs) x y 0 X Y Z) ?_ t ⟨hU, ht⟩)
  · rintro t ⟨hU, h⟩
    refine ⟨hU, fun X Y Z => ?_⟩
    rw [h]
    unfold Done
    omega
  clear hU ht t
  rintro y hy t ⟨hU, ht⟩
  refine Valid_mono _ _ _ _ _ ?_ (Valid_flatMap g (min g.bs (g.d3 - k * g.bs)) _
    (fun z t => U t ∧ ∀ X Y Z, t.done X Y Z ↔
      Done g (i * g.bs) (j * g.bs) (k * g.bs) x y z X Y Z) ?_ t ⟨hU, ht⟩)
  · rintro t ⟨hU, h⟩
    refine ⟨hU, fun X Y Z => ?_⟩
    rw [h]
    unfold Done
    omega
  clear hU ht t
  rintro z hz t ⟨⟨hc, hu⟩, ht⟩
  have e1 : i * g.bs + x + 1 - i * g.bs = x + 1 := by omega
  refine ⟨i * g.bs + x, j * g.bs + y, k * g.bs + z, ?_, by omega, by omega, by omega, ?_, ?_, ?_,
    ?_, ?_, ?_, ?_, ?_, ?_, ?_, ⟨hc, hu⟩, fun X Y Z => ?_⟩
  · simp only [idx3]
    ring
  · split at hu <;> omega
  · split at hu <;> omega
  · split at hu <;> omega
  · unfold Geo.n2
    split at hu
    · rename_i hg
      rw [if_pos hg]; omega
    · rename_i hg
      rw [if_neg hg]; omega
  · split at hu <;> omega
  · unfold Geo.n3
    split at hu
    · rename_i hg
      rw [if_pos hg]; omega
    · rename_i hg
      rw [if_neg hg]; omega
  · cases hg : g.indep with
    | true =>
      simp only [hg, if_true] at hu hbase
      rw [hu.1, hu.2.1, hu.2.2, hbase]
      have e2 : j * g.bs + y + 1 - j * g.bs = y + 1 := by omega
      have e3 : k * g.bs + z + 1 - k * g.bs = z + 1 := by omega
      rw [e1, e2, e3]
      simp only [idx3]
      omega
    | false =>
      simp only [hg, Bool.false_eq_true, if_false] at hu hbase
      rw [hu.1, hu.2.1, hu.2.2, hbase, e1]
      simp only [Nat.sub_zero]
      unfold idx3
      ring
  · rw [hc]
    unfold corner
    rw [div_block (by omega), div_block (by omega), div_block (by omega)]
  · intro A B C a1 a2 b1 b2 c1 c2 hne hnb
    rw [ht]
    unfold Geo.border at hnb
    unfold Done
    split at hnb
    · rename_i hg
      rw [if_pos hg] at hu
      omega
    · omega
  · rw [ht]; unfold Done; omega
  · simp only [ht]; unfold Done; omega

def plan (g : Geo) : List Ev := plan3d g.indep g.d1 g.d2 g.d3 g.bs

theorem plan_valid (g : Geo) (h1 : 0 < g.d1) (h2 : 0 < g.d2) (h3 : 0 < g.d3) (hb : 0 < g.bs) :
    Valid g ⟨0, 0, 0, (0, 0, 0), fun _ _ _ => False⟩ (plan g)
      (fun s => ∀ X Y Z, s.done X Y Z ↔ (X < g.d1 ∧ Y < g.d2 ∧ Z < g.d3)) := by
  have c1 := cover g.d1 g.bs h1 hb
  have c2 := cover g.d2 g.bs h2 hb
  have c3 := cover g.d3 g.bs h3 hb
  have inner : ∀ base : Nat → Nat → Nat → Nat, (∀ i j k, base i j k =
      if g.indep then 0 else j * (g.bs * g.n3) + k * g.bs) → ∀ i < numBlk g.d1 g.bs, ∀ s : VSt,
      (g.indep = false → s.ux = i * g.bs ∧ s.uy = 0 ∧ s.uz = 0) →
      (∀ X Y Z, s.done X Y Z ↔ Done g (i * g.bs) 0 0 0 0 0 X Y Z) →
      Valid g s ((List.range (numBlk g.d2 g.bs)).flatMap fun j =>
        (List.range (numBlk g.d3 g.bs)).flatMap fun k =>
          blk3 g.d1 g.d2 g.d3 g.bs (g.n2 * g.n3) g.n3 (base i j k) i j k) (fun s =>
        (g.indep = false → s.ux = i * g.bs ∧ s.uy = 0 ∧ s.uz = 0) ∧
        ∀ X Y Z, s.done X Y Z ↔ Done g ((i + 1) * g.bs) 0 0 0 0 0 X Y Z) := by
    intro base hbase i hi s hu hd
    rw [lt_numBlk h1 hb] at hi
    refine Valid_mono _ _ _ _ _ ?_ (Valid_flatMap g (numBlk g.d2 g.bs) _
      (fun j s => (g.indep = false → s.ux = i * g.bs ∧ s.uy = 0 ∧ s.uz = 0) ∧
        ∀ X Y Z, s.done X Y Z ↔ Done g (i * g.bs) (j * g.bs) 0 0 0 0 X Y Z) ?_ s
      ⟨hu, by simpa using hd⟩)
    · rintro t ⟨ht, h⟩
      refine ⟨ht, fun X Y Z => ?_⟩
      rw [h, Nat.add_mul, Nat.one_mul]
      unfold Done
      omega
    · rintro j hj t ⟨ht, h⟩
      rw [lt_numBlk h2 hb] at hj
      refine Valid_mono _ _ _ _ _ ?_ (Valid_flatMap g (numBlk g.d3 g.bs) _
        (fun k s => (g.indep = false → s.ux = i * g.bs ∧ s.uy = 0 ∧ s.uz = 0) ∧
          ∀ X Y Z, s.done X Y Z ↔ Done g (i * g.bs) (j * g.bs) (k * g.bs) 0 0 0 X Y Z) ?_ t
        ⟨ht, by simpa using h⟩)
      · rintro t ⟨ht, h⟩
        refine ⟨ht, fun X Y Z => ?_⟩
        rw [h, Nat.add_mul, Nat.one_mul]
        unfold Done
        omega
      · rintro k hk t ⟨ht, h⟩
        rw [lt_numBlk h3 hb] at hk
        exact block_valid g hb _ i j k hi hj hk t ht (hbase i j k) h
  have start : ∀ X Y Z, (False ↔ Done g (0 * g.bs) 0 0 0 0 0 X Y Z) := by
    intro X Y Z
    unfold Done
    rw [Nat.zero_mul, false_iff]
    omega
  have fin : ∀ X Y Z, Done g (numBlk g.d1 g.bs * g.bs) 0 0 0 0 0 X Y Z ↔
      (X < g.d1 ∧ Y < g.d2 ∧ Z < g.d3) := by
    intro X Y Z
    unfold Done
    omega
  unfold plan plan3d
  cases hg : g.indep with
  | true =>
    rw [if_pos rfl, plan3i_closed _ _ _ _ h3 hb]
    have hn2 : g.n2 = g.bs + 1 := by simp [Geo.n2, hg]
    have hn3 : g.n3 = g.bs + 1 := by simp [Geo.n3, hg]
    refine Valid_mono _ _ _ _ _ ?_ (Valid_flatMap g (numBlk g.d1 g.bs) _
      (fun i s => ∀ X Y Z, s.done X Y Z ↔ Done g (i * g.bs) 0 0 0 0 0 X Y Z) ?_ _ start)
    · intro s h X Y Z
      rw [h, fin]
    · intro i hi s h
      have := inner (fun _ _ _ => 0) (fun _ _ _ => by rw [if_pos hg]) i hi s
        (fun h => by rw [hg] at h; cases h) h
      rw [hn2, hn3] at this
      exact Valid_mono _ _ _ _ _ (fun s h => h.2) this
  | false =>
    rw [if_neg (by decide), plan3_closed _ _ _ _ h3 hb]
    have hn2 : g.n2 = g.d2 + 1 := by simp [Geo.n2, hg]
    have hn3 : g.n3 = g.d3 + 1 := by simp [Geo.n3, hg]
    refine Valid_mono _ _ _ _ _ ?_ (Valid_flatMap g (numBlk g.d1 g.bs) _
      (fun i s => (s.ux = i * g.bs ∧ s.uy = 0 ∧ s.uz = 0) ∧
        ∀ X Y Z, s.done X Y Z ↔ Done g (i * g.bs) 0 0 0 0 0 X Y Z) ?_ _
      ⟨⟨by simp, rfl, rfl⟩, start⟩)
    · rintro s ⟨-, h⟩ X Y Z
      rw [h, fin]
    · rintro i hi s ⟨hu, h⟩
      have := inner (fun _ j k => j * (g.bs * g.n3) + k * g.bs)
        (fun _ _ _ => by rw [if_neg (by rw [hg]; decide)]) i hi s (fun _ => hu) h
      rw [hn2, hn3] at this
      rw [Valid_append]
      refine Valid_mono _ _ _ _ _ ?_ this
      rintro t ⟨ht, h'⟩
      have ht := ht hg
      refine ⟨hg, by rw [hn2, hn3], by rw [hn2, hn3], ⟨?_, ht.2⟩, h'⟩
      show t.ux + g.bs = _
      rw [ht.1, Nat.add_mul, Nat.one_mul]

/-! ### The buffer -/

/-- What the buffer holds: zeros on the border, reconstructed values elsewhere (the latter only
while points are stored, that is, not inside a regression block of the codec with independent
blocks). -/
structure Inv (zero : T) (g : Geo) (s : VSt) (live : Prop) (buf R : Nat → T) : Prop where
  dom : ∀ X Y Z, s.done X Y Z → Y < g.d2 ∧ Z < g.d3 ∧ (g.indep = false → X < s.ux + g.bs)
  orig : g.indep = false → s.uy = 0 ∧ s.uz = 0
  zero : ∀ a ≤ g.bs, ∀ b < g.n2, ∀ c < g.n3, g.border s (s.ux + a) (s.uy + b) (s.uz + c) →
    buf (idx3 g.n2 g.n3 a b c) = zero
  val : live → ∀ a ≤ g.bs, ∀ b < g.n2, ∀ c < g.n3,
    ¬ g.border s (s.ux + a) (s.uy + b) (s.uz + c) →
    s.done (s.ux + a - 1) (s.uy + b - 1) (s.uz + c - 1) →
    buf (idx3 g.n2 g.n3 a b c) = R (idx3 g.d2 g.d3 (s.ux + a - 1) (s.uy + b - 1) (s.uz + c - 1))

/-- The border is what the specification treats as zero. -/
theorem border_iff (g : Geo) (s : VSt) (X Y Z A B C : Nat) (hc : s.c = corner g.bs X Y Z)
    (hu : g.indep = true → s.c = (s.ux, s.uy, s.uz)) :
    g.border s A B C ↔ (A ≤ (org g.indep g.bs X Y Z).1 ∨ B ≤ (org g.indep g.bs X Y Z).2.1 ∨
      C ≤ (org g.indep g.bs X Y Z).2.2) := by
  unfold Geo.border org
  split
  · rename_i hg
    rw [← hc, hu hg]
  · simp

theorem Inv.lor {B : BOps T F D} {g : Geo} {s : VSt} {live : Prop} {buf R : Nat → T}
    (h : Inv B.zeroT g s live buf R) (hl : live) (X Y Z : Nat) (hX : s.ux ≤ X)
    (hX' : X < s.ux + g.bs) (hY : s.uy ≤ Y) (hY' : Y + 1 - s.uy < g.n2) (hZ : s.uz ≤ Z)
    (hZ' : Z + 1 - s.uz < g.n3) (hc : s.c = corner g.bs X Y Z)
    (hu : g.indep = true → s.c = (s.ux, s.uy, s.uz))
    (hn : ∀ A B C, X ≤ A → A ≤ X + 1 → Y ≤ B → B ≤ Y + 1 → Z ≤ C → C ≤ Z + 1 →
        ¬ (A = X + 1 ∧ B = Y + 1 ∧ C = Z + 1) → ¬ g.border s A B C →
        s.done (A - 1) (B - 1) (C - 1)) :
    lorAt3 B (g.n2 * g.n3) g.n3 buf
      (idx3 g.n2 g.n3 (X + 1 - s.ux) (Y + 1 - s.uy) (Z + 1 - s.uz)) =
      lorGrid3 B g.d2 g.d3 (org g.indep g.bs X Y Z) R X Y Z := by
  obtain ⟨a, rfl⟩ : ∃ a, X = s.ux + a := ⟨X - s.ux, by omega⟩
  obtain ⟨b, rfl⟩ : ∃ b, Y = s.uy + b := ⟨Y - s.uy, by omega⟩
  obtain ⟨c, rfl⟩ : ∃ c, Z = s.uz + c := ⟨Z - s.uz, by omega⟩
  have key : ∀ a' b' c', a ≤ a' → a' ≤ a + 1 → b ≤ b' → b' ≤ b + 1 → c ≤ c' → c' ≤ c + 1 →
      ¬ (a' = a + 1 ∧ b' = b + 1 ∧ c' = c + 1) → buf (idx3 g.n2 g.n3 a' b' c') =
      padAt B.zeroT g.d2 g.d3 (org g.indep g.bs (s.ux + a) (s.uy + b) (s.uz + c)) R
        (s.ux + a') (s.uy + b') (s.uz + c') := by
    intro a' b' c' a1 a2 b1 b2 c1 c2 hne
    have hbi := border_iff g s _ _ _ (s.ux + a') (s.uy + b') (s.uz + c') hc hu
    unfold padAt
    by_cases hbd : g.border s (s.ux + a') (s.uy + b') (s.uz + c')
    · rw [if_pos (hbi.1 hbd)]
      exact h.zero a' (by omega) b' (by omega) c' (by omega) hbd
    · rw [if_neg (fun h => hbd (hbi.2 h))]
      exact h.val hl a' (by omega) b' (by omega) c' (by omega) hbd
        (hn _ _ _ (by omega) (by omega) (by omega) (by omega) (by omega) (by omega) (by omega)
          hbd)
  rw [show s.ux + a + 1 - s.ux = a + 1 by omega, show s.uy + b + 1 - s.uy = b + 1 by omega,
    show s.uz + c + 1 - s.uz = c + 1 by omega]
  have i1 : idx3 g.n2 g.n3 (a + 1) (b + 1) (c + 1) - 1 = idx3 g.n2 g.n3 (a + 1) (b + 1) c := by
    unfold idx3; omega
  have i2 : ∀ a c, idx3 g.n2 g.n3 a (b + 1) c - g.n3 = idx3 g.n2 g.n3 a b c := by
    intro a c; unfold idx3; rw [Nat.add_mul b]; omega
  have i3 : ∀ b c, idx3 g.n2 g.n3 (a + 1) b c - g.n2 * g.n3 = idx3 g.n2 g.n3 a b c := by
    intro b c; unfold idx3; rw [Nat.add_mul a]; omega
  have i4 : ∀ a b, idx3 g.n2 g.n3 a b (c + 1) - 1 = idx3 g.n2 g.n3 a b c := by
    intro a b; unfold idx3; omega
  unfold lorAt3 lorGrid3
  simp only [i2, i3, i4]
  rw [key (a + 1) (b + 1) c (by omega) (by omega) (by omega) (by omega) (by omega) (by omega)
      (by omega),
    key (a + 1) b (c + 1) (by omega) (by omega) (by omega) (by omega) (by omega) (by omega)
      (by omega),
    key a (b + 1) (c + 1) (by omega) (by omega) (by omega) (by omega) (by omega) (by omega)
      (by omega),
    key (a + 1) b c (by omega) (by omega) (by omega) (by omega) (by omega) (by omega) (by omega),
    key a (b + 1) c (by omega) (by omega) (by omega) (by omega) (by omega) (by omega) (by omega),
    key a b (c + 1) (by omega) (by omega) (by omega) (by omega) (by omega) (by omega) (by omega),
    key a b c (by omega) (by omega) (by omega) (by omega) (by omega) (by omega) (by omega)]
  rfl

theorem border_congr (g : Geo) (s : VSt) (d : Nat → Nat → Nat → Prop) (A B C : Nat) :
    g.border { s with done := d } A B C ↔ g.border s A B C := Iff.rfl

/-- A point is visited; `live` says whether it is stored. -/
theorem Inv.step {zero : T} {g : Geo} {s : VSt} {live : Prop} {buf R : Nat → T}
    (h : Inv zero g s live buf R) (X Y Z : Nat) (hY2 : Y < g.d2) (hZ2 : Z < g.d3)
    (hX : s.ux ≤ X) (hX' : X < s.ux + g.bs) (hY : s.uy ≤ Y) (hY' : Y + 1 - s.uy < g.n2)
    (hZ : s.uz ≤ Z) (hZ' : Z + 1 - s.uz < g.n3) (v : T) (buf' : Nat → T)
    (hlive : live → buf' = upd buf
      (idx3 g.n2 g.n3 (X + 1 - s.ux) (Y + 1 - s.uy) (Z + 1 - s.uz)) v)
    (hnot : ¬ live → buf' = buf) :
    Inv zero g { s with done := fun X' Y' Z' => s.done X' Y' Z' ∨ (X' = X ∧ Y' = Y ∧ Z' = Z) }
      live buf' (upd R (idx3 g.d2 g.d3 X Y Z) v) := by
  have hnb : ¬ g.border s (X + 1) (Y + 1) (Z + 1) := by
    unfold Geo.border
    split <;> omega
  refine ⟨?_, h.orig, ?_, ?_⟩
  · rintro X' Y' Z' (hd | ⟨rfl, rfl, rfl⟩)
    · exact h.dom _ _ _ hd
    · exact ⟨hY2, hZ2, fun _ => hX'⟩
  · intro a ha b hb c hc hbd
    by_cases hl : live
    · rw [hlive hl]
      unfold upd
      rw [if_neg]
      · exact h.zero a ha b hb c hc hbd
      · intro he
        obtain ⟨rfl, rfl, rfl⟩ := idx3_inj he hb hc (by omega) (by omega)
        apply hnb
        have e1 : s.ux + (X + 1 - s.ux) = X + 1 := by omega
        have e2 : s.uy + (Y + 1 - s.uy) = Y + 1 := by omega
        have e3 : s.uz + (Z + 1 - s.uz) = Z + 1 := by omega
        have := hbd
        simp only [e1, e2, e3] at this
        exact this
    · rw [hnot hl]
      exact h.zero a ha b hb c hc hbd
  · intro hl a ha b hb c hc hbd hd
    rw [hlive hl]
    simp only at hd hbd ⊢
    have hpos : ∀ A B C : Nat, ¬ g.border s A B C → 1 ≤ A ∧ 1 ≤ B ∧ 1 ≤ C := by
      intro A B C hb
      unfold Geo.border at hb
      split at hb <;> omega
    have hp := hpos _ _ _ hbd
    by_cases he : s.ux + a - 1 = X ∧ s.uy + b - 1 = Y ∧ s.uz + c - 1 = Z
    · obtain ⟨rfl, rfl, rfl⟩ := he
      rw [show s.ux + a - 1 + 1 - s.ux = a by omega, show s.uy + b - 1 + 1 - s.uy = b by omega,
        show s.uz + c - 1 + 1 - s.uz = c by omega]
      simp [upd]
    · have hd' : s.done (s.ux + a - 1) (s.uy + b - 1) (s.uz + c - 1) := by
        rcases hd with hd | hd
        · exact hd
        · exact absurd hd he
      have hdom := h.dom _ _ _ hd'
      unfold upd
      rw [if_neg, if_neg]
      · exact h.val hl a ha b hb c hc hbd hd'
      · intro hq
        exact he (idx3_inj hq hdom.1 hdom.2.1 hY2 hZ2)
      · intro hq
        have := idx3_inj hq hb hc (by omega) (by omega)
        exact he (by omega)

/-- A new layer of blocks. -/
theorem Inv.copy {zero : T} {g : Geo} {s : VSt} {live : Prop} {buf R : Nat → T}
    (h : Inv zero g s live buf R) (hg : g.indep = false) (hb : 0 < g.bs) :
    Inv zero g { s with ux := s.ux + g.bs } live
      (copyBuf buf (g.bs * (g.n2 * g.n3)) (g.n2 * g.n3)) R := by
  have hbd : ∀ (s : VSt) A B C, g.border s A B C ↔ (A = 0 ∨ B = 0 ∨ C = 0) := by
    intro s A B C
    unfold Geo.border
    rw [if_neg (by rw [hg]; decide)]
  have top : ∀ b < g.n2, ∀ c < g.n3, copyBuf buf (g.bs * (g.n2 * g.n3)) (g.n2 * g.n3)
      (idx3 g.n2 g.n3 0 b c) = buf (idx3 g.n2 g.n3 g.bs b c) := by
    intro b hb c hc
    unfold copyBuf
    rw [if_pos (idx3_zero_lt hb hc)]
    congr 1
    unfold idx3
    ring
  have rest : ∀ a, 0 < a → ∀ b c, copyBuf buf (g.bs * (g.n2 * g.n3)) (g.n2 * g.n3)
      (idx3 g.n2 g.n3 a b c) = buf (idx3 g.n2 g.n3 a b c) := by
    intro a ha b c
    unfold copyBuf
    rw [if_neg]
    have : 1 * (g.n2 * g.n3) ≤ a * (g.n2 * g.n3) := Nat.mul_le_mul_right _ ha
    unfold idx3
    omega
  refine ⟨?_, h.orig, ?_, ?_⟩
  · intro X Y Z hd
    have := h.dom X Y Z hd
    exact ⟨this.1, this.2.1, fun hg => by have := this.2.2 hg; simp only; omega⟩
  · intro a ha b hb' c hc hz
    rw [hbd] at hz
    simp only at hz
    rcases Nat.eq_zero_or_pos a with rfl | ha0
    · rw [top b hb' c hc]
      refine h.zero g.bs (le_refl _) b hb' c hc ?_
      rw [hbd]
      omega
    · rw [rest a ha0]
      refine h.zero a ha b hb' c hc ?_
      rw [hbd]
      omega
  · intro hl a ha b hb' c hc hz hd
    rw [hbd] at hz
    simp only at hz hd ⊢
    have hdom := (h.dom _ _ _ hd).2.2 hg
    have ha0 : a = 0 := by omega
    subst ha0
    rw [top b hb' c hc]
    have := h.val hl g.bs (le_refl _) b hb' c hc (by rw [hbd]; omega)
      (by simpa using hd)
    rw [this]
    simp

/-- A new block. -/
theorem Inv.start {zero : T} {g : Geo} {s : VSt} {live live' : Prop} {buf R : Nat → T}
    (h : Inv zero g s live buf R) (X Y Z : Nat)
    (hnew : g.indep = true → ∀ X' Y' Z', s.done X' Y' Z' → ¬ (X ≤ X' ∧ X' < X + g.bs ∧ Y ≤ Y' ∧
        Y' < Y + g.bs ∧ Z ≤ Z' ∧ Z' < Z + g.bs))
    (hl : g.indep = false → live) :
    Inv zero g (if g.indep then ⟨X, Y, Z, (X, Y, Z), s.done⟩
        else ⟨s.ux, s.uy, s.uz, (X, Y, Z), s.done⟩) live' buf R := by
  cases hg : g.indep with
  | false =>
    simp only [Bool.false_eq_true, if_false]
    have hbd : ∀ A B C, g.border (⟨s.ux, s.uy, s.uz, (X, Y, Z), s.done⟩ : VSt) A B C ↔
        g.border s A B C := by
      intro A B C
      unfold Geo.border
      rw [if_neg (by rw [hg]; decide)]
    exact ⟨h.dom, h.orig, fun a ha b hb c hc hz => h.zero a ha b hb c hc ((hbd _ _ _).1 hz),
      fun _ a ha b hb c hc hz hd => h.val (hl hg) a ha b hb c hc (fun h => hz ((hbd _ _ _).2 h)) hd⟩
  | true =>
    simp only [if_true]
    have hbd : ∀ (s : VSt) a b c, g.border s (s.ux + a) (s.uy + b) (s.uz + c) ↔
        (a = 0 ∨ b = 0 ∨ c = 0) := by
      intro s a b c
      unfold Geo.border
      rw [if_pos hg]
      omega
    have hn2 : g.n2 = g.bs + 1 := by simp [Geo.n2, hg]
    have hn3 : g.n3 = g.bs + 1 := by simp [Geo.n3, hg]
    refine ⟨?_, ?_, ?_, ?_⟩
    · intro X' Y' Z' hd
      have := h.dom _ _ _ hd
      exact ⟨this.1, this.2.1, fun h => by rw [hg] at h; cases h⟩
    · intro h; rw [hg] at h; cases h
    · intro a ha b hb c hc hz
      have := (hbd ⟨X, Y, Z, (X, Y, Z), s.done⟩ a b c).1 hz
      exact h.zero a ha b hb c hc ((hbd s a b c).2 this)
    · intro _ a ha b hb c hc hz hd
      have : ¬ (a = 0 ∨ b = 0 ∨ c = 0) := fun h =>
        hz ((hbd ⟨X, Y, Z, (X, Y, Z), s.done⟩ a b c).2 h)
      simp only at hd
      exact absurd (by omega) (hnew hg _ _ _ hd)

/-! ### Refinement -/

/-- Configuration that predicts on the grid. -/
def gridCfg (B : BOps T F D) (g : Geo) (G : Cfg T F D) : Cfg T F D :=
  { G with
    lor := fun R q => lorGrid3 B g.d2 g.d3
      (org g.indep g.bs (q / g.d3 / g.d2) (q / g.d3 % g.d2) (q % g.d3)) R
      (q / g.d3 / g.d2) (q / g.d3 % g.d2) (q % g.d3)
    writeReg := true }

theorem grid_refines (B : BOps T F D) (g : Geo) (hb : 0 < g.bs) (G : Cfg T F D)
    (hlor : G.lor = lorAt3 B (g.n2 * g.n3) g.n3)
    (hreg : ∀ c p b, G.reg c { p with buf := b } = G.reg c p)
    (hw : G.writeReg = !g.indep) (data : Nat → T) (es : List Ev) (v : VSt) (post)
    (hv : Valid g v es post) (s : St T F) (R : Nat → T)
    (hu : g.indep = true → v.c = (v.ux, v.uy, v.uz))
    (hI : Inv B.zeroT g v (G.stores s.mode = true) s.buf R) :
    runEnc G data es s = runEnc (gridCfg B g G) data (gridEvs es) { s with buf := R } := by
  have hdep : ∀ m, g.indep = false → G.stores m = true := by
    intro m hg
    simp [Cfg.stores, hw, hg]
  induction es generalizing v s R with
  | nil => rfl
  | cons e es ih =>
    cases e with
    | start o sx sy sz =>
      obtain ⟨X, Y, Z, ho, hsx, hsy, hsz, hnew, hv⟩ := hv
      simp only [runEnc, gridEvs, encEv, gridCfg]
      have hu' : g.indep = true →
          (if g.indep then (⟨X, Y, Z, (X, Y, Z), v.done⟩ : VSt)
            else ⟨v.ux, v.uy, v.uz, (X, Y, Z), v.done⟩).c =
          ((if g.indep then (⟨X, Y, Z, (X, Y, Z), v.done⟩ : VSt)
            else ⟨v.ux, v.uy, v.uz, (X, Y, Z), v.done⟩).ux,
           (if g.indep then (⟨X, Y, Z, (X, Y, Z), v.done⟩ : VSt)
            else ⟨v.ux, v.uy, v.uz, (X, Y, Z), v.done⟩).uy,
           (if g.indep then (⟨X, Y, Z, (X, Y, Z), v.done⟩ : VSt)
            else ⟨v.ux, v.uy, v.uz, (X, Y, Z), v.done⟩).uz) := by
        intro hg
        rw [if_pos hg]
      cases hs : G.sel o sx sy sz with
      | none =>
        simp only
        rw [ih _ hv { s with mode := none } R hu' (hI.start X Y Z hnew (hdep _))]
        rfl
      | some c =>
        simp only
        rw [ih _ hv { s with
          mode := some (quantCoefs G.C G.regRadius G.regPrecs s.prev c).2.2
          prev := (quantCoefs G.C G.regRadius G.regPrecs s.prev c).2.2 } R hu'
          (hI.start X Y Z hnew (hdep _))]
        rfl
    | copy src len =>
      obtain ⟨hg, rfl, rfl, hv⟩ := hv
      simp only [runEnc, gridEvs, encEv]
      rw [ih _ hv _ R (fun h => by rw [hg] at h; cases h) (hI.copy hg hb)]
      simp [Out.app, Out.nil]
    | pt p =>
      obtain ⟨X, Y, Z, hpos, hX1, hY2, hZ2, hX, hX', hY, hY', hZ, hZ', hbuf, hc, hn, -, hv⟩ := hv
      have hpt : encPt G data s p =
          encPt (gridCfg B g G) data { s with buf := R } { p with buf := p.pos } := by
        have hl : s.mode = none → G.lor s.buf p.buf = (gridCfg B g G).lor R p.pos := by
          intro hm
          have hst : G.stores s.mode = true := by simp [Cfg.stores, hm]
          obtain ⟨q1, q2, q3⟩ := idx3_div (X := X) hY2 hZ2
          rw [hlor, hbuf, hI.lor hst X Y Z hX hX' hY hY' hZ hZ' hc hu hn, hpos]
          simp only [gridCfg]
          rw [q1, q2, q3]
        unfold encPt
        cases hm : s.mode with
        | none =>
          simp only [hl hm]
          rfl
        | some c =>
          simp only [gridCfg, hreg]
      simp only [runEnc, gridEvs, encEv]
      have hst' : (gridCfg B g G).stores s.mode = true := by simp [Cfg.stores, gridCfg]
      rw [← hpt]
      simp only [hst', if_true]
      rw [ih _ hv _ (upd R p.pos (encPt G data s p).2.2) hu (by
        have := hI.step X Y Z hY2 hZ2 hX hX' hY hY' hZ hZ' (encPt G data s p).2.2
          (if G.stores s.mode then upd s.buf p.buf (encPt G data s p).2.2 else s.buf)
          (fun h => by rw [if_pos h, hbuf]) (fun h => by rw [if_neg h])
        rw [← hpos] at this
        exact this)]

theorem lorGrid3_congr (B : BOps T F D) (d2 d3 : Nat) (o : Nat × Nat × Nat) (R R' : Nat → T)
    (X Y Z : Nat) (h : ∀ A B C, X ≤ A → A ≤ X + 1 → Y ≤ B → B ≤ Y + 1 → Z ≤ C → C ≤ Z + 1 →
      ¬ (A = X + 1 ∧ B = Y + 1 ∧ C = Z + 1) → ¬ (A ≤ o.1 ∨ B ≤ o.2.1 ∨ C ≤ o.2.2) →
      R (idx3 d2 d3 (A - 1) (B - 1) (C - 1)) = R' (idx3 d2 d3 (A - 1) (B - 1) (C - 1))) :
    lorGrid3 B d2 d3 o R X Y Z = lorGrid3 B d2 d3 o R' X Y Z := by
  have key : ∀ A B' C, X ≤ A → A ≤ X + 1 → Y ≤ B' → B' ≤ Y + 1 → Z ≤ C → C ≤ Z + 1 →
      ¬ (A = X + 1 ∧ B' = Y + 1 ∧ C = Z + 1) →
      padAt B.zeroT d2 d3 o R A B' C = padAt B.zeroT d2 d3 o R' A B' C := by
    intro A B' C a1 a2 b1 b2 c1 c2 hne
    unfold padAt
    split
    · rfl
    · rename_i hz
      exact h A B' C a1 a2 b1 b2 c1 c2 hne hz
  unfold lorGrid3
  rw [key (X + 1) (Y + 1) Z (by omega) (by omega) (by omega) (by omega) (by omega) (by omega)
      (by omega),
    key (X + 1) Y (Z + 1) (by omega) (by omega) (by omega) (by omega) (by omega) (by omega)
      (by omega),
    key X (Y + 1) (Z + 1) (by omega) (by omega) (by omega) (by omega) (by omega) (by omega)
      (by omega),
    key (X + 1) Y Z (by omega) (by omega) (by omega) (by omega) (by omega) (by omega) (by omega),
    key X (Y + 1) Z (by omega) (by omega) (by omega) (by omega) (by omega) (by omega) (by omega),
    key X Y (Z + 1) (by omega) (by omega) (by omega) (by omega) (by omega) (by omega) (by omega),
    key X Y Z (by omega) (by omega) (by omega) (by omega) (by omega) (by omega) (by omega)]

/-- The predicted value at a data offset. -/
def predAt (B : BOps T F D) (g : Geo) (R : Nat → T) (q : Nat) : F :=
  lorGrid3 B g.d2 g.d3 (org g.indep g.bs (q / g.d3 / g.d2) (q / g.d3 % g.d2) (q % g.d3)) R
    (q / g.d3 / g.d2) (q / g.d3 % g.d2) (q % g.d3)

/-- The predictor chosen for the block of a data offset. -/
def selOf {α : Type} (sel : Nat → Nat → Nat → Nat → α) (g : Geo) (q : Nat) : α :=
  selAt sel g.d1 g.d2 g.d3 g.bs (q / g.d3 / g.d2) (q / g.d3 % g.d2) (q % g.d3)

/-- Every point of a Lorenzo block is what one step makes of the prediction from the final
values of the neighbours. -/
theorem grid_fix (B : BOps T F D) (g : Geo) (G : Cfg T F D) (data : Nat → T) (es : List Ev)
    (v : VSt) (post) (hv : Valid g v es post) (s : St T F)
    (hu : g.indep = true → v.c = (v.ux, v.uy, v.uz))
    (hm : G.sel (idx3 g.d2 g.d3 v.c.1 v.c.2.1 v.c.2.2) (min g.bs (g.d1 - v.c.1))
      (min g.bs (g.d2 - v.c.2.1)) (min g.bs (g.d3 - v.c.2.2)) = none → s.mode = none)
    (hdom : ∀ X Y Z, v.done X Y Z → Y < g.d2 ∧ Z < g.d3) :
    (∀ X Y Z, v.done X Y Z → writes s.buf (runEnc (gridCfg B g G) data (gridEvs es) s).recon
      (idx3 g.d2 g.d3 X Y Z) = s.buf (idx3 g.d2 g.d3 X Y Z)) ∧
    List.Forall₂ (fun (w : Nat × T) t => selOf G.sel g w.1 = none → ∃ un, lorStep G
      (predAt B g (writes s.buf (runEnc (gridCfg B g G) data (gridEvs es) s).recon) w.1)
        (data w.1) (G.prec w.1) = (t, un, w.2))
      (runEnc (gridCfg B g G) data (gridEvs es) s).recon
      (runEnc (gridCfg B g G) data (gridEvs es) s).ty := by
  induction es generalizing v s with
  | nil => exact ⟨fun _ _ _ _ => rfl, List.Forall₂.nil⟩
  | cons e es ih =>
    cases e with
    | start o sx sy sz =>
      obtain ⟨X, Y, Z, ho, hsx, hsy, hsz, -, hv⟩ := hv
      generalize hv' : (if g.indep = true then (⟨X, Y, Z, (X, Y, Z), v.done⟩ : VSt)
            else ⟨v.ux, v.uy, v.uz, (X, Y, Z), v.done⟩) = v' at hv
      have hc : v'.c = (X, Y, Z) := by rw [← hv']; split <;> rfl
      have hd : v'.done = v.done := by rw [← hv']; split <;> rfl
      have hu' : g.indep = true → v'.c = (v'.ux, v'.uy, v'.uz) := by
        intro hg; rw [← hv', if_pos hg]
      cases hs : G.sel o sx sy sz with
      | none =>
        have := ih v' hv { s with mode := none } hu' (fun _ => rfl) (by rw [hd]; exact hdom)
        rw [hd] at this
        have hs' : (gridCfg B g G).sel o sx sy sz = none := hs
        simp only [gridEvs, runEnc, encEv, hs', Out.app, Out.nil, List.nil_append]
        exact this
      | some c =>
        have hs' : (gridCfg B g G).sel o sx sy sz = some c := hs
        have := ih v' hv { s with
          mode := some (quantCoefs G.C G.regRadius G.regPrecs s.prev c).2.2
          prev := (quantCoefs G.C G.regRadius G.regPrecs s.prev c).2.2 } hu' (by
            intro h
            rw [hc] at h
            simp only at h
            rw [← ho, ← hsx, ← hsy, ← hsz, hs] at h
            cases h) (by rw [hd]; exact hdom)
        rw [hd] at this
        simp only [gridEvs, runEnc, encEv, hs', Out.app, Out.nil, List.nil_append]
        exact this
    | copy src len =>
      obtain ⟨hg, -, -, hv⟩ := hv
      exact ih _ hv s (fun h => by rw [hg] at h; cases h) hm hdom
    | pt p =>
      obtain ⟨X, Y, Z, hpos, hX1, hY2, hZ2, hX, hX', hY, hY', hZ, hZ', hbuf, hc, hn, hnd, hv⟩ := hv
      have hst : (gridCfg B g G).stores s.mode = true := by simp [Cfg.stores, gridCfg]
      simp only [gridEvs, runEnc, encEv, Out.app, Out.nil, List.nil_append, List.cons_append,
        hst, if_true]
      generalize hv2 : (encPt (gridCfg B g G) data s { p with buf := p.pos }) = r
      obtain ⟨ih1, ih2⟩ := ih _ hv { s with buf := upd s.buf p.pos r.2.2 } hu hm (by
        rintro X' Y' Z' (h | ⟨rfl, rfl, rfl⟩)
        · exact hdom _ _ _ h
        · exact ⟨hY2, hZ2⟩)
      have hw : ∀ l : List (Nat × T), writes s.buf ((p.pos, r.2.2) :: l) =
          writes (upd s.buf p.pos r.2.2) l := fun _ => rfl
      rw [hw]
      have hag : ∀ X' Y' Z', v.done X' Y' Z' → writes (upd s.buf p.pos r.2.2)
          (runEnc (gridCfg B g G) data (gridEvs es)
            { s with buf := upd s.buf p.pos r.2.2 }).recon (idx3 g.d2 g.d3 X' Y' Z') =
          s.buf (idx3 g.d2 g.d3 X' Y' Z') := by
        intro X' Y' Z' hd
        rw [ih1 X' Y' Z' (Or.inl hd)]
        simp only [upd]
        rw [if_neg]
        intro he
        rw [hpos] at he
        obtain ⟨rfl, rfl, rfl⟩ := idx3_inj he (hdom _ _ _ hd).1 (hdom _ _ _ hd).2 hY2 hZ2
        exact hnd hd
      obtain ⟨q1, q2, q3⟩ := idx3_div (X := X) hY2 hZ2
      refine ⟨hag, List.Forall₂.cons (fun hsel => ⟨r.2.1, ?_⟩) ih2⟩
      have hmode : s.mode = none := by
        apply hm
        unfold selOf selAt at hsel
        simp only [hpos, q1, q2, q3] at hsel
        rw [hc]
        exact hsel
      rw [encPt_none _ _ _ _ hmode] at hv2
      simp only [gridCfg] at hv2
      unfold predAt
      simp only [hpos, q1, q2, q3] at hv2 ⊢
      rw [lorGrid3_congr B g.d2 g.d3 _ _ s.buf X Y Z
        (fun A B' C a1 a2 b1 b2 c1 c2 hne hz => by
          rw [← hpos]
          exact hag _ _ _ (hn A B' C a1 a2 b1 b2 c1 c2 hne
            (fun h => hz ((border_iff g v X Y Z A B' C hc hu).1 h))))]
      exact hv2

/-- The recursive description of the values in Lorenzo blocks: every value is what one step
makes of the prediction from the values of the neighbours. -/
def IsRecon (B : BOps T F D) (g : Geo) (G : Cfg T F D) (data R : Nat → T) : Prop :=
  ∀ X < g.d1, ∀ Y < g.d2, ∀ Z < g.d3, selAt G.sel g.d1 g.d2 g.d3 g.bs X Y Z = none →
    R (idx3 g.d2 g.d3 X Y Z) =
      (lorStep G (lorGrid3 B g.d2 g.d3 (org g.indep g.bs X Y Z) R X Y Z)
        (data (idx3 g.d2 g.d3 X Y Z)) (G.prec (idx3 g.d2 g.d3 X Y Z))).2.2

/-- Codes and reconstruction of the 3D codecs. -/
theorem plan_recon (B : BOps T F D) (g : Geo) (h1 : 0 < g.d1) (h2 : 0 < g.d2) (h3 : 0 < g.d3)
    (hb : 0 < g.bs) (G : Cfg T F D) (hlor : G.lor = lorAt3 B (g.n2 * g.n3) g.n3)
    (hw : G.writeReg = !g.indep)
    (hreg : ∀ c p b, G.reg c { p with buf := b } = G.reg c p) (data : Nat → T) (prev : List F)
    (out0 : Nat → T) :
    IsRecon B g G data
      (writes out0 (runEnc G data (plan g) ⟨fun _ => B.zeroT, none, prev⟩).recon) := by
  have hval := plan_valid g h1 h2 h3 hb
  have hperm : (positions (plan g)).Perm (List.range (g.d1 * g.d2 * g.d3)) := by
    unfold plan plan3d
    cases g.indep
    · exact tiling3 _ _ _ _ h1 h2 h3 hb
    · exact tiling3i _ _ _ _ h1 h2 h3 hb
  have href := grid_refines B g hb G hlor hreg hw data (plan g) _ _ hval
    ⟨fun _ => B.zeroT, none, prev⟩ (fun _ => B.zeroT) (fun _ => rfl)
    ⟨fun _ _ _ h => h.elim, fun _ => ⟨rfl, rfl⟩, fun _ _ _ _ _ _ _ => rfl,
      fun _ _ _ _ _ _ _ _ h => h.elim⟩
  simp only at href
  obtain ⟨-, hfix⟩ := grid_fix B g G data (plan g) _ _ hval
    ⟨fun _ => B.zeroT, none, prev⟩ (fun _ => rfl) (fun _ => rfl) (fun _ _ _ h => h.elim)
  rw [← href] at hfix
  simp only at hfix
  have hnd : ((runEnc G data (plan g) ⟨fun _ => B.zeroT, none, prev⟩).recon.map
      Prod.fst).Nodup := by
    rw [runEnc_recon_pos]
    exact hperm.nodup_iff.2 List.nodup_range
  have hmem : ∀ p < g.d1 * g.d2 * g.d3, ∃ w ∈ (runEnc G data (plan g)
      ⟨fun _ => B.zeroT, none, prev⟩).recon, w.1 = p := by
    intro p hp
    have : p ∈ (runEnc G data (plan g) ⟨fun _ => B.zeroT, none, prev⟩).recon.map
        Prod.fst := by
      rw [runEnc_recon_pos]
      exact hperm.mem_iff.2 (List.mem_range.2 hp)
    obtain ⟨w, hw, e⟩ := List.mem_map.1 this
    exact ⟨w, hw, e⟩
  generalize runEnc G data (plan g) ⟨fun _ => B.zeroT, none, prev⟩ = o at *
  have hsame : ∀ p < g.d1 * g.d2 * g.d3,
      writes (fun _ => B.zeroT) o.recon p = writes out0 o.recon p := by
    intro p hp
    obtain ⟨w, hw, rfl⟩ := hmem p hp
    rw [writes_mem _ _ hnd w hw, writes_mem _ _ hnd w hw]
  intro X hX Y hY Z hZ hsel
  have hlt := idx3_lt hX hY hZ
  obtain ⟨w, hw, hwp⟩ := hmem _ hlt
  have h2w : ∀ (l : List (Nat × T)) (t : List Int) (P : Nat × T → Int → Prop),
      List.Forall₂ P l t → ∀ w ∈ l, ∃ c, P w c := by
    intro l t P h
    induction h with
    | nil => intro w hw; cases hw
    | cons h _ ih =>
      intro w hw
      rcases List.mem_cons.1 hw with rfl | hw
      · exact ⟨_, h⟩
      · exact ih w hw
  obtain ⟨c, hc⟩ := h2w _ _ _ hfix w hw
  obtain ⟨q1, q2, q3⟩ := idx3_div (X := X) hY hZ
  unfold predAt selOf at hc
  rw [hwp, q1, q2, q3] at hc
  obtain ⟨un, hc⟩ := hc hsel
  rw [← hsame _ hlt, ← hwp, writes_mem _ _ hnd w hw, hwp]
  rw [lorGrid3_congr B g.d2 g.d3 _ (writes out0 o.recon) (writes (fun _ => B.zeroT) o.recon) X Y Z
    (fun A B' C a1 a2 b1 b2 c1 c2 hne hz => (hsame _
      (idx3_lt (by omega) (by omega) (by omega))).symm)]
  rw [hc]

theorem isRecon_unique (B : BOps T F D) (g : Geo) (G : Cfg T F D)
    (hsel : ∀ o sx sy sz, G.sel o sx sy sz = none) (data R R' : Nat → T)
    (h : IsRecon B g G data R) (h' : IsRecon B g G data R') :
    ∀ X < g.d1, ∀ Y < g.d2, ∀ Z < g.d3, R (idx3 g.d2 g.d3 X Y Z) = R' (idx3 g.d2 g.d3 X Y Z) := by
  have key : ∀ n X Y Z, X + Y + Z = n → X < g.d1 → Y < g.d2 → Z < g.d3 →
      R (idx3 g.d2 g.d3 X Y Z) = R' (idx3 g.d2 g.d3 X Y Z) := by
    intro n
    induction n using Nat.strong_induction_on with
    | _ n ih =>
      intro X Y Z hn hX hY hZ
      rw [h X hX Y hY Z hZ (hsel _ _ _ _), h' X hX Y hY Z hZ (hsel _ _ _ _)]
      rw [lorGrid3_congr B g.d2 g.d3 _ R R' X Y Z (fun A B' C a1 a2 b1 b2 c1 c2 hne hz =>
        ih (A - 1 + (B' - 1) + (C - 1)) (by omega) _ _ _ rfl (by omega) (by omega) (by omega))]
  exact fun X hX Y hY Z hZ => key _ X Y Z rfl hX hY hZ

end CpSZ.Block.Buf3
