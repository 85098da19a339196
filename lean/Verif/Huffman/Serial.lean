import Verif.Huffman.Reader
/-
Tree serialisation: writing the pre-order arrays and reading them back gives the same tree.
-/

namespace CpSZ.Huff

namespace HTree

/-- Number of nodes. -/
def size : HTree → Nat
  | leaf _ _ => 1
  | node _ l r => 1 + l.size + r.size

theorem size_pos (t : HTree) : 0 < t.size := by cases t <;> simp [size] <;> omega

theorem size_syms (t : HTree) : t.size + 1 = 2 * t.syms.length := by
  induction t with
  | leaf => rfl
  | node f l r ihl ihr => simp [size, syms]; omega

theorem depth_lt_size (t : HTree) : t.depth < t.size := by
  induction t with
  | leaf => simp [size, depth]
  | node f l r ihl ihr => simp [size, depth]; omega

end HTree

/-- The arrays contain the tree `t` rooted at index `i`, its remaining nodes being numbered
in pre-order from `ni + 1` on. -/
def Rep (a : Arrs) : HTree → Nat → Nat → Prop
  | .leaf _ c, i, _ => a.C i = c ∧ a.t i = 1
  | .node _ l r, i, ni =>
    a.C i = 0 ∧ a.t i = 0 ∧ a.L i = ni + 1 ∧ a.R i = ni + l.size + 1 ∧
      Rep a l (ni + 1) (ni + 1) ∧ Rep a r (ni + l.size + 1) (ni + l.size + 1)

/-- Two families of arrays agree at index `x`. -/
def AgreeAt (a b : Arrs) (x : Nat) : Prop :=
  a.L x = b.L x ∧ a.R x = b.R x ∧ a.C x = b.C x ∧ a.t x = b.t x

theorem Rep.congr {a b : Arrs} (t : HTree) (i ni : Nat) (h : Rep a t i ni)
    (hi : AgreeAt a b i) (hr : ∀ x, ni < x → x < ni + t.size → AgreeAt a b x) :
    Rep b t i ni := by
  induction t generalizing i ni with
  | leaf f c =>
    obtain ⟨_, _, h3, h4⟩ := hi
    simp only [Rep] at h ⊢
    rw [← h3, ← h4]; exact h
  | node f l r ihl ihr =>
    obtain ⟨e1, e2, e3, e4⟩ := hi
    simp only [Rep] at h ⊢
    obtain ⟨h1, h2, h3, h4, h5, h6⟩ := h
    simp only [HTree.size] at hr
    have hlp := l.size_pos
    have hrp := r.size_pos
    refine ⟨by rw [← e3]; exact h1, by rw [← e4]; exact h2, by rw [← e1]; exact h3,
      by rw [← e2]; exact h4, ?_, ?_⟩
    · exact ihl _ _ h5 (hr _ (by omega) (by omega)) (fun x hx1 hx2 => hr x (by omega) (by omega))
    · exact ihr _ _ h6 (hr _ (by omega) (by omega)) (fun x hx1 hx2 => hr x (by omega) (by omega))

theorem padTree_spec (w cnt : Nat) (t : HTree) (i ni : Nat) (a : Arrs)
    (hcnt : cnt ≤ 256 ^ w) (hi : i ≤ ni) (hsz : ni + t.size ≤ cnt)
    (hc : ∀ c ∈ t.syms, c < 2 ^ 32) :
    ∃ a', padTree w cnt t.toNode i ni a = some (a', ni + t.size - 1) ∧ Rep a' t i ni ∧
      ∀ x, x ≠ i → (x ≤ ni ∨ ni + t.size ≤ x) → AgreeAt a a' x := by
  induction t generalizing i ni a with
  | leaf f c =>
    have h1 : i < cnt := by simp only [HTree.size] at hsz; omega
    have h2 : c % 2 ^ 32 = c := Nat.mod_eq_of_lt (hc c (by simp [HTree.syms]))
    simp only [HTree.toNode, padTree, h1, if_true]
    refine ⟨_, rfl, ?_, ?_⟩
    · simp [Rep, upd, h2]
    · intro x hx _
      simp [AgreeAt, upd, hx]
  | node f l r ihl ihr =>
    have hlp := l.size_pos
    have hrp := r.size_pos
    simp only [HTree.size] at hsz
    have h1 : i < cnt := by omega
    have hl : l.toNode ≠ .null := l.toNode_ne_null
    have hr : r.toNode ≠ .null := r.toNode_ne_null
    simp only [HTree.toNode, padTree, h1, if_true, hl, if_false]
    have hm1 : (ni + 1) % 256 ^ w = ni + 1 := Nat.mod_eq_of_lt (by omega)
    rw [hm1]
    obtain ⟨a1, p1, p2, p3⟩ := ihl (ni + 1) (ni + 1)
      ⟨upd a.L i (ni + 1), a.R, upd a.C i (0 % 2 ^ 32), upd a.t i (0 % 256)⟩ (by omega) (by omega)
      (fun c hcl => hc c (by simp [HTree.syms, hcl]))
    rw [p1]
    simp only [hr, if_false]
    have e : ni + 1 + l.size - 1 + 1 = ni + l.size + 1 := by omega
    rw [e]
    have hm2 : (ni + l.size + 1) % 256 ^ w = ni + l.size + 1 := Nat.mod_eq_of_lt (by omega)
    rw [hm2]
    obtain ⟨a2, q1, q2, q3⟩ := ihr (ni + l.size + 1) (ni + l.size + 1)
      { a1 with R := upd a1.R i (ni + l.size + 1) } (by omega) (by omega)
      (fun c hcr => hc c (by simp [HTree.syms, hcr]))
    have hii := p3 i (by omega) (Or.inl (by omega))
    have hij := q3 i (by omega) (Or.inl (by omega))
    obtain ⟨i1, i2, i3, i4⟩ := hii
    obtain ⟨j1, j2, j3, j4⟩ := hij
    simp only [upd, if_true] at i1 i3 i4 j1 j2 j3 j4
    refine ⟨a2, ?_, ?_, ?_⟩
    · rw [q1]
      simp only [HTree.size, Option.some.injEq, Prod.mk.injEq, true_and]
      omega
    · simp only [Rep]
      refine ⟨?_, ?_, ?_, ?_, ?_, q2⟩
      · rw [← j3, ← i3]
      · rw [← j4, ← i4]
      · rw [← j1, ← i1]
      · rw [← j2]
      · refine Rep.congr l _ _ p2 ?_ ?_
        · have := q3 (ni + 1) (by omega) (Or.inl (by omega))
          obtain ⟨k1, k2, k3, k4⟩ := this
          have hne : ni + 1 ≠ i := by omega
          simp only [upd, hne, if_false] at k1 k2 k3 k4
          exact ⟨k1, k2, k3, k4⟩
        · intro x hx1 hx2
          have := q3 x (by omega) (Or.inl (by omega))
          obtain ⟨k1, k2, k3, k4⟩ := this
          have hne : x ≠ i := by omega
          simp only [upd, hne, if_false] at k1 k2 k3 k4
          exact ⟨k1, k2, k3, k4⟩
    · intro x hx hx2
      simp only [HTree.size] at hx2
      obtain ⟨k1, k2, k3, k4⟩ := p3 x (by omega) (by omega)
      obtain ⟨m1, m2, m3, m4⟩ := q3 x (by omega) (by omega)
      simp only [upd, hx, if_false] at k1 k2 k3 k4 m1 m2 m3 m4
      exact ⟨k1.trans m1, k2.trans m2, k3.trans m3, k4.trans m4⟩

/-- Values of the arrays fit their element types. -/
structure Fits (w cnt : Nat) (a : Arrs) : Prop where
  L : ∀ x, a.L x < 256 ^ w
  R : ∀ x, a.R x < 256 ^ w
  C : ∀ x, a.C x < 256 ^ 4
  t : ∀ x, a.t x < 256 ^ 1

theorem upd_lt {f : Nat → Nat} {b i v : Nat} (hf : ∀ x, f x < b) (hv : v < b) :
    ∀ x, upd f i v x < b := by
  intro x; unfold upd; split
  · exact hv
  · exact hf x

theorem padTree_fits (w cnt : Nat) (n : Node) (i ni : Nat) (a a' : Arrs) (ni' : Nat)
    (h : padTree w cnt n i ni a = some (a', ni')) (hf : Fits w cnt a) : Fits w cnt a' := by
  induction n generalizing i ni a a' ni' with
  | null =>
    simp only [padTree, Option.some.injEq, Prod.mk.injEq] at h
    rw [← h.1]; exact hf
  | mk t c l r ihl ihr =>
    have hpos : 0 < 256 ^ w := Nat.pow_pos (by decide)
    simp only [padTree] at h
    split at h
    · have hf1 : Fits w cnt { a with C := upd a.C i (c % 2 ^ 32), t := upd a.t i (t % 256) } :=
        ⟨hf.L, hf.R, upd_lt hf.C (Nat.mod_lt _ (by decide)), upd_lt hf.t (Nat.mod_lt _ (by decide))⟩
      split at h
      · simp at h
      · rename_i a1 ni1 heq
        have hf2 : Fits w cnt a1 := by
          split at heq
          · simp only [Option.some.injEq, Prod.mk.injEq] at heq
            rw [← heq.1]; exact hf1
          · refine ihl _ _ _ _ _ heq ⟨?_, hf1.R, hf1.C, hf1.t⟩
            exact upd_lt hf1.L (Nat.mod_lt _ hpos)
        split at h
        · simp only [Option.some.injEq, Prod.mk.injEq] at h
          rw [← h.1]; exact hf2
        · refine ihr _ _ _ _ _ h ⟨hf2.L, ?_, hf2.C, hf2.t⟩
          exact upd_lt hf2.R (Nat.mod_lt _ hpos)
    · simp at h

theorem readArr_list (w : Nat) (f : Nat → Nat) (hf : ∀ x, f x < 256 ^ w) (xs : List Nat)
    (rest : List Byte) :
    readArr w xs.length ((xs.flatMap fun i => leBytes w (f i)) ++ rest) =
      some (xs.map f, rest) := by
  induction xs with
  | nil => rfl
  | cons x xs ih =>
    simp only [List.length_cons, List.flatMap_cons, List.append_assoc, readArr, List.map_cons]
    rw [readLE_leBytes (hf x)]
    simp only [Option.bind_eq_bind, Option.bind_some, ih]
    rfl

theorem readArr_arrBytes (w cnt : Nat) (f : Nat → Nat) (hf : ∀ x, f x < 256 ^ w)
    (rest : List Byte) :
    readArr w cnt (arrBytes w cnt f ++ rest) = some ((List.range cnt).map f, rest) := by
  have := readArr_list w f hf (List.range cnt) rest
  rwa [List.length_range] at this

theorem arrBytes_length (w cnt : Nat) (f : Nat → Nat) : (arrBytes w cnt f).length = cnt * w := by
  unfold arrBytes
  induction cnt with
  | zero => simp
  | succ n ih => rw [List.range_succ, List.flatMap_append, List.length_append, ih]; simp [Nat.succ_mul]

theorem range_map_get (f : Nat → Nat) (cnt i : Nat) (h : i < cnt) :
    ((List.range cnt).map f)[i]? = some (f i) := by simp [h]

theorem unpadTree_spec (a : Arrs) (cnt pool : Nat) (t : HTree) (fuel i ni nn : Nat)
    (hrep : Rep a t i ni) (hi : i ≤ ni) (hsz : ni + t.size ≤ cnt)
    (hpool : nn + t.size ≤ pool + 1) (hfuel : t.depth < fuel) :
    unpadTree ⟨(List.range cnt).map a.L, (List.range cnt).map a.R, (List.range cnt).map a.C,
        (List.range cnt).map a.t⟩ pool fuel i (a.t i) (a.C i) nn =
      some (t.toNode, nn + t.size - 1) := by
  induction t generalizing fuel i ni nn with
  | leaf f c =>
    obtain ⟨fuel, rfl⟩ : ∃ f', fuel = f' + 1 := ⟨fuel - 1, by omega⟩
    simp only [Rep] at hrep
    obtain ⟨h1, h2⟩ := hrep
    simp [unpadTree, h1, h2, HTree.toNode, HTree.size]
  | node f l r ihl ihr =>
    obtain ⟨fuel, rfl⟩ : ∃ f', fuel = f' + 1 := ⟨fuel - 1, by omega⟩
    simp only [Rep] at hrep
    obtain ⟨h1, h2, h3, h4, h5, h6⟩ := hrep
    simp only [HTree.size, HTree.depth] at *
    have hlp := l.size_pos
    have hrp := r.size_pos
    rw [h1, h2]
    have gL := range_map_get a.L cnt i (by omega)
    have gR := range_map_get a.R cnt i (by omega)
    rw [h3] at gL
    rw [h4] at gR
    have gCl := range_map_get a.C cnt (ni + 1) (by omega)
    have gtl := range_map_get a.t cnt (ni + 1) (by omega)
    have gCr := range_map_get a.C cnt (ni + l.size + 1) (by omega)
    have gtr := range_map_get a.t cnt (ni + l.size + 1) (by omega)
    have hl := ihl fuel (ni + 1) (ni + 1) (nn + 1) h5 (by omega) (by omega) (by omega) (by omega)
    have hr := ihr fuel (ni + l.size + 1) (ni + l.size + 1) (nn + 1 + l.size - 1 + 1) h6
      (by omega) (by omega) (by omega) (by omega)
    have p1 : nn < pool := by omega
    have p2 : nn + 1 + l.size - 1 < pool := by omega
    have n1 : ni + 1 ≠ 0 := by omega
    have n2 : ni + l.size + 1 ≠ 0 := by omega
    simp only [unpadTree, if_true, gL, gR, n1, n2, ne_eq, not_false_eq_true, gCl, gtl, gCr, gtr, p1,
      hl, p2, hr, HTree.toNode, Option.some.injEq, Prod.mk.injEq, true_and]
    omega

theorem widthOf_ok (cnt : Nat) (h : cnt < 2 ^ 32) : cnt ≤ 256 ^ widthOf cnt := by
  unfold widthOf
  split
  · simpa using ‹cnt ≤ 256›
  · split
    · simpa using ‹cnt ≤ 65536›
    · omega

/-- Serialised tree followed by anything is read back as the same tree. -/
theorem readTree_treeBytes (t : HTree) (pool : Nat) (hsz : t.size < 2 ^ 28)
    (hpool : t.size ≤ pool) (hc : ∀ c ∈ t.syms, c < 2 ^ 32) :
    ∃ tb, treeBytes t.toNode t.size = some tb ∧ tb.length = treeSize t.size ∧
      ∀ rest, readTree pool t.size (tb ++ rest) = some t.toNode := by
  have hw := widthOf_ok t.size (by omega)
  obtain ⟨a, h1, h2, _⟩ := padTree_spec (widthOf t.size) t.size t 0 0
    ⟨fun _ => 0, fun _ => 0, fun _ => 0, fun _ => 0⟩ hw (by omega) (by omega) hc
  have hpos : 0 < 256 ^ widthOf t.size := Nat.pow_pos (by decide)
  have hfit := padTree_fits _ _ _ _ _ _ _ _ h1
    ⟨fun _ => hpos, fun _ => hpos, fun _ => Nat.pow_pos (by decide),
      fun _ => Nat.pow_pos (by decide)⟩
  simp only [treeBytes, h1]
  refine ⟨_, rfl, ?_, ?_⟩
  · simp only [List.length_cons, List.length_append, arrBytes_length, treeSize]
    have hwle : widthOf t.size ≤ 4 := by unfold widthOf; split <;> (try split) <;> omega
    have : t.size * widthOf t.size ≤ t.size * 4 := Nat.mul_le_mul_left _ hwle
    have e : 2 * t.size * widthOf t.size = t.size * widthOf t.size + t.size * widthOf t.size := by
      rw [Nat.mul_assoc, Nat.two_mul]
    rw [e, Nat.mod_eq_of_lt (by omega)]
    omega
  · intro rest
    simp only [List.cons_append, List.append_assoc, readTree]
    rw [readArr_arrBytes _ _ _ hfit.L]
    simp only
    rw [readArr_arrBytes _ _ _ hfit.R]
    simp only
    rw [readArr_arrBytes _ _ _ hfit.C]
    simp only
    rw [readArr_arrBytes _ _ _ hfit.t]
    simp only
    have hd := t.depth_lt_size
    have hp := t.size_pos
    have hsp := unpadTree_spec a t.size pool t (t.size + 1) 0 0 1 h2 (by omega) (by omega)
      (by omega) (by omega)
    have g1 := range_map_get a.C t.size 0 (by omega)
    have g2 := range_map_get a.t t.size 0 (by omega)
    have hpp : 0 < pool := by omega
    by_cases h256 : t.size ≤ 256
    · simp only [h256, if_true, g1, g2, hpp, hsp, Option.map_some]
    · simp only [h256, if_false, hpp, if_true]
      cases t with
      | leaf f c => simp [HTree.size] at h256
      | node f l r =>
        simp only [Rep] at h2
        rw [h2.1, h2.2.1] at hsp
        simp only [hsp, Option.map_some]

end CpSZ.Huff
