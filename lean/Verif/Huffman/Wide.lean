import Verif.Huffman.Trie
import Verif.Huffman.Top

/-!
# A histogram of fewer than 2^31 elements with code words of more than 64 bits

`qremove` moves the last entry into the hole without restoring the order of the queue
(src/sz_huffman.cpp L137-142), so that the trees of `init` can be much deeper than Huffman trees.
The histogram below was found by a search program; here its tree is evaluated by the kernel.
-/

namespace CpSZ.Huff

/-- Number of occurrences of the symbols 0, …, 699. -/
def wideList : List Nat := [
  3, 65536, 1, 16389, 3, 1, 3, 2, 8, 256, 1, 3, 3, 1,
  1, 1, 1694, 1012, 4623, 8, 5, 1, 256, 256, 15, 3, 105097, 1694,
  8192, 1, 59897, 2, 1, 1, 1, 1024, 16, 34, 77791, 2048, 48257, 3,
  2, 1, 2, 4155, 256, 3, 8, 32, 8, 10579, 37518, 31729, 2077, 39683,
  35244654, 36149, 5, 1, 8174, 13697, 72796686, 16311, 951, 540719, 8, 4118, 878, 5320,
  1, 268, 256, 3, 32768, 1, 1, 2047, 12698, 2225, 16, 62406, 73079, 51,
  17, 2, 104, 256, 143, 8, 3, 8, 256, 256, 256, 256, 20, 3,
  2048, 2, 12758589, 5, 48573755, 3, 5, 181, 3, 3, 4, 32772, 33316437, 513,
  1, 1669307, 517, 69846, 1, 1, 1, 85524, 2789, 8192, 4, 1, 210776, 4096,
  11486, 32, 2, 2048, 1, 8287, 1, 8, 701500, 1, 2, 1, 3, 1,
  28517798, 3695, 30000, 3, 1, 1, 5, 16394, 16, 2, 16, 43499, 16, 7,
  256, 13, 16, 16, 20011, 256, 3, 16, 7298, 5, 67501, 256, 4, 252,
  78, 4, 32762, 373, 11, 1024, 1442380, 64, 3, 151, 8, 256, 256, 27342560,
  256, 3, 256, 256, 450, 11219, 3, 3, 256, 8, 256, 3085, 256, 256,
  256, 30563, 3, 9909, 43185, 23477770, 32, 8, 3, 1, 148152, 2048, 16, 4926,
  1960, 1, 3, 3, 3, 4096, 51211960, 1, 11691, 4096, 7127, 8196, 5883, 3,
  8932, 1, 1, 1, 8, 48271431, 1, 16, 32, 1, 1, 1, 313492, 513,
  1, 2134, 256906, 3687148, 3, 2048, 840646, 7060, 63835, 1, 4096, 14758538, 1, 18738911,
  7296, 50448, 887819, 1, 27000, 1, 510936, 1143, 16382, 1, 1, 1, 8, 1,
  1, 11792, 31047428, 1, 66051391, 2, 16386, 1, 1, 8192, 8192, 1, 1, 1,
  1, 1, 1, 1, 1, 1, 1, 2, 1, 3, 1, 58614, 53, 1562713,
  4, 10614, 3, 16, 4, 16, 334, 16, 16, 16, 16384, 7, 16, 15,
  3, 35, 3, 6, 16, 16, 14, 12593, 16, 3, 16, 16, 6716, 8,
  16, 16, 16, 63153468, 62047602, 29, 3, 2, 1, 256, 514, 8192, 41558, 3,
  2, 628823, 21, 16, 2050, 2048, 51046819, 8189, 35969161, 1, 128, 1, 4, 56,
  512, 256, 8, 256, 10, 2048, 256, 256, 256, 256, 1820, 256, 34, 2,
  256, 256, 3, 512, 4, 250, 8, 107551, 2, 2, 256, 3, 8, 256,
  3, 256, 48257, 3, 256, 256, 20256, 3, 256, 53, 3, 2, 278, 8,
  33767314, 3, 328, 3, 37594750, 11520, 15223, 1875, 3, 2873, 4, 3, 1024, 3,
  52938846, 512, 65536, 1, 52514, 7415, 8, 3, 67861435, 64870, 16672, 8753, 466067, 339021,
  3913, 141, 1, 64, 2, 3, 12159845, 17489, 4094, 225826, 734960, 3, 20438082, 9812555,
  2, 245543, 42016856, 13522505, 53636690, 1, 1, 2299, 3, 140497, 2004629, 1, 65536, 2529,
  57126406, 7807, 45847, 1319, 51211963, 2, 5, 2048, 1, 1658, 4106, 10033, 41027, 1,
  12711188, 2077, 32496, 521, 4093, 60349, 2340, 1, 141, 3, 1, 256, 181, 524,
  13287, 8192, 1636, 3, 26821542, 407, 102055, 4749, 1, 8185, 146791, 1, 32736, 1,
  70987889, 1, 79431903, 54583, 1, 8, 2249, 16093, 65544, 5258, 4096, 1, 1014374, 1,
  10, 60036896, 1, 9689, 1, 9907, 1, 11928, 56440, 1, 145, 15891, 276543, 8191,
  3, 342, 1487694, 37594750, 4882, 2070, 1924, 1, 8042, 3616, 5483, 3752956, 58601016, 39,
  5859, 16384, 197788, 16188, 128, 4, 35208628, 1, 148065, 1, 74829555, 14106, 16169, 8,
  541547, 8192, 551507, 8192, 18407, 1, 376352, 3, 12170, 13907, 71779, 19982, 393295, 135560,
  5, 49, 1, 1, 1, 50, 1, 1, 1, 1844, 454, 1, 1, 3,
  3, 45, 1, 32, 4, 20, 7944, 297340, 6692, 1, 63740, 5, 2507, 60575,
  3, 58, 50, 3, 16, 16, 17, 16, 95, 16, 17, 19, 62, 16,
  16, 3, 3, 16, 3, 16, 3, 16, 3, 52, 3, 16, 3, 8187,
  3, 3, 16, 10, 29, 16, 6, 2, 16, 16, 18624, 16, 9, 2048,
  16, 2047, 16, 31, 16, 3, 16, 16, 6512, 16, 5, 16, 16, 4,
  16, 905, 1879, 148155, 8, 256, 2, 48970, 18382514, 2, 13, 512, 6550478, 2,
  2048, 47917, 31, 65536, 4896442, 70131397, 3177, 5843386, 512, 38011195, 513, 16360, 218, 10,
  7, 4017, 10, 2, 3, 8, 2048, 2048, 2, 8, 8, 3, 32495, 2,
  1, 6, 106057, 512, 89901153, 2, 9, 4, 37504, 61641, 16, 3, 48095, 4752]

def wideFreq (c : Nat) : Nat := wideList.getD c 0

/-! ## Position of leaves -/

/-- Two sibling leaves at depth `k`. -/
inductive Sib (x y : Nat) : Nat → HTree → Prop where
  | here (f g g' : Nat) : Sib x y 1 (.node f (.leaf g x) (.leaf g' y))
  | here' (f g g' : Nat) : Sib x y 1 (.node f (.leaf g' y) (.leaf g x))
  | left (f : Nat) {k : Nat} {l : HTree} (r : HTree) : Sib x y k l → Sib x y (k + 1) (.node f l r)
  | right (f : Nat) {k : Nat} (l : HTree) {r : HTree} : Sib x y k r → Sib x y (k + 1) (.node f l r)

/-- A leaf at depth `k`. -/
inductive At (z : Nat) : Nat → HTree → Prop where
  | here (g : Nat) : At z 0 (.leaf g z)
  | left (f : Nat) {k : Nat} {l : HTree} (r : HTree) : At z k l → At z (k + 1) (.node f l r)
  | right (f : Nat) {k : Nat} (l : HTree) {r : HTree} : At z k r → At z (k + 1) (.node f l r)

theorem Sib.mir {x y k : Nat} {t t' : HTree} (h : Sib x y k t) (hm : Mir t' t) : Sib x y k t' := by
  induction h generalizing t' with
  | here f g g' =>
    cases hm with
    | same _ h1 h2 => cases h1; cases h2; exact .here _ _ _
    | cross _ h1 h2 => cases h1; cases h2; exact .here' _ _ _
  | here' f g g' =>
    cases hm with
    | same _ h1 h2 => cases h1; cases h2; exact .here' _ _ _
    | cross _ h1 h2 => cases h1; cases h2; exact .here _ _ _
  | left f r _ ih =>
    cases hm with
    | same _ h1 h2 => exact .left _ _ (ih h1)
    | cross _ h1 h2 => exact .right _ _ (ih h1)
  | right f l _ ih =>
    cases hm with
    | same _ h1 h2 => exact .right _ _ (ih h2)
    | cross _ h1 h2 => exact .left _ _ (ih h2)

theorem At.mir {z k : Nat} {t t' : HTree} (h : At z k t) (hm : Mir t' t) : At z k t' := by
  induction h generalizing t' with
  | here g => cases hm; exact .here _
  | left f r _ ih =>
    cases hm with
    | same _ h1 h2 => exact .left _ _ (ih h1)
    | cross _ h1 h2 => exact .right _ _ (ih h1)
  | right f l _ ih =>
    cases hm with
    | same _ h1 h2 => exact .right _ _ (ih h2)
    | cross _ h1 h2 => exact .left _ _ (ih h2)

/-- The subtree at the end of a path. -/
def follow : List Bool → HTree → Option HTree
  | [], t => some t
  | _ :: _, .leaf _ _ => none
  | b :: bs, .node _ l r => follow bs (if b then r else l)

/-- The symbols of the two leaves of a tree with two leaves. -/
def pairSyms : HTree → Option (Nat × Nat)
  | .node _ (.leaf _ x) (.leaf _ y) => some (x, y)
  | _ => none

theorem sib_of_follow {x y : Nat} (bs : List Bool) {t u : HTree} (h : follow bs t = some u)
    (hu : pairSyms u = some (x, y)) : Sib x y (bs.length + 1) t := by
  induction bs generalizing t with
  | nil =>
    simp only [follow, Option.some.injEq] at h
    subst h
    unfold pairSyms at hu
    split at hu
    · cases hu
      exact .here _ _ _
    · cases hu
  | cons b bs ih =>
    cases t with
    | leaf => simp [follow] at h
    | node f l r =>
      simp only [follow] at h
      have := ih h
      cases b with
      | false => exact .left _ _ this
      | true => exact .right _ _ this

theorem at_of_follow {z : Nat} (bs : List Bool) {t u : HTree} (h : follow bs t = some u)
    (hu : leafSym u = some z) : At z bs.length t := by
  induction bs generalizing t with
  | nil =>
    simp only [follow, Option.some.injEq] at h
    subst h
    cases t with
    | leaf g d =>
      simp only [leafSym, Option.some.injEq] at hu
      subst hu
      exact .here _
    | node => simp [leafSym] at hu
  | cons b bs ih =>
    cases t with
    | leaf => simp [follow] at h
    | node f l r =>
      simp only [follow] at h
      have := ih h
      cases b with
      | false => exact .left _ _ this
      | true => exact .right _ _ this

theorem Sib.symm {x y k : Nat} {t : HTree} (h : Sib x y k t) : Sib y x k t := by
  induction h with
  | here => exact .here' _ _ _
  | here' => exact .here _ _ _
  | left f r _ ih => exact .left _ _ ih
  | right f l _ ih => exact .right _ _ ih

theorem Sib.syms {x y k : Nat} {t : HTree} (h : Sib x y k t) : x ∈ t.syms ∧ y ∈ t.syms := by
  induction h with
  | here => simp [HTree.syms]
  | here' => simp [HTree.syms]
  | left f r _ ih => simp only [HTree.syms, List.mem_append]; tauto
  | right f l _ ih => simp only [HTree.syms, List.mem_append]; tauto

theorem At.syms {z k : Nat} {t : HTree} (h : At z k t) : z ∈ t.syms := by
  induction h with
  | here => simp [HTree.syms]
  | left f r _ ih => simp only [HTree.syms, List.mem_append]; tauto
  | right f l _ ih => simp only [HTree.syms, List.mem_append]; tauto

/-! ## Their code words -/

/-- `build_code` changes the entries of the symbols of the tree only. -/
theorem buildCode_other (stateNum : Nat) (ub : BitVec 64) (t : HTree)
    (hc : ∀ c ∈ t.syms, c < stateNum) (len : Nat) (o1 o2 : BitVec 64) (tab : CodeTab) :
    ∃ tab', buildCode stateNum ub t len o1 o2 tab = some tab' ∧ ∀ c, c ∉ t.syms → tab' c = tab c := by
  induction t generalizing len o1 o2 tab with
  | leaf f c =>
    simp only [buildCode, if_pos (hc c (by simp [HTree.syms]))]
    refine ⟨_, rfl, fun d hd => ?_⟩
    simp only [HTree.syms, List.mem_singleton] at hd
    simp only [if_neg hd]
  | node f l r ihl ihr =>
    simp only [HTree.syms, List.mem_append] at hc
    simp only [buildCode]
    split
    all_goals
      obtain ⟨tab1, h1, h2⟩ := ihl (fun c h => hc c (Or.inl h)) (len + 1) _ _ tab
      rw [h1]
      obtain ⟨tab2, h3, h4⟩ := ihr (fun c h => hc c (Or.inr h)) (len + 1) _ _ tab1
      refine ⟨tab2, h3, fun c hcn => ?_⟩
      simp only [HTree.syms, List.mem_append, not_or] at hcn
      rw [h4 c hcn.2, h2 c hcn.1]

/-- The code word of a leaf has the length of its depth. -/
theorem at_code (stateNum : Nat) (ub : BitVec 64) {z k : Nat} {t : HTree} (h : At z k t)
    (hc : ∀ c ∈ t.syms, c < stateNum) (hnd : t.syms.Nodup) (len : Nat) (o1 o2 : BitVec 64)
    (tab : CodeTab) : ∃ tab' a, buildCode stateNum ub t len o1 o2 tab = some tab' ∧
      tab' z = some a ∧ a.len = BitVec.ofNat 8 (len + k) := by
  induction h generalizing len o1 o2 tab with
  | here g =>
    simp only [buildCode, if_pos (hc z (by simp [HTree.syms]))]
    refine ⟨_, _, rfl, if_pos rfl, ?_⟩
    split <;> rfl
  | @left f k l r hl ih =>
    simp only [HTree.syms, List.nodup_append, List.mem_append] at hc hnd
    have hz : z ∉ r.syms := fun hz => hnd.2.2 z hl.syms z hz rfl
    simp only [buildCode]
    split
    all_goals
      obtain ⟨tab1, a, h1, h2, h3⟩ := ih (fun c h => hc c (Or.inl h)) hnd.1 (len + 1) _ _ tab
      rw [h1]
      obtain ⟨tab2, h4, h5⟩ := buildCode_other stateNum ub r (fun c h => hc c (Or.inr h)) (len + 1)
        _ _ tab1
      exact ⟨tab2, a, h4, by rw [h5 z hz, h2], by rw [h3]; congr 1; omega⟩
  | @right f k l r hr ih =>
    simp only [HTree.syms, List.nodup_append, List.mem_append] at hc hnd
    simp only [buildCode]
    split
    all_goals
      obtain ⟨tab1, h4, h5⟩ := buildCode_other stateNum ub l (fun c h => hc c (Or.inl h)) (len + 1)
        _ _ tab
      rw [h4]
      obtain ⟨tab2, a, h1, h2, h3⟩ := ih (fun c h => hc c (Or.inr h)) hnd.2.1 (len + 1) _ _ tab1
      exact ⟨tab2, a, h1, h2, by rw [h3]; congr 1; omega⟩

/-- Two sibling leaves at depth 65 get code words which agree in the first 64 bits. -/
theorem sib_code (stateNum : Nat) (ub : BitVec 64) {x y k : Nat} {t : HTree} (h : Sib x y k t)
    (hc : ∀ c ∈ t.syms, c < stateNum) (hnd : t.syms.Nodup) (len : Nat) (hlen : len + k = 65)
    (o1 o2 : BitVec 64) (tab : CodeTab) :
    ∃ tab' a b, buildCode stateNum ub t len o1 o2 tab = some tab' ∧ tab' x = some a ∧
      tab' y = some b ∧ a.w0 = b.w0 ∧ a.len = 65#8 ∧ b.len = 65#8 := by
  induction h generalizing len o1 o2 tab with
  | here f g g' =>
    obtain rfl : len = 64 := by omega
    have hne : x ≠ y := by simpa [HTree.syms] using hnd
    obtain ⟨w, w', hb⟩ := code_pair stateNum ub f g g' x y (hc x (by simp [HTree.syms]))
      (hc y (by simp [HTree.syms])) o1 o2 tab
    exact ⟨_, _, _, hb, (if_neg hne).trans (if_pos rfl), if_pos rfl, rfl, rfl, rfl⟩
  | here' f g g' =>
    obtain rfl : len = 64 := by omega
    have hne : y ≠ x := by simpa [HTree.syms] using hnd
    obtain ⟨w, w', hb⟩ := code_pair stateNum ub f g' g y x (hc y (by simp [HTree.syms]))
      (hc x (by simp [HTree.syms])) o1 o2 tab
    exact ⟨_, _, _, hb, if_pos rfl, (if_neg hne).trans (if_pos rfl), rfl, rfl, rfl⟩
  | @left f k l r hl ih =>
    simp only [HTree.syms, List.nodup_append, List.mem_append] at hc hnd
    have hx : x ∉ r.syms := fun hz => hnd.2.2 x hl.syms.1 x hz rfl
    have hy : y ∉ r.syms := fun hz => hnd.2.2 y hl.syms.2 y hz rfl
    simp only [buildCode]
    split
    all_goals
      obtain ⟨tab1, a, b, h1, h2, h3, h6⟩ := ih (fun c h => hc c (Or.inl h)) hnd.1 (len + 1)
        (by omega) _ _ tab
      rw [h1]
      obtain ⟨tab2, h4, h5⟩ := buildCode_other stateNum ub r (fun c h => hc c (Or.inr h)) (len + 1)
        _ _ tab1
      exact ⟨tab2, a, b, h4, by rw [h5 x hx, h2], by rw [h5 y hy, h3], h6⟩
  | @right f k l r hr ih =>
    simp only [HTree.syms, List.nodup_append, List.mem_append] at hc hnd
    simp only [buildCode]
    split
    all_goals
      obtain ⟨tab1, h4, h5⟩ := buildCode_other stateNum ub l (fun c h => hc c (Or.inl h)) (len + 1)
        _ _ tab
      rw [h4]
      exact ih (fun c h => hc c (Or.inr h)) hnd.2.1 (len + 1) (by omega) _ _ tab1

/-! ## Evaluation -/

/-- Where the leaves of 585 and 146 are. -/
def widePath : List Bool := [
  true, false, true, true, false, true, false, true, true, true, true, true,
  true, true, false, true, true, false, true, true, true, true, false, true,
  true, false, false, false, true, false, true, true, true, false, true, false,
  true, true, false, true, true, false, true, true, true, true, true, true,
  true, false, true, true, false, false, false, true, false, true, false, true,
  true, false, true, true]

/-- Where the leaf of 435 is. -/
def firstPath : List Bool := [true, false, true, true, false, true, false, false, false]

/-- Whether these symbols are there, as a number for a fast evaluation. -/
def wideCode (t : HTree) : Nat :=
  match follow widePath t with
  | some (.node _ (.leaf _ x) (.leaf _ y)) =>
    match follow firstPath t with
    | some (.leaf _ z) => if x = 585 then if y = 146 then if z = 435 then 1 else 0 else 0 else 0
    | _ => 0
  | _ => 0

theorem wide_eval : (match treeS 10 wideList with
    | some t => wideCode t
    | none => 0) = 1 := by decide +kernel

theorem wideCode_spec {t : HTree} (h : wideCode t = 1) : Sib 585 146 65 t ∧ At 435 9 t := by
  unfold wideCode at h
  split at h
  · rename_i f g x g' y h1
    split at h
    · rename_i g'' z h2
      split at h
      · split at h
        · split at h
          · rename_i hx hy hz
            subst hx hy hz
            exact ⟨sib_of_follow widePath h1 rfl, at_of_follow firstPath h2 rfl⟩
          · cases h
        · cases h
      · cases h
    · cases h
  · cases h

theorem wide_length : wideList.length = 700 := by decide +kernel

theorem wide_total : wideList.sum = 1897276100 := by decide +kernel

theorem wideFreq_ge {c : Nat} (h : 700 ≤ c) : wideFreq c = 0 := by
  unfold wideFreq
  rw [List.getD_eq_getElem?_getD, List.getElem?_eq_none (by rw [wide_length]; exact h)]
  rfl

theorem treeOfFreq_zero (swap : Nat → Bool) (freq : Nat → Nat) (m n : Nat) (hn : m ≤ n)
    (h0 : ∀ c, m ≤ c → freq c = 0) : treeOfFreq swap freq n = treeOfFreq swap freq m := by
  have : insertLeaves freq (List.range n) [] = insertLeaves freq (List.range m) [] := by
    obtain ⟨k, rfl⟩ := Nat.exists_eq_add_of_le hn
    rw [List.range_add, insertLeaves_append]
    cases insertLeaves freq (List.range m) [] with
    | none => rfl
    | some q =>
      refine insertLeaves_zero _ _ _ fun c hc => ?_
      simp only [List.mem_map] at hc
      obtain ⟨a, _, rfl⟩ := hc
      exact h0 _ (by omega)
  simp only [treeOfFreq, this]

theorem treeOfFreq_wide (swap : Nat → Bool) (n : Nat) (hn : 700 ≤ n) :
    treeOfFreq swap wideFreq n = treeOfFreq swap wideFreq 700 :=
  treeOfFreq_zero swap wideFreq 700 n hn fun _ h => wideFreq_ge h

theorem wide_treeS : treeS 10 wideList = treeOfFreq (fun _ => false) wideFreq 700 := by
  have he := treeS_eq 10 wideList (by rw [wide_length]; decide)
  rw [wide_length] at he
  rw [he, show wideFreq = fun c => wideList.getD c 0 from funext fun c => by rw [wideFreq]]

theorem wide_tree (swap : Nat → Bool) (n : Nat) (hn : 700 ≤ n) :
    ∃ t, treeOfFreq swap wideFreq n = some t ∧ Sib 146 585 65 t ∧ At 435 9 t := by
  rw [treeOfFreq_wide swap n hn]
  have h0 := wide_eval
  have hm := treeOfFreq_mir swap (fun _ => false) wideFreq 700
  rw [wide_treeS] at h0
  revert h0 hm
  generalize treeOfFreq (fun _ => false) wideFreq 700 = y
  generalize treeOfFreq swap wideFreq 700 = x
  intro h0 hm
  cases hm with
  | none => simp at h0
  | some h =>
    obtain ⟨h1, h2⟩ := wideCode_spec h0
    exact ⟨_, rfl, h1.symm.mir h, h2.mir h⟩

end CpSZ.Huff
