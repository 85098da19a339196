import Mathlib.Data.List.Perm.Basic
import Mathlib.Data.List.Nodup
/-
The comparison of two sets of critical points which the extraction tools print
(test/cp_extraction_2d.cpp L256-297, test/cp_extraction_3d.cpp L333-382).  The tools keep the
critical points in an `unordered_map` from simplex number to critical point; a map is modelled as
the list of its entries.  The order of iteration is not specified by the language, so the theorems
are about any list with these entries.
-/

namespace CpSZ.Extract

/-- The four counters.  (test/cp_extraction_2d.cpp L256-257; test/cp_extraction_3d.cpp L334-335.) -/
structure Report where
  tp : Nat
  fp : Nat
  fn : Nat
  ft : Nat
  deriving DecidableEq

variable {C Ty : Type} [DecidableEq Ty]

/-- `critical_points[id] = cp` on a map given by its entries.  (test/cp_extraction_2d.cpp L105;
test/cp_extraction_3d.cpp L151.) -/
def insertMap (l : List (Nat × C)) (e : Nat × C) : List (Nat × C) :=
  l.filter (fun x => x.1 != e.1) ++ [e]

/-- `find` on a map given by its entries.  (test/cp_extraction_2d.cpp L262, L278;
test/cp_extraction_3d.cpp L339, L356.) -/
def find (l : List (Nat × C)) (id : Nat) : Option C := (l.find? (fun x => x.1 == id)).map (·.2)

/-- The counters for the original critical points `l0` and the decompressed ones `l1`.
(test/cp_extraction_2d.cpp L256-297; test/cp_extraction_3d.cpp L333-382.) -/
def report (ty : C → Ty) (l0 l1 : List (Nat × C)) : Report where
  tp := l0.countP fun p => match find l1 p.1 with
    | some c => decide (ty p.2 = ty c)
    | none => false
  ft := l0.countP fun p => match find l1 p.1 with
    | some c => decide (ty p.2 ≠ ty c)
    | none => false
  fn := l0.countP fun p => (find l1 p.1).isNone
  fp := l1.countP fun p => (find l0 p.1).isNone

/-! ### Facts about maps -/

theorem find_none {l : List (Nat × C)} {id : Nat} :
    find l id = none ↔ ∀ x ∈ l, x.1 ≠ id := by
  simp [find]

theorem find_mem {l : List (Nat × C)} {id : Nat} {c : C} (h : find l id = some c) :
    (id, c) ∈ l := by
  unfold find at h
  obtain ⟨x, h1, rfl⟩ := Option.map_eq_some_iff.1 h
  have h2 := List.find?_some h1
  have h3 := List.mem_of_find?_eq_some h1
  have : x.1 = id := by simpa using h2
  rw [← this]
  exact h3

theorem mem_find {l : List (Nat × C)} (hn : (l.map (·.1)).Nodup) {id : Nat} {c : C}
    (h : (id, c) ∈ l) : find l id = some c := by
  cases hf : find l id with
  | none => exact absurd rfl (find_none.1 hf _ h)
  | some c' =>
    have h' := find_mem hf
    have := List.inj_on_of_nodup_map hn h h' rfl
    simp only [Prod.mk.injEq, true_and] at this
    rw [this]

/-- Entries with distinct keys are inserted without loss. -/
theorem insertMap_foldl (es l : List (Nat × C)) (hn : ((l ++ es).map (·.1)).Nodup) :
    es.foldl insertMap l = l ++ es := by
  induction es generalizing l with
  | nil => simp
  | cons e es ih =>
    have hf : insertMap l e = l ++ [e] := by
      unfold insertMap
      rw [List.filter_eq_self.2]
      intro x hx
      simp only [bne_iff_ne, ne_eq]
      rw [List.map_append, List.nodup_append] at hn
      exact hn.2.2 x.1 (List.mem_map_of_mem hx) e.1 (by simp)
    rw [List.foldl_cons, hf, ih (l ++ [e]) (by simpa using hn)]
    simp

theorem find_isNone {l : List (Nat × C)} {id : Nat} :
    (find l id).isNone = !decide (id ∈ l.map (·.1)) := by
  rw [Bool.eq_iff_iff, Option.isNone_iff_eq_none, find_none]
  simp only [Bool.not_eq_true', decide_eq_false_iff_not, List.mem_map, not_exists, not_and]

theorem countP_split {α : Type} (l : List α) (p q r : α → Bool)
    (h : ∀ x ∈ l, (p x).toNat + (q x).toNat + (r x).toNat = 1) :
    l.countP p + l.countP q + l.countP r = l.length := by
  induction l with
  | nil => rfl
  | cons x l ih =>
    have hx := h x (by simp)
    have := ih fun y hy => h y (List.mem_cons_of_mem _ hy)
    simp only [List.countP_cons, List.length_cons]
    cases hp : p x <;> cases hq : q x <;> cases hr : r x <;> simp [hp, hq, hr] at hx ⊢ <;> omega

/-- The original points are the matches, the changed types and the lost ones. -/
theorem report_origin (ty : C → Ty) (l0 l1 : List (Nat × C)) :
    (report ty l0 l1).tp + (report ty l0 l1).ft + (report ty l0 l1).fn = l0.length := by
  unfold report
  apply countP_split
  intro x _
  cases find l1 x.1 with
  | none => rfl
  | some c => by_cases h : ty x.2 = ty c <;> simp [h]

/-- The decompressed points are the matches, the changed types and the new ones. -/
theorem report_decompressed (ty : C → Ty) (l0 l1 : List (Nat × C)) (h0 : (l0.map (·.1)).Nodup)
    (h1 : (l1.map (·.1)).Nodup) :
    (report ty l0 l1).tp + (report ty l0 l1).ft + (report ty l0 l1).fp = l1.length := by
  have e := report_origin ty l0 l1
  have key : ∀ a b : List (Nat × C), a.countP (fun p => (find b p.1).isNone) +
      ((a.map (·.1)).filter (fun k => decide (k ∈ b.map (·.1)))).length = a.length := by
    intro a b
    induction a with
    | nil => rfl
    | cons x a ih =>
      simp only [List.countP_cons, List.map_cons, List.length_cons, List.filter_cons]
      rw [find_isNone]
      by_cases hx : x.1 ∈ b.map (·.1) <;> simp [hx] <;> omega
  have hp : ((l0.map (·.1)).filter (fun k => decide (k ∈ l1.map (·.1)))).Perm
      ((l1.map (·.1)).filter (fun k => decide (k ∈ l0.map (·.1)))) := by
    rw [List.perm_ext_iff_of_nodup (h0.filter _) (h1.filter _)]
    intro k
    simp only [List.mem_filter, decide_eq_true_eq]
    exact and_comm
  have a := key l0 l1
  have b := key l1 l0
  rw [hp.length_eq] at a
  have hfn : (report ty l0 l1).fn = l0.countP (fun p => (find l1 p.1).isNone) := rfl
  have hfp : (report ty l0 l1).fp = l1.countP (fun p => (find l0 p.1).isNone) := rfl
  omega

/-- Equal keys and equal types give a perfect report. -/
theorem report_perfect (ty : C → Ty) (l0 l1 : List (Nat × C)) (h1 : (l1.map (·.1)).Nodup)
    (a : ∀ id c, (id, c) ∈ l0 → ∃ c', (id, c') ∈ l1 ∧ ty c = ty c')
    (b : ∀ id c, (id, c) ∈ l1 → ∃ c', (id, c') ∈ l0) :
    report ty l0 l1 = ⟨l0.length, 0, 0, 0⟩ := by
  have e := report_origin ty l0 l1
  have hft : (report ty l0 l1).ft = 0 := by
    simp only [report, List.countP_eq_zero]
    rintro ⟨id, c⟩ hx
    obtain ⟨c', h, he⟩ := a id c hx
    rw [mem_find h1 h]
    simp [he]
  have hfn : (report ty l0 l1).fn = 0 := by
    simp only [report, List.countP_eq_zero]
    rintro ⟨id, c⟩ hx
    obtain ⟨c', h, he⟩ := a id c hx
    rw [mem_find h1 h]
    simp
  have hfp : (report ty l0 l1).fp = 0 := by
    simp only [report, List.countP_eq_zero]
    rintro ⟨id, c⟩ hx hn
    obtain ⟨c', h⟩ := b id c hx
    rw [Option.isNone_iff_eq_none] at hn
    exact find_none.1 hn _ h rfl
  rw [hft, hfn] at e
  have : report ty l0 l1 = ⟨(report ty l0 l1).tp, (report ty l0 l1).fp, (report ty l0 l1).fn,
    (report ty l0 l1).ft⟩ := rfl
  rw [this, hft, hfn, hfp, ← e]
  rfl

end CpSZ.Extract
