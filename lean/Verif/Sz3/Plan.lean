import Verif.Sz3.Model
import Mathlib.Data.List.Perm.Basic
import Mathlib.Tactic.Ring
/-
The traversal of the interpolation based mode: every vertex once, predictors use only
vertices already treated.
-/

namespace CpSZ.Sz3

theorem lineDec_eq (n : Nat) : lineDec n = lineEnc n := rfl

theorem passColsD_eq (r1 r2 s : Nat) (h : Bool) :
    passColsD r1 r2 s = (passCols r1 r2 s h).map Ev.toD := by
  simp only [passColsD, passCols, List.map_flatMap, List.map_map, lineDec_eq]
  rfl

theorem passRowsD_eq (r1 r2 s : Nat) (h : Bool) :
    passRowsD r1 r2 s = (passRows r1 r2 s h).map Ev.toD := by
  simp only [passRowsD, passRows, List.map_flatMap, List.map_map, lineDec_eq]
  rfl

theorem levelsDec_eq (r1 r2 l : Nat) : levelsDec r1 r2 l = (levelsEnc r1 r2 l).map Ev.toD := by
  induction l with
  | zero => rfl
  | succ l ih =>
    simp only [levelsDec, levelsEnc, List.map_append, ih,
      passColsD_eq r1 r2 _ (decide (3 ≤ l + 1)), passRowsD_eq r1 r2 _ (decide (3 ≤ l + 1))]

/-- The decompressor treats the same vertices in the same order with the same predictors. -/
theorem planDec_eq (r1 r2 : Nat) : planDec r1 r2 = (planEnc r1 r2).map Ev.toD := by
  simp only [planDec, planEnc, List.map_cons, levelsDec_eq, Ev.toD]

/-! ### One line -/

theorem linLoop_spec (n i : Nat) : ∀ x ∈ linLoop n i, i ≤ x.1 ∧ x.1 + 1 < n ∧
    x.1 % 2 = i % 2 ∧ x.2 = .linear := by
  fun_induction linLoop n i with
  | case1 i h ih =>
    intro x hx
    rcases List.mem_cons.1 hx with rfl | hx
    · exact ⟨le_refl _, h, rfl, rfl⟩
    · have := ih x hx
      exact ⟨by omega, this.2.1, by omega, this.2.2.2⟩
  | case2 i h => intro x hx; cases hx

theorem linLoop_complete (n i : Nat) (k : Nat) (h1 : i ≤ k) (h2 : k + 1 < n)
    (h3 : k % 2 = i % 2) : k ∈ (linLoop n i).map Prod.fst := by
  fun_induction linLoop n i with
  | case1 i h ih =>
    by_cases hk : k = i
    · simp [hk]
    · exact List.mem_cons_of_mem _ (ih (by omega) (by omega))
  | case2 i h => omega

theorem linLoop_nodup (n i : Nat) : ((linLoop n i).map Prod.fst).Nodup := by
  fun_induction linLoop n i with
  | case1 i h ih =>
    simp only [List.map_cons, List.nodup_cons]
    refine ⟨fun hm => ?_, ih⟩
    obtain ⟨x, hx, e⟩ := List.mem_map.1 hm
    have := (linLoop_spec n (i + 2) x hx).1
    omega
  | case2 i h => simp

theorem cubLoop_spec (n i : Nat) (hi : i + 1 < n) (hp : i % 2 = 1) (h3 : 3 ≤ i) :
    ∀ x ∈ cubLoop n i, i ≤ x.1 ∧ x.1 + 1 < n ∧ x.1 % 2 = 1 ∧
      ((x.2 = .cubic ∧ x.1 + 3 < n) ∨ x.2 = .quad2) := by
  fun_induction cubLoop n i with
  | case1 i h ih =>
    intro x hx
    rcases List.mem_cons.1 hx with rfl | hx
    · exact ⟨le_refl _, by omega, hp, Or.inl ⟨rfl, h⟩⟩
    · have := ih (by omega) (by omega) (by omega) x hx
      exact ⟨by omega, this.2.1, this.2.2.1, this.2.2.2⟩
  | case2 i h =>
    intro x hx
    rw [List.mem_singleton] at hx
    subst hx
    exact ⟨le_refl _, hi, hp, Or.inr rfl⟩

theorem cubLoop_complete (n i : Nat) (hi : i + 1 < n) (k : Nat) (h1 : i ≤ k) (h2 : k + 1 < n)
    (h3 : k % 2 = i % 2) : k ∈ (cubLoop n i).map Prod.fst := by
  fun_induction cubLoop n i with
  | case1 i h ih =>
    by_cases hk : k = i
    · simp [hk]
    · exact List.mem_cons_of_mem _ (ih (by omega) (by omega) (by omega))
  | case2 i h =>
    have : k = i := by omega
    simp [this]

theorem cubLoop_nodup (n i : Nat) (hi : i + 1 < n) (hp : i % 2 = 1) (h3 : 3 ≤ i) :
    ((cubLoop n i).map Prod.fst).Nodup := by
  fun_induction cubLoop n i with
  | case1 i h ih =>
    simp only [List.map_cons, List.nodup_cons]
    refine ⟨fun hm => ?_, ih (by omega) (by omega) (by omega)⟩
    obtain ⟨x, hx, e⟩ := List.mem_map.1 hm
    have := (cubLoop_spec n (i + 2) (by omega) (by omega) (by omega) x hx).1
    omega
  | case2 i h => simp

/-- Along a line the vertices with odd index are treated, and predictors read vertices with
even index of the line. -/
theorem lineEnc_spec (n : Nat) : ∀ x ∈ lineEnc n, x.1 < n ∧ x.1 % 2 = 1 ∧
    ∀ o ∈ x.2.reads, ∃ k : Nat, (k : Int) = x.1 + o ∧ k < n ∧ k % 2 = 0 := by
  intro x hx
  unfold lineEnc at hx
  split at hx
  · cases hx
  rename_i h1
  have hleft : ∀ x ∈ (if n % 2 = 0 then [(n - 1, Interp.left)] else []),
      x.1 < n ∧ x.1 % 2 = 1 ∧
      ∀ o ∈ x.2.reads, ∃ k : Nat, (k : Int) = x.1 + o ∧ k < n ∧ k % 2 = 0 := by
    intro x hx
    split at hx
    · rw [List.mem_singleton] at hx
      subst hx
      refine ⟨by simp only; omega, by simp only; omega, fun o ho => ?_⟩
      simp only [Interp.reads, List.mem_singleton] at ho
      subst ho
      exact ⟨n - 2, by simp only; omega, by omega, by omega⟩
    · cases hx
  split at hx
  · rcases List.mem_append.1 hx with hx | hx
    · obtain ⟨a, b, c, d⟩ := linLoop_spec n 1 x hx
      refine ⟨by omega, by omega, fun o ho => ?_⟩
      rw [d] at ho
      simp only [Interp.reads, List.mem_cons, List.not_mem_nil, or_false] at ho
      rcases ho with rfl | rfl
      · exact ⟨x.1 - 1, by omega, by omega, by omega⟩
      · exact ⟨x.1 + 1, by omega, by omega, by omega⟩
    · exact hleft x hx
  · rename_i h5
    rcases List.mem_cons.1 hx with rfl | hx
    · refine ⟨by simp only; omega, rfl, fun o ho => ?_⟩
      simp only [Interp.reads, List.mem_cons, List.not_mem_nil, or_false] at ho
      rcases ho with rfl | rfl | rfl
      · exact ⟨0, rfl, by omega, rfl⟩
      · exact ⟨2, rfl, by omega, rfl⟩
      · exact ⟨4, rfl, by omega, rfl⟩
    · rcases List.mem_append.1 hx with hx | hx
      · obtain ⟨a, b, c, d⟩ := cubLoop_spec n 3 (by omega) rfl (le_refl _) x hx
        refine ⟨by omega, c, fun o ho => ?_⟩
        rcases d with ⟨d, d'⟩ | d
        · rw [d] at ho
          simp only [Interp.reads, List.mem_cons, List.not_mem_nil, or_false] at ho
          rcases ho with rfl | rfl | rfl | rfl
          · exact ⟨x.1 - 3, by omega, by omega, by omega⟩
          · exact ⟨x.1 - 1, by omega, by omega, by omega⟩
          · exact ⟨x.1 + 1, by omega, by omega, by omega⟩
          · exact ⟨x.1 + 3, by omega, by omega, by omega⟩
        · rw [d] at ho
          simp only [Interp.reads, List.mem_cons, List.not_mem_nil, or_false] at ho
          rcases ho with rfl | rfl | rfl
          · exact ⟨x.1 - 3, by omega, by omega, by omega⟩
          · exact ⟨x.1 - 1, by omega, by omega, by omega⟩
          · exact ⟨x.1 + 1, by omega, by omega, by omega⟩
      · exact hleft x hx

theorem lineEnc_complete (n k : Nat) (h : k < n) (hk : k % 2 = 1) :
    k ∈ (lineEnc n).map Prod.fst := by
  unfold lineEnc
  rw [if_neg (by omega)]
  have hl : k + 1 = n → k ∈ (if n % 2 = 0 then [(n - 1, Interp.left)] else []).map Prod.fst := by
    intro e
    rw [if_pos (by omega)]
    simp; omega
  split
  · rw [List.map_append, List.mem_append]
    by_cases e : k + 1 = n
    · exact Or.inr (hl e)
    · exact Or.inl (linLoop_complete n 1 k (by omega) (by omega) (by omega))
  · simp only [List.map_cons, List.map_append, List.mem_cons, List.mem_append]
    by_cases e1 : k = 1
    · exact Or.inl e1
    by_cases e : k + 1 = n
    · exact Or.inr (Or.inr (hl e))
    · exact Or.inr (Or.inl (cubLoop_complete n 3 (by omega) k (by omega) (by omega) (by omega)))

theorem lineEnc_nodup (n : Nat) : ((lineEnc n).map Prod.fst).Nodup := by
  unfold lineEnc
  split
  · simp
  rename_i h1
  split
  · rw [List.map_append, List.nodup_append]
    refine ⟨linLoop_nodup n 1, by split <;> simp, ?_⟩
    intro a ha b hb e
    obtain ⟨x, hx, rfl⟩ := List.mem_map.1 ha
    have := linLoop_spec n 1 x hx
    split at hb
    · simp at hb; omega
    · simp at hb
  · rw [List.map_cons, List.map_append, List.nodup_cons, List.nodup_append]
    refine ⟨?_, cubLoop_nodup n 3 (by omega) rfl (le_refl _), by split <;> simp, ?_⟩
    · rw [List.mem_append]
      rintro (ha | hb)
      · obtain ⟨x, hx, e⟩ := List.mem_map.1 ha
        have := cubLoop_spec n 3 (by omega) rfl (le_refl _) x hx
        omega
      · split at hb
        · simp at hb; omega
        · simp at hb
    · intro a ha b hb e
      obtain ⟨x, hx, rfl⟩ := List.mem_map.1 ha
      have := cubLoop_spec n 3 (by omega) rfl (le_refl _) x hx
      split at hb
      · simp at hb; omega
      · simp at hb

theorem mem_stepLoop (bound step i : Nat) (hs : 0 < step) (k : Nat) :
    k ∈ stepLoop bound step i ↔ k < bound ∧ ∃ t, k = i + t * step := by
  fun_induction stepLoop bound step i with
  | case1 i h ih =>
    rw [List.mem_cons, ih]
    constructor
    · rintro (rfl | ⟨h1, t, rfl⟩)
      · exact ⟨h.1, 0, by omega⟩
      · exact ⟨h1, t + 1, by ring⟩
    · rintro ⟨h1, t, rfl⟩
      rcases t with _ | t
      · exact Or.inl (by omega)
      · exact Or.inr ⟨h1, t, by ring⟩
  | case2 i h =>
    simp only [List.not_mem_nil, false_iff, not_and]
    rintro h1 ⟨t, rfl⟩
    have : 0 ≤ t * step := Nat.zero_le _
    omega

theorem stepLoop_nodup (bound step i : Nat) : (stepLoop bound step i).Nodup := by
  fun_induction stepLoop bound step i with
  | case1 i h ih =>
    rw [List.nodup_cons]
    refine ⟨fun hm => ?_, ih⟩
    obtain ⟨-, t, ht⟩ := (mem_stepLoop bound step (i + step) h.2 i).1 hm
    omega
  | case2 i h => exact List.nodup_nil

/-! ### One level -/

/-- `k` is a multiple of `s`. -/
theorem mem_line {n s : Nat} (hs : 0 < s) {k : Nat} :
    (k < (n - 1) / s + 1 ∧ 0 < n) ↔ (k * s < n) := by
  rw [Nat.lt_succ_iff, Nat.le_div_iff_mul_le hs]
  omega

def Ev.rc (e : Ev) : Nat × Nat := (e.row, e.col)

theorem passCols_mem {r1 r2 s : Nat} {h : Bool} (h1 : 0 < r1) (hs : 0 < s) (a b : Nat) :
    (a, b) ∈ (passCols r1 r2 s h).map Ev.rc ↔
      a < r1 ∧ b < r2 ∧ (∃ t, b = t * (s * 2)) ∧ ∃ t, t % 2 = 1 ∧ a = t * s := by
  simp only [passCols, List.mem_map, List.mem_flatMap]
  constructor
  · rintro ⟨e, ⟨j, hj, x, hx, rfl⟩, e2⟩
    simp only [Ev.rc, Prod.mk.injEq] at e2
    obtain ⟨rfl, rfl⟩ := e2
    obtain ⟨hb, t, rfl⟩ := (mem_stepLoop _ _ _ (by omega) j).1 hj
    obtain ⟨g1, g2, -⟩ := lineEnc_spec _ x hx
    exact ⟨(mem_line hs).1 ⟨g1, h1⟩, hb, ⟨t, by omega⟩, x.1, g2, rfl⟩
  · rintro ⟨ha, hb, ⟨t, rfl⟩, k, hk, rfl⟩
    obtain ⟨x, hx, e⟩ := List.mem_map.1 (lineEnc_complete _ k ((mem_line hs).2 ha).1 hk)
    exact ⟨_, ⟨t * (s * 2), (mem_stepLoop _ _ _ (by omega) _).2 ⟨hb, t, by omega⟩, x, hx, rfl⟩,
      by simp only [Ev.rc, e]⟩

theorem passRows_mem {r1 r2 s : Nat} {h : Bool} (h2 : 0 < r2) (hs : 0 < s) (a b : Nat) :
    (a, b) ∈ (passRows r1 r2 s h).map Ev.rc ↔
      a < r1 ∧ b < r2 ∧ (∃ t, a = t * s) ∧ ∃ t, t % 2 = 1 ∧ b = t * s := by
  simp only [passRows, List.mem_map, List.mem_flatMap]
  constructor
  · rintro ⟨e, ⟨j, hj, x, hx, rfl⟩, e2⟩
    simp only [Ev.rc, Prod.mk.injEq] at e2
    obtain ⟨rfl, rfl⟩ := e2
    obtain ⟨hb, t, rfl⟩ := (mem_stepLoop _ _ _ hs j).1 hj
    obtain ⟨g1, g2, -⟩ := lineEnc_spec _ x hx
    exact ⟨hb, (mem_line hs).1 ⟨g1, h2⟩, ⟨t, by omega⟩, x.1, g2, rfl⟩
  · rintro ⟨ha, hb, ⟨t, rfl⟩, k, hk, rfl⟩
    obtain ⟨x, hx, e⟩ := List.mem_map.1 (lineEnc_complete _ k ((mem_line hs).2 hb).1 hk)
    exact ⟨_, ⟨t * s, (mem_stepLoop _ _ _ hs _).2 ⟨ha, t, by omega⟩, x, hx, rfl⟩,
      by simp only [Ev.rc, e]⟩

theorem nodup_flatMap_pair {α β : Type} (l : List α) (g : α → List β) (hl : l.Nodup)
    (hg : ∀ a ∈ l, (g a).Nodup) (hd : ∀ a ∈ l, ∀ b ∈ l, ∀ x ∈ g a, x ∈ g b → a = b) :
    (l.flatMap g).Nodup := by
  induction l with
  | nil => simp
  | cons a l ih =>
    rw [List.nodup_cons] at hl
    rw [List.flatMap_cons, List.nodup_append]
    refine ⟨hg a (by simp), ih hl.2 (fun b hb => hg b (by simp [hb]))
      (fun b hb c hc => hd b (by simp [hb]) c (by simp [hc])), ?_⟩
    rintro x hx y hy rfl
    obtain ⟨b, hb, hxb⟩ := List.mem_flatMap.1 hy
    have := hd a (by simp) b (by simp [hb]) x hx hxb
    subst this
    exact hl.1 hb

theorem passCols_nodup {r1 r2 s : Nat} {h : Bool} (hs : 0 < s) :
    ((passCols r1 r2 s h).map Ev.rc).Nodup := by
  simp only [passCols, List.map_flatMap, List.map_map]
  apply nodup_flatMap_pair _ _ (stepLoop_nodup _ _ _)
  · intro j _
    have : (Ev.rc ∘ fun x : Nat × Interp =>
        (⟨j + x.1 * (s * r2), x.1 * s, j, s * r2, x.2, h⟩ : Ev)) =
        (fun k : Nat => (k * s, j)) ∘ Prod.fst := rfl
    rw [this, ← List.map_map]
    apply List.Nodup.map _ (lineEnc_nodup _)
    intro a b e
    simp only [Prod.mk.injEq, and_true] at e
    exact Nat.eq_of_mul_eq_mul_right hs e
  · intro a _ b _ x hx hy
    obtain ⟨y, -, rfl⟩ := List.mem_map.1 hx
    obtain ⟨z, -, e⟩ := List.mem_map.1 hy
    simp only [Function.comp_apply, Ev.rc, Prod.mk.injEq] at e
    exact e.2.symm

theorem passRows_nodup {r1 r2 s : Nat} {h : Bool} (hs : 0 < s) :
    ((passRows r1 r2 s h).map Ev.rc).Nodup := by
  simp only [passRows, List.map_flatMap, List.map_map]
  apply nodup_flatMap_pair _ _ (stepLoop_nodup _ _ _)
  · intro j _
    have : (Ev.rc ∘ fun x : Nat × Interp =>
        (⟨j * r2 + x.1 * s, j, x.1 * s, s, x.2, h⟩ : Ev)) =
        (fun k : Nat => (j, k * s)) ∘ Prod.fst := rfl
    rw [this, ← List.map_map]
    apply List.Nodup.map _ (lineEnc_nodup _)
    intro a b e
    simp only [Prod.mk.injEq, true_and] at e
    exact Nat.eq_of_mul_eq_mul_right hs e
  · intro a _ b _ x hx hy
    obtain ⟨y, -, rfl⟩ := List.mem_map.1 hx
    obtain ⟨z, -, e⟩ := List.mem_map.1 hy
    simp only [Function.comp_apply, Ev.rc, Prod.mk.injEq] at e
    exact e.1.symm

/-! ### All levels -/

/-- Both coordinates are in the grid and multiples of `s`. -/
def OnGrid (r1 r2 s : Nat) (x : Nat × Nat) : Prop :=
  x.1 < r1 ∧ x.2 < r2 ∧ s ∣ x.1 ∧ s ∣ x.2

theorem onGrid_one (r1 r2 : Nat) (x : Nat × Nat) : OnGrid r1 r2 1 x ↔ x.1 < r1 ∧ x.2 < r2 := by
  simp [OnGrid]

theorem odd_mul_dvd {t s : Nat} (ht : t % 2 = 1) (hs : 0 < s) : ¬ (s * 2 ∣ t * s) := by
  rw [Nat.mul_comm s 2]
  intro h
  have := Nat.dvd_of_mul_dvd_mul_right hs h
  omega

theorem dvd_cases {s a : Nat} (h : s ∣ a) : (∃ t, a = t * (s * 2)) ∨ ∃ t, t % 2 = 1 ∧ a = t * s := by
  obtain ⟨k, rfl⟩ := h
  rcases Nat.mod_two_eq_zero_or_one k with hk | hk
  · refine Or.inl ⟨k / 2, ?_⟩
    have : k = 2 * (k / 2) := by omega
    calc s * k = s * (2 * (k / 2)) := by rw [← this]
      _ = k / 2 * (s * 2) := by ring
  · exact Or.inr ⟨k, hk, Nat.mul_comm _ _⟩

theorem two_dvd {s a : Nat} (h : s * 2 ∣ a) : s ∣ a := (Nat.dvd_mul_right s 2).trans h

/-- The vertices treated at the levels `l, …, 1` are those on the finest grid not on the grid
with spacing `2^l`. -/
theorem levels_mem {r1 r2 : Nat} (h1 : 0 < r1) (h2 : 0 < r2) (l : Nat) (x : Nat × Nat) :
    x ∈ (levelsEnc r1 r2 l).map Ev.rc ↔ OnGrid r1 r2 1 x ∧ ¬ OnGrid r1 r2 (2 ^ l) x := by
  induction l with
  | zero => simp [levelsEnc]
  | succ l ih =>
    obtain ⟨a, b⟩ := x
    have hs : 0 < 2 ^ l := Nat.pow_pos (by omega)
    simp only [levelsEnc, List.map_append, List.mem_append, ih, passCols_mem h1 hs,
      passRows_mem h2 hs, pow_succ]
    generalize 2 ^ l = s at *
    simp only [OnGrid, one_dvd, and_true]
    constructor
    · rintro ((⟨ha, hb, ⟨t, rfl⟩, k, hk, rfl⟩ | ⟨ha, hb, ⟨t, rfl⟩, k, hk, rfl⟩) | ⟨⟨ha, hb⟩, hn⟩)
      · exact ⟨⟨ha, hb⟩, fun h => odd_mul_dvd hk hs h.2.2.1⟩
      · exact ⟨⟨ha, hb⟩, fun h => odd_mul_dvd hk hs h.2.2.2⟩
      · exact ⟨⟨ha, hb⟩, fun h => hn ⟨ha, hb, two_dvd h.2.2.1, two_dvd h.2.2.2⟩⟩
    · rintro ⟨⟨ha, hb⟩, hn⟩
      by_cases hd : s ∣ a ∧ s ∣ b
      · left
        rcases dvd_cases hd.2 with hb2 | hb2
        · rcases dvd_cases hd.1 with ha2 | ha2
          · exfalso
            obtain ⟨t, rfl⟩ := hb2
            obtain ⟨t', rfl⟩ := ha2
            exact hn ⟨ha, hb, Nat.dvd_mul_left _ _, Nat.dvd_mul_left _ _⟩
          · exact Or.inl ⟨ha, hb, hb2, ha2⟩
        · obtain ⟨k, rfl⟩ := hd.1
          exact Or.inr ⟨ha, hb, ⟨k, Nat.mul_comm _ _⟩, hb2⟩
      · exact Or.inr ⟨⟨ha, hb⟩, fun h => hd ⟨h.2.2.1, h.2.2.2⟩⟩

theorem levels_nodup {r1 r2 : Nat} (h1 : 0 < r1) (h2 : 0 < r2) (l : Nat) :
    ((levelsEnc r1 r2 l).map Ev.rc).Nodup := by
  induction l with
  | zero => simp [levelsEnc]
  | succ l ih =>
    have hs : 0 < 2 ^ l := Nat.pow_pos (by omega)
    simp only [levelsEnc, List.map_append, List.nodup_append]
    refine ⟨⟨passCols_nodup hs, passRows_nodup hs, ?_⟩, ih, ?_⟩
    · rintro ⟨a, b⟩ hx y hy rfl
      rw [passCols_mem h1 hs] at hx
      rw [passRows_mem h2 hs] at hy
      obtain ⟨-, -, ⟨t, rfl⟩, -⟩ := hx
      obtain ⟨-, -, -, k, hk, e⟩ := hy
      exact odd_mul_dvd hk hs (e ▸ Nat.dvd_mul_left _ _)
    · rintro ⟨a, b⟩ hx y hy rfl
      rw [levels_mem h1 h2] at hy
      apply hy.2
      rcases List.mem_append.1 hx with hx | hx
      · rw [passCols_mem h1 hs] at hx
        obtain ⟨ha, hb, ⟨t, rfl⟩, k, -, rfl⟩ := hx
        exact ⟨ha, hb, Nat.dvd_mul_left _ _, two_dvd (Nat.dvd_mul_left _ _)⟩
      · rw [passRows_mem h2 hs] at hx
        obtain ⟨ha, hb, ⟨t, rfl⟩, k, -, rfl⟩ := hx
        exact ⟨ha, hb, Nat.dvd_mul_left _ _, Nat.dvd_mul_left _ _⟩

/-- Only the first vertex lies on the coarsest grid. -/
theorem onGrid_top {r1 r2 : Nat} (h1 : 0 < r1) (h2 : 0 < r2) (x : Nat × Nat) :
    OnGrid r1 r2 (2 ^ interpLevel r1 r2) x ↔ x = (0, 0) := by
  have hle : max r1 r2 ≤ 2 ^ interpLevel r1 r2 := Nat.le_pow_clog (by omega) _
  obtain ⟨a, b⟩ := x
  simp only [OnGrid, Prod.mk.injEq]
  constructor
  · rintro ⟨ha, hb, hda, hdb⟩
    exact ⟨Nat.eq_zero_of_dvd_of_lt hda (by omega), Nat.eq_zero_of_dvd_of_lt hdb (by omega)⟩
  · rintro ⟨rfl, rfl⟩
    exact ⟨h1, h2, Nat.dvd_zero _, Nat.dvd_zero _⟩

theorem plan_mem {r1 r2 : Nat} (h1 : 0 < r1) (h2 : 0 < r2) (x : Nat × Nat) :
    x ∈ (planEnc r1 r2).map Ev.rc ↔ x.1 < r1 ∧ x.2 < r2 := by
  rw [planEnc, List.map_cons, List.mem_cons, levels_mem h1 h2, onGrid_top h1 h2, onGrid_one]
  constructor
  · rintro (rfl | h)
    · exact ⟨h1, h2⟩
    · exact h.1
  · intro h
    by_cases e : x = (0, 0)
    · exact Or.inl e
    · exact Or.inr ⟨h, e⟩

theorem plan_nodup {r1 r2 : Nat} (h1 : 0 < r1) (h2 : 0 < r2) :
    ((planEnc r1 r2).map Ev.rc).Nodup := by
  rw [planEnc, List.map_cons, List.nodup_cons]
  refine ⟨fun h => ?_, levels_nodup h1 h2 _⟩
  rw [levels_mem h1 h2, onGrid_top h1 h2] at h
  exact h.2 rfl

/-- The array position is that of the row and column. -/
theorem plan_pos {r1 r2 : Nat} : ∀ e ∈ planEnc r1 r2, e.pos = e.row * r2 + e.col := by
  have hl : ∀ l, ∀ e ∈ levelsEnc r1 r2 l, e.pos = e.row * r2 + e.col := by
    intro l
    induction l with
    | zero => intro e he; cases he
    | succ l ih =>
      intro e he
      rw [levelsEnc, List.mem_append, List.mem_append] at he
      rcases he with (he | he) | he
      · simp only [passCols, List.mem_flatMap, List.mem_map] at he
        obtain ⟨j, -, x, -, rfl⟩ := he
        simp only; ring
      · simp only [passRows, List.mem_flatMap, List.mem_map] at he
        obtain ⟨j, -, x, -, rfl⟩ := he
        rfl
      · exact ih e he
  intro e he
  rcases List.mem_cons.1 he with rfl | he
  · simp
  · exact hl _ e he

theorem pos_inj {r2 : Nat} {x y : Nat × Nat} (hx : x.2 < r2) (hy : y.2 < r2)
    (h : x.1 * r2 + x.2 = y.1 * r2 + y.2) : x = y := by
  have h1 : (x.1 * r2 + x.2) % r2 = x.2 := by
    rw [Nat.add_comm, Nat.add_mul_mod_self_right, Nat.mod_eq_of_lt hx]
  have h2 : (y.1 * r2 + y.2) % r2 = y.2 := by
    rw [Nat.add_comm, Nat.add_mul_mod_self_right, Nat.mod_eq_of_lt hy]
  have e : x.2 = y.2 := by rw [← h1, ← h2, h]
  have e' : x.1 * r2 = y.1 * r2 := by omega
  exact Prod.ext (Nat.eq_of_mul_eq_mul_right (by omega) e') e

/-- Every array position is treated exactly once. -/
theorem plan_perm {r1 r2 : Nat} (h1 : 0 < r1) (h2 : 0 < r2) :
    ((planEnc r1 r2).map Ev.pos).Perm (List.range (r1 * r2)) := by
  have e : (planEnc r1 r2).map Ev.pos =
      ((planEnc r1 r2).map Ev.rc).map fun x => x.1 * r2 + x.2 := by
    rw [List.map_map]
    exact List.map_congr_left fun e he => plan_pos e he
  rw [e, List.perm_ext_iff_of_nodup ?_ List.nodup_range]
  · intro q
    rw [List.mem_map, List.mem_range]
    constructor
    · rintro ⟨x, hx, rfl⟩
      rw [plan_mem h1 h2] at hx
      exact Mesh2D.flat_lt _ _ _ _ hx.1 hx.2
    · intro hq
      refine ⟨(q / r2, q % r2), (plan_mem h1 h2 _).2 ⟨?_, Nat.mod_lt _ h2⟩, ?_⟩
      · exact (Nat.div_lt_iff_lt_mul h2).2 hq
      · simp only
        rw [Nat.mul_comm]; exact Nat.div_add_mod q r2
  · refine List.Nodup.map_on ?_ (plan_nodup h1 h2)
    intro x hx y hy h
    rw [plan_mem h1 h2] at hx hy
    exact pos_inj hx.2 hy.2 h

/-! ### Predictors use treated vertices -/

/-- Positions read by the predictor of a vertex. -/
def Ev.reads (e : Ev) : List Int := e.toD.reads

/-- Every position read belongs to `done` or to an earlier vertex of the list. -/
def Causal : (Nat → Prop) → List Ev → Prop
  | _, [] => True
  | done, e :: es => (∀ p ∈ e.reads, ∃ q : Nat, p = q ∧ done q) ∧
      Causal (fun q => done q ∨ q = e.pos) es

theorem Causal.mono {es : List Ev} {d d' : Nat → Prop} (h : ∀ q, d q → d' q) (hc : Causal d es) :
    Causal d' es := by
  induction es generalizing d d' with
  | nil => trivial
  | cons e es ih =>
    refine ⟨fun p hp => ?_, ih (fun q hq => hq.imp (h q) (fun x => x)) hc.2⟩
    obtain ⟨q, h1, h2⟩ := hc.1 p hp
    exact ⟨q, h1, h q h2⟩

theorem causal_append {l l' : List Ev} {d : Nat → Prop} (h : Causal d l)
    (h' : Causal (fun q => d q ∨ q ∈ l.map Ev.pos) l') : Causal d (l ++ l') := by
  induction l generalizing d with
  | nil => exact h'.mono (by simp)
  | cons e es ih =>
    refine ⟨h.1, ih h.2 (h'.mono ?_)⟩
    intro q hq
    rw [List.map_cons, List.mem_cons] at hq
    tauto

theorem causal_of_reads {l : List Ev} {d : Nat → Prop}
    (h : ∀ e ∈ l, ∀ p ∈ e.reads, ∃ q : Nat, p = q ∧ d q) : Causal d l := by
  induction l generalizing d with
  | nil => trivial
  | cons e es ih =>
    refine ⟨h e (by simp), ih fun e' he' p hp => ?_⟩
    obtain ⟨q, h1, h2⟩ := h e' (by simp [he']) p hp
    exact ⟨q, h1, Or.inl h2⟩

theorem passCols_reads {r1 r2 s : Nat} {h : Bool} (h1 : 0 < r1) (hs : 0 < s) :
    ∀ e ∈ passCols r1 r2 s h, ∀ p ∈ e.reads, ∃ x : Nat × Nat,
      OnGrid r1 r2 (s * 2) x ∧ p = ((x.1 * r2 + x.2 : Nat) : Int) := by
  intro e he p hp
  simp only [passCols, List.mem_flatMap, List.mem_map] at he
  obtain ⟨j, hj, y, hy, rfl⟩ := he
  simp only [Ev.reads, Ev.toD, DEv.reads, List.mem_map] at hp
  obtain ⟨o, ho, rfl⟩ := hp
  obtain ⟨hb, t, rfl⟩ := (mem_stepLoop _ _ _ (by omega) j).1 hj
  obtain ⟨k, hk, hkn, hk2⟩ := (lineEnc_spec _ y hy).2.2 o ho
  have hkr : k * s < r1 := (mem_line hs).1 ⟨hkn, h1⟩
  refine ⟨(k * s, 0 + t * (s * 2)), ⟨hkr, hb, ?_, ?_⟩, ?_⟩
  · obtain ⟨k', rfl⟩ : ∃ k', k = 2 * k' := ⟨k / 2, by omega⟩
    exact ⟨k', by ring⟩
  · exact ⟨t, by ring⟩
  · have : o = (k : Int) - y.1 := by omega
    subst this
    push_cast
    ring

theorem passRows_reads {r1 r2 s : Nat} {h : Bool} (h2 : 0 < r2) (hs : 0 < s) :
    ∀ e ∈ passRows r1 r2 s h, ∀ p ∈ e.reads, ∃ x : Nat × Nat,
      x.1 < r1 ∧ x.2 < r2 ∧ s ∣ x.1 ∧ s * 2 ∣ x.2 ∧ p = ((x.1 * r2 + x.2 : Nat) : Int) := by
  intro e he p hp
  simp only [passRows, List.mem_flatMap, List.mem_map] at he
  obtain ⟨j, hj, y, hy, rfl⟩ := he
  simp only [Ev.reads, Ev.toD, DEv.reads, List.mem_map] at hp
  obtain ⟨o, ho, rfl⟩ := hp
  obtain ⟨hb, t, rfl⟩ := (mem_stepLoop _ _ _ hs j).1 hj
  obtain ⟨k, hk, hkn, hk2⟩ := (lineEnc_spec _ y hy).2.2 o ho
  have hkr : k * s < r2 := (mem_line hs).1 ⟨hkn, h2⟩
  refine ⟨(0 + t * s, k * s), hb, hkr, ⟨t, by ring⟩, ?_, ?_⟩
  · obtain ⟨k', rfl⟩ : ∃ k', k = 2 * k' := ⟨k / 2, by omega⟩
    exact ⟨k', by ring⟩
  · have : o = (k : Int) - y.1 := by omega
    subst this
    push_cast
    ring

theorem pass_pos {r1 r2 s : Nat} {h : Bool} :
    (∀ e ∈ passCols r1 r2 s h, e.pos = e.row * r2 + e.col) ∧
      ∀ e ∈ passRows r1 r2 s h, e.pos = e.row * r2 + e.col := by
  constructor
  · intro e he
    simp only [passCols, List.mem_flatMap, List.mem_map] at he
    obtain ⟨j, -, x, -, rfl⟩ := he
    simp only; ring
  · intro e he
    simp only [passRows, List.mem_flatMap, List.mem_map] at he
    obtain ⟨j, -, x, -, rfl⟩ := he
    rfl

theorem levels_causal {r1 r2 : Nat} (h1 : 0 < r1) (h2 : 0 < r2) (l : Nat) (d : Nat → Prop)
    (hd : ∀ x, OnGrid r1 r2 (2 ^ l) x → d (x.1 * r2 + x.2)) : Causal d (levelsEnc r1 r2 l) := by
  induction l generalizing d with
  | zero => trivial
  | succ l ih =>
    have hs : 0 < 2 ^ l := Nat.pow_pos (by omega)
    rw [pow_succ] at hd
    have hcols : ∀ x : Nat × Nat, x.1 < r1 → x.2 < r2 → 2 ^ l ∣ x.1 → 2 ^ l * 2 ∣ x.2 →
        ∀ h, d (x.1 * r2 + x.2) ∨ x.1 * r2 + x.2 ∈ (passCols r1 r2 (2 ^ l) h).map Ev.pos := by
      rintro ⟨a, b⟩ ha hb hda hdb h
      rcases dvd_cases hda with ⟨t, rfl⟩ | hodd
      · exact Or.inl (hd (_, b) ⟨ha, hb, Nat.dvd_mul_left _ _, hdb⟩)
      · right
        obtain ⟨k, rfl⟩ := hdb
        obtain ⟨e, he, hrc⟩ := List.mem_map.1 ((passCols_mem (h := h) h1 hs a (2 ^ l * 2 * k)).2
          ⟨ha, hb, ⟨k, by ring⟩, hodd⟩)
        refine List.mem_map.2 ⟨e, he, ?_⟩
        simp only [Ev.rc, Prod.mk.injEq] at hrc
        rw [pass_pos.1 e he, hrc.1, hrc.2]
    rw [levelsEnc]
    apply causal_append
    · apply causal_append
      · apply causal_of_reads
        intro e he p hp
        obtain ⟨x, hx, rfl⟩ := passCols_reads h1 hs e he p hp
        exact ⟨_, rfl, hd x hx⟩
      · apply causal_of_reads
        intro e he p hp
        obtain ⟨x, hx1, hx2, hx3, hx4, rfl⟩ := passRows_reads h2 hs e he p hp
        exact ⟨_, rfl, hcols x hx1 hx2 hx3 hx4 _⟩
    · apply ih
      rintro ⟨a, b⟩ ⟨ha, hb, hda, hdb⟩
      simp only at ha hb hda hdb ⊢
      rw [List.map_append, List.mem_append]
      rcases dvd_cases hdb with ⟨t, rfl⟩ | hodd
      · rcases hcols (a, t * (2 ^ l * 2)) ha hb hda (Nat.dvd_mul_left _ _)
          (decide (3 ≤ l + 1)) with hh | hh
        · exact Or.inl hh
        · exact Or.inr (Or.inl hh)
      · obtain ⟨k, rfl⟩ := hda
        right; right
        obtain ⟨e, he, hrc⟩ := List.mem_map.1 ((passRows_mem (h := decide (3 ≤ l + 1)) h2 hs
          (2 ^ l * k) b).2 ⟨ha, hb, ⟨k, by ring⟩, hodd⟩)
        refine List.mem_map.2 ⟨e, he, ?_⟩
        simp only [Ev.rc, Prod.mk.injEq] at hrc
        rw [pass_pos.2 e he, hrc.1, hrc.2]

theorem plan_causal {r1 r2 : Nat} (h1 : 0 < r1) (h2 : 0 < r2) :
    Causal (fun _ => False) (planEnc r1 r2) := by
  refine ⟨by simp [Ev.reads, Ev.toD, DEv.reads, Interp.reads], levels_causal h1 h2 _ _ ?_⟩
  intro x hx
  rw [onGrid_top h1 h2] at hx
  subst hx
  right; simp

theorem causal_split {l1 l2 : List Ev} {e : Ev} {d : Nat → Prop}
    (h : Causal d (l1 ++ e :: l2)) :
    ∀ p ∈ e.reads, ∃ q : Nat, p = q ∧ (d q ∨ q ∈ l1.map Ev.pos) := by
  induction l1 generalizing d with
  | nil => exact fun p hp => (h.1 p hp).imp fun q hq => ⟨hq.1, Or.inl hq.2⟩
  | cons a l1 ih =>
    intro p hp
    obtain ⟨q, rfl, hq⟩ := ih h.2 p hp
    refine ⟨q, rfl, ?_⟩
    rw [List.map_cons, List.mem_cons]
    tauto

end CpSZ.Sz3
