import Verif.Extract.Three
import Verif.Props.ThreeD
import Verif.Props.Offline3D
/-
Properties C53 and C54 (3D extraction tool).
-/

namespace CpSZ.Extract
open Mesh3D ThreeD VMode

variable {Ty : Type}

/-! ### C53 -/

theorem ftkNo_lt (s : Nat) : ftkNo s < 6 := by
  unfold ftkNo
  rcases Nat.lt_or_ge s 6 with h | h
  · interval_cases s <;> decide
  · rw [List.getD_eq_getElem?_getD, List.getElem?_eq_none (by simpa using h)]
    decide

theorem ftkNo_inj {s s' : Nat} (h : s < 6) (h' : s' < 6) (e : ftkNo s = ftkNo s') : s = s' := by
  interval_cases s <;> interval_cases s' <;> first | rfl | (exfalso; revert e; decide)

theorem tetNo_inj {r1 r2 r3 : Nat} {t u : Tet} (ht : t.inGrid r1 r2 r3) (hu : u.inGrid r1 r2 r3)
    (h : tetNo r2 r3 t = tetNo r2 r3 u) : t = u := by
  obtain ⟨a1, a2, a3, a4⟩ := ht
  obtain ⟨b1, b2, b3, b4⟩ := hu
  have f1 := ftkNo_lt t.s
  have f2 := ftkNo_lt u.s
  unfold tetNo at h
  have hs := ftkNo_inj a4 b4 (by omega)
  have := flat3_inj (p := (t.a, t.b, t.c)) (q := (u.a, u.b, u.c)) (r2 := r2) (r3 := r3)
    (by simp only; omega) (by simp only; omega) (by simp only; omega) (by simp only; omega)
    (by omega)
  obtain ⟨ta, tb, tc, ts⟩ := t
  obtain ⟨ua, ub, uc, us⟩ := u
  simp only [Prod.mk.injEq] at this hs
  simp [this, hs]

theorem tetNo_lt {r1 r2 r3 : Nat} {t : Tet} (ht : t.inGrid r1 r2 r3) :
    tetNo r2 r3 t < 6 * (r1 * r2 * r3) := by
  obtain ⟨a1, a2, a3, a4⟩ := ht
  have := flat3_lt r1 r2 r3 (t.a, t.b, t.c) (by simp only; omega) (by simp only; omega)
    (by simp only; omega)
  have := ftkNo_lt t.s
  unfold tetNo
  omega

theorem nodup_tets (r1 r2 r3 : Nat) : (tets r1 r2 r3).Nodup := by
  unfold tets
  rw [List.nodup_flatMap]
  refine ⟨fun i _ => ?_, ?_⟩
  · rw [List.nodup_flatMap]
    refine ⟨fun j _ => ?_, ?_⟩
    · rw [List.nodup_flatMap]
      refine ⟨fun k _ => ?_, ?_⟩
      · refine List.Nodup.map (fun a b h => ?_) List.nodup_range
        simpa using h
      · refine List.nodup_range.imp fun {a b} h => ?_
        simp only [Function.onFun, List.disjoint_left, List.mem_map, not_exists, not_and]
        rintro t ⟨s, -, rfl⟩ s' - e
        simp only [Tet.mk.injEq] at e
        exact h e.2.2.1.symm
    · refine List.nodup_range.imp fun {a b} h => ?_
      simp only [Function.onFun, List.disjoint_left, List.mem_map, List.mem_flatMap, not_exists,
        not_and]
      rintro t ⟨k, -, s, -, rfl⟩ k' - s' - e
      simp only [Tet.mk.injEq] at e
      exact h e.2.1.symm
  · refine List.nodup_range.imp fun {a b} h => ?_
    simp only [Function.onFun, List.disjoint_left, List.mem_map, List.mem_flatMap, not_exists,
      not_and]
    rintro t ⟨j, -, k, -, s, -, rfl⟩ j' - k' - s' - e
    simp only [Tet.mk.injEq] at e
    exact h e.1.symm

theorem mem_foldl_insertMap {C : Type} (es : List (Nat × C)) (l : List (Nat × C)) {e : Nat × C}
    (h : e ∈ es.foldl insertMap l) : e ∈ l ∨ e ∈ es := by
  induction es generalizing l with
  | nil => exact Or.inl h
  | cons a es ih =>
    rcases ih _ h with h | h
    · unfold insertMap at h
      rcases List.mem_append.1 h with h | h
      · exact Or.inl (List.mem_filter.1 h).1
      · simp only [List.mem_singleton] at h
        exact Or.inr (by simp [h])
    · exact Or.inr (List.mem_cons_of_mem _ h)

theorem keys_foldl_insertMap {C : Type} (es : List (Nat × C)) (l : List (Nat × C))
    (h : (l.map (·.1)).Nodup) : ((es.foldl insertMap l).map (·.1)).Nodup := by
  induction es generalizing l with
  | nil => exact h
  | cons a es ih =>
    apply ih
    unfold insertMap
    rw [List.map_append, List.nodup_append]
    refine ⟨(List.filter_sublist.map _).nodup h, by simp, ?_⟩
    intro x hx y hy
    simp only [List.mem_map, List.mem_filter, bne_iff_ne, ne_eq] at hx
    obtain ⟨z, ⟨-, hz⟩, rfl⟩ := hx
    simp only [List.map_cons, List.map_nil, List.mem_singleton] at hy
    rw [hy]
    exact hz

/-- The key of a map occurs once. -/
theorem keys3_nodup (ty : Polynomial ℝ → Ty) (r1 r2 r3 : Nat) (f : Nat → Nat → ℝ) :
    ((extract3 ty r1 r2 r3 f).map (·.1)).Nodup :=
  keys_foldl_insertMap _ _ (by simp)

/-- C53.  In exact arithmetic, on grids of at most `2^32 / 6` vertices, the extraction reports for
every field: one entry per tetrahedron of the grid whose interpolant has an invertible Jacobian, a
zero in the tetrahedron, and no zero at the corners; with the number of the tetrahedron, the
position of the zero and the type of the characteristic polynomial of the Jacobian.  Different
tetrahedra have different numbers. -/
theorem C53_extract (ty : Polynomial ℝ → Ty) (r1 r2 r3 : Nat) (hr : 6 * (r1 * r2 * r3) ≤ 2 ^ 32)
    (f : Nat → Nat → ℝ) :
    (∀ id c, (id, c) ∈ extract3 ty r1 r2 r3 f ↔
      ∃ t : Tet, t.inGrid r1 r2 r3 ∧ id = tetNo r2 r3 t ∧ IsPoint3 ty r2 r3 f t c) ∧
    (∀ t u : Tet, t.inGrid r1 r2 r3 → u.inGrid r1 r2 r3 → tetNo r2 r3 t = tetNo r2 r3 u → t = u) ∧
    ((extract3 ty r1 r2 r3 f).map (·.1)).Nodup := by
  have hk : ∀ t : Tet, t.inGrid r1 r2 r3 → tetNo r2 r3 t % 2 ^ 32 = tetNo r2 r3 t := fun t ht =>
    Nat.mod_eq_of_lt (lt_of_lt_of_le (tetNo_lt ht) hr)
  refine ⟨fun id c => ?_, fun t u ht hu => tetNo_inj ht hu, keys3_nodup ty r1 r2 r3 f⟩
  have hc := calls3_eq ty r1 r2 r3 f
  have hl : extract3 ty r1 r2 r3 f =
      (calls3 ty r1 r2 r3 f).filterMap fun e => e.2.map (Prod.mk e.1) := by
    unfold extract3
    rw [insertMap_foldl]
    · rfl
    · rw [List.nil_append]
      have hsub : (((calls3 ty r1 r2 r3 f).filterMap fun e => e.2.map (Prod.mk e.1)).map
          (·.1)).Sublist ((calls3 ty r1 r2 r3 f).map (·.1)) := by
        induction calls3 ty r1 r2 r3 f with
        | nil => simp
        | cons a l ih =>
          obtain ⟨n, o⟩ := a
          cases o with
          | none => simpa using ih.cons n
          | some x => simpa using ih
      refine hsub.nodup ?_
      rw [hc, List.map_map]
      refine List.Nodup.map_on (fun t ht u hu e => ?_) (nodup_tets r1 r2 r3)
      rw [mem_tets] at ht hu
      simp only [Function.comp_apply] at e
      rw [hk t ht, hk u hu] at e
      exact tetNo_inj ht hu e
  rw [hl, hc]
  simp only [List.mem_filterMap, List.mem_map, mem_tets]
  constructor
  · rintro ⟨e, ⟨t, ht, rfl⟩, h⟩
    obtain ⟨c', h1, h2⟩ := Option.map_eq_some_iff.1 h
    simp only [Prod.mk.injEq] at h2
    obtain ⟨rfl, rfl⟩ := h2
    exact ⟨t, ht, hk t ht, (checkTet_iff ty r2 r3 f t ht.2.2.2 c').1 h1⟩
  · rintro ⟨t, ht, rfl, hp⟩
    exact ⟨_, ⟨t, ht, rfl⟩, by
      simp only [(checkTet_iff ty r2 r3 f t ht.2.2.2 c).2 hp, Option.map_some, hk t ht]⟩

/-- C53, second part: the counters. -/
theorem C53_counters [DecidableEq Ty] (ty : Polynomial ℝ → Ty) (r1 r2 r3 : Nat)
    (f g : Nat → Nat → ℝ) (l0 l1 : List (Nat × CP3 Ty))
    (h0 : l0.Perm (extract3 ty r1 r2 r3 f)) (h1 : l1.Perm (extract3 ty r1 r2 r3 g)) :
    (report CP3.type l0 l1).tp + (report CP3.type l0 l1).ft + (report CP3.type l0 l1).fn =
      (extract3 ty r1 r2 r3 f).length ∧
    (report CP3.type l0 l1).tp + (report CP3.type l0 l1).ft + (report CP3.type l0 l1).fp =
      (extract3 ty r1 r2 r3 g).length := by
  have n0 : (l0.map (·.1)).Nodup := (h0.map _).nodup_iff.2 (keys3_nodup ty r1 r2 r3 f)
  have n1 : (l1.map (·.1)).Nodup := (h1.map _).nodup_iff.2 (keys3_nodup ty r1 r2 r3 g)
  rw [← h0.length_eq, ← h1.length_eq]
  exact ⟨report_origin _ _ _, report_decompressed _ _ _ n0 n1⟩

theorem point_row {ty : Polynomial ℝ → Ty} {r2 r3 : Nat} {f : Nat → Nat → ℝ} {t : Tet} {c : CP3 Ty}
    (ht : t.s < 6) (h : IsPoint3 ty r2 r3 f t c) : (t.a : ℝ) ≤ c.x 2 ∧ c.x 2 ≤ t.a + 1 := by
  obtain ⟨w, w0, w1, -, wx⟩ := h.pos
  rw [wx 2, sum_corners]
  rw [sum_corners] at w1
  have hx : ∀ q, (t.a : ℝ) ≤ xyz (corner t q) 2 ∧ xyz (corner t q) 2 ≤ t.a + 1 := by
    intro q
    rw [tetCoords_xyz ht]
    have : tetCoords t.s q 2 ≤ 1 := by
      obtain ⟨a, b, c, s⟩ := t
      simp only at ht ⊢
      interval_cases s <;> fin_cases q <;> simp [tetCoords]
    have h1 : (tetCoords t.s q 2 : ℝ) ≤ 1 := by exact_mod_cast this
    have h2 : (0 : ℝ) ≤ (tetCoords t.s q 2 : ℝ) := Nat.cast_nonneg _
    show (t.a : ℝ) ≤ (t.a : ℝ) + _ ∧ (t.a : ℝ) + _ ≤ t.a + 1
    constructor <;> linarith
  constructor
  · calc (t.a : ℝ) = ∑ q, w (corner t q) * t.a := by rw [← Finset.sum_mul, w1, one_mul]
      _ ≤ _ := Finset.sum_le_sum fun q _ =>
        mul_le_mul_of_nonneg_left (hx q).1 (w0 _ (mem_corners.2 ⟨q, rfl⟩))
  · calc _ ≤ ∑ q, w (corner t q) * ((t.a : ℝ) + 1) := Finset.sum_le_sum fun q _ =>
          mul_le_mul_of_nonneg_left (hx q).2 (w0 _ (mem_corners.2 ⟨q, rfl⟩))
      _ = (t.a : ℝ) + 1 := by rw [← Finset.sum_mul, w1, one_mul]

/-- C53, third part: on larger grids the keys of type `int` collide.  On a grid of `1024^3`
vertices, of two critical points in these two tetrahedra at most one is reported. -/
theorem C53_keys_collide : ∃ t u : Tet, t.inGrid 1024 1024 1024 ∧ u.inGrid 1024 1024 1024 ∧ t ≠ u ∧
    tetNo 1024 1024 t % 2 ^ 32 = tetNo 1024 1024 u % 2 ^ 32 ∧
    ∀ (ty : Polynomial ℝ → Ty) (f : Nat → Nat → ℝ) (c c' : CP3 Ty),
      IsPoint3 ty 1024 1024 f t c → IsPoint3 ty 1024 1024 f u c' →
      ¬ ((tetNo 1024 1024 t % 2 ^ 32, c) ∈ extract3 ty 1024 1024 1024 f ∧
        (tetNo 1024 1024 u % 2 ^ 32, c') ∈ extract3 ty 1024 1024 1024 f) := by
  refine ⟨⟨0, 0, 0, 0⟩, ⟨682, 682, 682, 3⟩, by simp [Tet.inGrid], by simp [Tet.inGrid], by simp,
    by decide, fun ty f c c' h h' ⟨m, m'⟩ => ?_⟩
  have hn := keys3_nodup ty 1024 1024 1024 f
  have hk : tetNo 1024 1024 ⟨0, 0, 0, 0⟩ % 2 ^ 32 = tetNo 1024 1024 ⟨682, 682, 682, 3⟩ % 2 ^ 32 := by
    decide
  have e := List.inj_on_of_nodup_map hn m m' hk
  simp only [Prod.mk.injEq] at e
  have p := (point_row (by simp) h).2
  have p' := (point_row (by simp) h').1
  rw [← e.2] at p'
  norm_num at p p'
  linarith

/-! ### C54 -/

/-- A cell that keeps its critical point and, if it has one, its values, has the same entry. -/
theorem check_same {ty : Polynomial ℝ → Ty} {r2 r3 : Nat} {f g : Nat → Nat → ℝ} {t : Tet}
    (ht : t.s < 6) (hcp : cellCP g (t.verts r2 r3) → cellCP f (t.verts r2 r3))
    (hex : cellCP f (t.verts r2 r3) → ∀ q ∈ t.verts r2 r3, ∀ c, c < 3 → g c q = f c q) :
    checkTet ty r2 r3 g t = checkTet ty r2 r3 f t := by
  have hno : ∀ k : Nat → Nat → ℝ, ¬ cellCP k (t.verts r2 r3) → checkTet ty r2 r3 k t = none := by
    intro k hk
    cases hc : checkTet ty r2 r3 k t with
    | none => rfl
    | some c =>
      exfalso
      apply hk
      obtain ⟨w, w0, w1, w2, -⟩ := ((checkTet_iff ty r2 r3 k t ht c).1 hc).pos
      refine ⟨t.corners.map fun P => (w P, vec k (flat3 r2 r3 P)), ?_, ?_, ?_, ?_, ?_, ?_⟩
      · simp [Tet.verts, List.map_map, Function.comp_def]
      · intro p hp
        obtain ⟨P, hP, rfl⟩ := List.mem_map.1 hp
        exact w0 P hP
      · rw [List.map_map]; exact w1
      · rw [List.map_map]; exact w2 0
      · rw [List.map_map]; exact w2 1
      · rw [List.map_map]; exact w2 2
  by_cases h : cellCP f (t.verts r2 r3)
  · have hv : (fun q => vecAt3 r2 r3 g (corner t q)) = fun q => vecAt3 r2 r3 f (corner t q) := by
      funext q c
      exact hex h _ (List.mem_map.2 ⟨_, mem_corners.2 ⟨q, rfl⟩, rfl⟩) c c.isLt
    unfold checkTet
    rw [hv]
  · rw [hno f h, hno g fun hg => h (hcp hg)]

theorem perfect3 [DecidableEq Ty] {ty : Polynomial ℝ → Ty} {r1 r2 r3 : Nat} {f g : Nat → Nat → ℝ}
    (h : extract3 ty r1 r2 r3 g = extract3 ty r1 r2 r3 f) (l0 l1 : List (Nat × CP3 Ty))
    (h0 : l0.Perm (extract3 ty r1 r2 r3 f)) (h1 : l1.Perm (extract3 ty r1 r2 r3 g)) :
    report CP3.type l0 l1 = ⟨(extract3 ty r1 r2 r3 f).length, 0, 0, 0⟩ := by
  rw [← h0.length_eq]
  refine report_perfect _ _ _ ((h1.map _).nodup_iff.2 (keys3_nodup ty r1 r2 r3 g)) ?_ ?_
  · intro id c hc
    exact ⟨c, h1.mem_iff.2 (h ▸ h0.mem_iff.1 hc), rfl⟩
  · intro id c hc
    exact ⟨c, h0.mem_iff.2 (h ▸ h1.mem_iff.1 hc)⟩

/-- C54, absolute mode.  In exact arithmetic, for every grid, field and bound (and any critical
point bitmap), the extraction tool finds the same critical points in the original and in the
decompressed field: same keys, positions and types.  So it reports matches only. -/
theorem C54_absolute [DecidableEq Ty] (ty : Polynomial ℝ → Ty) (r1 r2 r3 : Nat) (maxEb : ℝ)
    (cp : Nat → Bool) (data : Arr ℝ) (s' : State ℝ) (str : Streams ℝ) (m0 d : Arr ℝ)
    (h : compressAbs3 r1 r2 r3 maxEb cp data = some (s', str))
    (hd : (decompress1 (realAbs3 r2 r3) (r1 * r2 * r3) m0 str).map (·.cod) = some d) :
    extract3 ty r1 r2 r3 d = extract3 ty r1 r2 r3 data ∧
    ∀ l0 l1 : List (Nat × CP3 Ty), l0.Perm (extract3 ty r1 r2 r3 data) →
      l1.Perm (extract3 ty r1 r2 r3 d) →
      report CP3.type l0 l1 = ⟨(extract3 ty r1 r2 r3 data).length, 0, 0, 0⟩ := by
  have e : extract3 ty r1 r2 r3 d = extract3 ty r1 r2 r3 data :=
    extract3_congr fun t ht => check_same ht.2.2.2
      (C27_cells_preserved r1 r2 r3 maxEb cp data s' str m0 d h hd t ht).1
      (C27_critical_cells_exact r1 r2 r3 maxEb cp data s' str m0 d h hd t ht)
  exact ⟨e, fun l0 l1 => perfect3 e l0 l1⟩

/-- C54, log mode (fields without zeros, with values of at least 2^-98 in magnitude; see C28). -/
theorem C54_log [DecidableEq Ty] (ty : Polynomial ℝ → Ty) (r1 r2 r3 : Nat) (maxEb : ℝ)
    (h0 : 0 ≤ maxEb) (hs : maxEb ≤ 1 ∨ (2 ≤ r1 ∧ 2 ≤ r2 ∧ 2 ≤ r3)) (data : Arr ℝ)
    (hm : ∀ c q, c < 3 → q < r1 * r2 * r3 → (2 : ℝ) ^ (-98 : ℤ) ≤ |data c q|)
    (s' : State ℝ) (str : Streams ℝ) (m0 d : Arr ℝ)
    (h : compressLog3 r1 r2 r3 maxEb data = some (s', str))
    (hd : decompressLog3 r1 r2 r3 (signMaps realL 3 (r1 * r2 * r3) data) m0 str = some d) :
    extract3 ty r1 r2 r3 d = extract3 ty r1 r2 r3 data ∧
    ∀ l0 l1 : List (Nat × CP3 Ty), l0.Perm (extract3 ty r1 r2 r3 data) →
      l1.Perm (extract3 ty r1 r2 r3 d) →
      report CP3.type l0 l1 = ⟨(extract3 ty r1 r2 r3 data).length, 0, 0, 0⟩ := by
  have k := (C29_critical_cells_partial r1 r2 r3 maxEb h0 hs data hm s' str m0 d h hd).1
  have e : extract3 ty r1 r2 r3 d = extract3 ty r1 r2 r3 data :=
    extract3_congr fun t ht => check_same ht.2.2.2 (k t ht).1.1 (k t ht).2
  exact ⟨e, fun l0 l1 => perfect3 e l0 l1⟩

/-- C54, offline log mode (values that are zero or at least 2^-98 in magnitude). -/
theorem C54_offline [DecidableEq Ty] (ty : Polynomial ℝ → Ty) (r1 r2 r3 : Nat) (maxEb : ℝ)
    (hs : maxEb ≤ 1 ∨ (2 ≤ r1 ∧ 2 ≤ r2 ∧ 2 ≤ r3)) (data : Arr ℝ)
    (hm : ∀ c q, c < 3 → q < r1 * r2 * r3 → data c q = 0 ∨ (2 : ℝ) ^ (-98 : ℤ) ≤ |data c q|)
    (s' : State ℝ) (str : Streams ℝ) (m0 d : Arr ℝ)
    (h : Offline3D.compressOff3 r1 r2 r3 maxEb data = some (s', str))
    (hd : decompressLog3 r1 r2 r3 (signMaps realL 3 (r1 * r2 * r3) data) m0 str = some d) :
    extract3 ty r1 r2 r3 d = extract3 ty r1 r2 r3 data ∧
    ∀ l0 l1 : List (Nat × CP3 Ty), l0.Perm (extract3 ty r1 r2 r3 data) →
      l1.Perm (extract3 ty r1 r2 r3 d) →
      report CP3.type l0 l1 = ⟨(extract3 ty r1 r2 r3 data).length, 0, 0, 0⟩ := by
  obtain ⟨d', hd', k, -⟩ := Offline3D.C50_critical_cells_partial r1 r2 r3 maxEb hs data hm s' str m0 h
  obtain rfl : d' = d := Option.some.inj (hd'.symm.trans hd)
  have e : extract3 ty r1 r2 r3 d' = extract3 ty r1 r2 r3 data :=
    extract3_congr fun t ht => check_same ht.2.2.2 (k t ht).1.1 (k t ht).2
  exact ⟨e, fun l0 l1 => perfect3 e l0 l1⟩

/-! ### Instances -/

/-- A field on a grid of eight vertices with one zero: `(k - 1/2, j - 1/4, i - 1/8)` times 16. -/
noncomputable def exCube : Arr ℝ := fun c q =>
  if c = 0 then 16 * ((q % 2 : Nat) : ℝ) - 8 else
  if c = 1 then 16 * ((q / 2 % 2 : Nat) : ℝ) - 4 else 16 * ((q / 4 : Nat) : ℝ) - 2

theorem exCube_point (ty : Polynomial ℝ → Ty) : IsPoint3 ty 2 2 exCube ⟨0, 0, 0, 5⟩
    ⟨![1 / 2, 1 / 4, 1 / 8], ty (Matrix.diagonal fun _ : Fin 3 => (16 : ℝ)).charpoly⟩ := by
  have hc : (⟨0, 0, 0, 5⟩ : Tet).corners = [(0, 0, 0), (0, 0, 1), (0, 1, 1), (1, 1, 1)] := by decide
  have h0 : vecAt3 2 2 exCube (0, 0, 0) = ![-8, -4, -2] := by
    ext r; fin_cases r <;> norm_num [vecAt3, exCube, flat3]
  have h1 : vecAt3 2 2 exCube (0, 0, 1) = ![8, -4, -2] := by
    ext r; fin_cases r <;> norm_num [vecAt3, exCube, flat3]
  have h2 : vecAt3 2 2 exCube (0, 1, 1) = ![8, 12, -2] := by
    ext r; fin_cases r <;> norm_num [vecAt3, exCube, flat3]
  have h3 : vecAt3 2 2 exCube (1, 1, 1) = ![8, 12, 14] := by
    ext r; fin_cases r <;> norm_num [vecAt3, exCube, flat3]
  refine ⟨⟨Matrix.diagonal fun _ => 16, ?_, by simp, rfl⟩, ?_,
    fun P => if P = (0, 0, 0) then 1 / 2 else if P = (0, 0, 1) then 1 / 4 else 1 / 8, ?_, ?_, ?_, ?_⟩
  · intro P hP Q hQ
    rw [hc] at hP hQ
    simp only [List.mem_cons, List.not_mem_nil, or_false] at hP hQ
    rcases hP with rfl | rfl | rfl | rfl <;> rcases hQ with rfl | rfl | rfl | rfl <;>
      simp only [h0, h1, h2, h3] <;> ext r <;> fin_cases r <;>
      norm_num [Matrix.mulVec_diagonal, xyz]
  · intro P hP
    rw [hc] at hP
    simp only [List.mem_cons, List.not_mem_nil, or_false] at hP
    rcases hP with rfl | rfl | rfl | rfl <;> simp only [h0, h1, h2, h3] <;> intro h <;>
      have := congrFun h 0 <;> norm_num at this
  · intro P _
    simp only
    split <;> [norm_num; split <;> norm_num]
  · rw [hc]; norm_num
  · intro r
    rw [hc]
    simp only [List.map_cons, List.map_nil, h0, h1, h2, h3]
    fin_cases r <;> norm_num
  · intro r
    rw [hc]
    simp only [List.map_cons, List.map_nil, xyz]
    fin_cases r <;> norm_num

theorem exCube_mem (ty : Polynomial ℝ → Ty) : (5, (⟨![1 / 2, 1 / 4, 1 / 8],
    ty (Matrix.diagonal fun _ : Fin 3 => (16 : ℝ)).charpoly⟩ : CP3 Ty)) ∈ extract3 ty 2 2 2 exCube :=
  ((C53_extract ty 2 2 2 (by norm_num) exCube).1 _ _).2
    ⟨⟨0, 0, 0, 5⟩, by simp [Tet.inGrid], rfl, exCube_point ty⟩

theorem exCube_big (c q : Nat) : (2 : ℝ) ^ (-98 : ℤ) ≤ |exCube c q| := by
  have h1 : (2 : ℝ) ^ (-98 : ℤ) ≤ 1 := zpow_le_one_of_nonpos₀ (by norm_num) (by norm_num)
  have key : ∀ (n : Nat) (x : ℝ), 1 ≤ x → x ≤ 15 → (1 : ℝ) ≤ |16 * (n : ℝ) - x| := by
    intro n x a b
    rcases Nat.eq_zero_or_pos n with rfl | h
    · rw [abs_of_neg (by norm_num; linarith)]
      norm_num
      linarith
    · have : (1 : ℝ) ≤ n := by exact_mod_cast h
      rw [abs_of_nonneg (by linarith)]
      linarith
  refine h1.trans ?_
  unfold exCube
  split
  · exact key _ _ (by norm_num) (by norm_num)
  · split
    · exact key _ _ (by norm_num) (by norm_num)
    · exact key _ _ (by norm_num) (by norm_num)

/-- The hypotheses of the log mode, and a run which reports a match.  The type here is the
characteristic polynomial itself. -/
example : ∃ s' str d, compressLog3 2 2 2 (1 / 100) exCube = some (s', str) ∧
    decompressLog3 2 2 2 (signMaps realL 3 (2 * 2 * 2) exCube) (fun _ _ => 9) str = some d ∧
    extract3 id 2 2 2 d = extract3 id 2 2 2 exCube ∧ extract3 id 2 2 2 d ≠ [] := by
  classical
  obtain ⟨s', str, h⟩ := compressLog3_defined 2 2 2 (1 / 100) exCube
  have hs : (1 / 100 : ℝ) ≤ 1 ∨ (2 ≤ 2 ∧ 2 ≤ 2 ∧ 2 ≤ 2) := .inl (by norm_num)
  obtain ⟨d, hd, -⟩ := C28_exact_arithmetic_partial 2 2 2 (1 / 100) (by norm_num) hs exCube
    (fun c q _ _ => exCube_big c q) s' str (fun _ _ => 9) h
  have e := (C54_log id 2 2 2 (1 / 100) (by norm_num) hs exCube (fun c q _ _ => exCube_big c q)
    s' str _ d h hd).1
  refine ⟨s', str, d, h, hd, e, ?_⟩
  rw [e]
  exact List.ne_nil_of_mem (exCube_mem id)

/-- The same for the absolute mode. -/
example : ∃ s' str d, compressAbs3 2 2 2 1 (fun _ => false) exCube = some (s', str) ∧
    (decompress1 (realAbs3 2 2) (2 * 2 * 2) (fun _ _ => 9) str).map (·.cod) = some d ∧
    extract3 id 2 2 2 d = extract3 id 2 2 2 exCube ∧ extract3 id 2 2 2 d ≠ [] := by
  classical
  obtain ⟨s', str, d, h, hd⟩ := compressAbs3_defined 2 2 2 1 (fun _ => false) exCube (fun _ _ => 9)
  have e := (C54_absolute id 2 2 2 1 _ exCube s' str _ d h hd).1
  refine ⟨s', str, d, h, hd, e, ?_⟩
  rw [e]
  exact List.ne_nil_of_mem (exCube_mem id)

/-- The same for the offline mode. -/
example : ∃ s' str d, Offline3D.compressOff3 2 2 2 (1 / 100) exCube = some (s', str) ∧
    decompressLog3 2 2 2 (signMaps realL 3 (2 * 2 * 2) exCube) (fun _ _ => 9) str = some d ∧
    extract3 id 2 2 2 d = extract3 id 2 2 2 exCube ∧ extract3 id 2 2 2 d ≠ [] := by
  classical
  obtain ⟨s', str, h⟩ := Offline3D.compressOff3_defined 2 2 2 (1 / 100) exCube
  have hs : (1 / 100 : ℝ) ≤ 1 ∨ (2 ≤ 2 ∧ 2 ≤ 2 ∧ 2 ≤ 2) := .inl (by norm_num)
  obtain ⟨d, hd, -⟩ := Offline3D.C50_critical_cells_partial 2 2 2 (1 / 100) hs exCube
    (fun c q _ _ => .inr (exCube_big c q)) s' str (fun _ _ => 9) h
  have e := (C54_offline id 2 2 2 (1 / 100) hs exCube (fun c q _ _ => .inr (exCube_big c q))
    s' str _ d h hd).1
  refine ⟨s', str, d, h, hd, e, ?_⟩
  rw [e]
  exact List.ne_nil_of_mem (exCube_mem id)

end CpSZ.Extract
