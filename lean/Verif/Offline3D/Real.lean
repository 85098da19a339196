import Verif.Offline3D.Model
import Verif.Offline3D.Bound
import Verif.Offline2D.Real
import Verif.ThreeD.Grid
/-
The 3D offline log mode in exact arithmetic.
-/

namespace CpSZ.Offline3D
open ThreeD VMode Mesh3D Offline2D

/-! ### Bounds of all vertices -/

theorem mem_cells {r1 r2 r3 : Nat} {x : Nat × Nat × Nat × Nat} : x ∈ cells r1 r2 r3 ↔
    x.1 + 1 < r1 ∧ x.2.1 + 1 < r2 ∧ x.2.2.1 + 1 < r3 ∧ x.2.2.2 < 6 := by
  obtain ⟨i, j, k, n⟩ := x
  simp only [cells, List.mem_flatMap, List.mem_map, List.mem_range, Prod.mk.injEq]
  constructor
  · rintro ⟨a, ha, b, hb, c, hc, m, hm, rfl, rfl, rfl, rfl⟩
    omega
  · rintro ⟨h1, h2, h3, h4⟩
    exact ⟨i, by omega, j, by omega, k, by omega, n, h4, rfl, rfl, rfl, rfl⟩

theorem first_corner : ∀ n, n < 6 → pt n 3 = (0, 0, 0) ∧ rowPath n = n := by decide +kernel

/-- The tetrahedron of a cell. -/
def tet (x : Nat × Nat × Nat × Nat) : Tet := ⟨x.1, x.2.1, x.2.2.1, x.2.2.2⟩

theorem row_inMesh {r1 r2 r3 : Nat} {x : Nat × Nat × Nat × Nat} (hx : x ∈ cells r1 r2 r3) :
    inMesh r1 r2 r3 x.1 x.2.1 x.2.2.1 x.2.2.2 = true ∧
      tetOf x.1 x.2.1 x.2.2.1 x.2.2.2 = tet x := by
  obtain ⟨h1, h2, h3, h4⟩ := mem_cells.1 hx
  obtain ⟨c1, c2⟩ := first_corner _ h4
  have ht : tetOf x.1 x.2.1 x.2.2.1 x.2.2.2 = tet x := by
    unfold tetOf tet
    rw [c1, c2]
    simp
  refine ⟨(inMesh_iff r1 r2 r3 _ _ _ _ (by omega) (by omega) (by omega) (by omega)).2
    ⟨?_, ?_⟩, ht⟩
  · unfold rowFits; rw [c1]; simp
  · rw [ht]; exact ⟨h1, h2, h3, h4⟩

/-- The corners of a cell in the order of the table. -/
def corner (r2 r3 : Nat) (x : Nat × Nat × Nat × Nat) (q : Nat) : Nat :=
  flat3 r2 r3 (nb x.1 x.2.1 x.2.2.1 x.2.2.2 q)

/-- The first vertex of a cell. -/
def origin (r2 r3 : Nat) (x : Nat × Nat × Nat × Nat) : Nat := flat3 r2 r3 (x.1, x.2.1, x.2.2.1)

theorem verts_perm {r1 r2 r3 : Nat} {x : Nat × Nat × Nat × Nat} (hx : x ∈ cells r1 r2 r3) :
    ((tet x).verts r2 r3).Perm [corner r2 r3 x 0, corner r2 r3 x 1, corner r2 r3 x 2,
      origin r2 r3 x] := by
  obtain ⟨h1, h2, h3, h4⟩ := mem_cells.1 hx
  obtain ⟨hm, ht⟩ := row_inMesh hx
  obtain ⟨-, hp, -⟩ := neighbours r1 r2 r3 _ _ _ _ (by omega) (by omega) (by omega) (by omega) hm
  rw [ht] at hp
  exact hp.map (flat3 r2 r3)

/-- One tetrahedron with all its accesses in bounds. -/
def stepOf {T D : Type} (O : DOps D) (derive : (Nat → T) → (Nat → T) → (Nat → T) → (Nat → T) → D)
    (r2 r3 : Nat) (f : Arr T) (eb : Nat → D) (x : Nat × Nat × Nat × Nat) : Nat → D :=
  lower O.lt (derive (fun c => f c (corner r2 r3 x 0)) (fun c => f c (corner r2 r3 x 1))
      (fun c => f c (corner r2 r3 x 2)) (fun c => f c (origin r2 r3 x))) eb
    [origin r2 r3 x, corner r2 r3 x 0, corner r2 r3 x 1, corner r2 r3 x 2]

/-- No access of the sweep is out of bounds. -/
theorem cellStep_eq {T D : Type} (O : DOps D)
    (derive : (Nat → T) → (Nat → T) → (Nat → T) → (Nat → T) → D) {r1 r2 r3 : Nat} (f : Arr T)
    (eb : Nat → D) {x : Nat × Nat × Nat × Nat} (hx : x ∈ cells r1 r2 r3) :
    cellStep O derive r1 r2 r3 f eb x = some (stepOf O derive r2 r3 f eb x) := by
  obtain ⟨h1, h2, h3, h4⟩ := mem_cells.1 hx
  obtain ⟨hm, ht⟩ := row_inMesh hx
  obtain ⟨-, -, hq⟩ := neighbours r1 r2 r3 x.1 x.2.1 x.2.2.1 x.2.2.2 (by omega) (by omega)
    (by omega) (by omega) hm
  have hp : (x.1 * (r2 * r3) + x.2.1 * r3 + x.2.2.1 : Int) = (origin r2 r3 x : Nat) := by
    simp only [origin, flat3]; push_cast; rfl
  have hlt : origin r2 r3 x < r1 * r2 * r3 :=
    flat3_lt r1 r2 r3 _ (by simp only; omega) (by simp only; omega) (by simp only; omega)
  obtain ⟨a0, b0, -⟩ := hq 0 (by omega)
  obtain ⟨a1, b1, -⟩ := hq 1 (by omega)
  obtain ⟨a2, b2, -⟩ := hq 2 (by omega)
  have c0 : ((origin r2 r3 x : Nat) : Int) + offset (r2 * r3) r3 x.2.2.2 0 =
    (corner r2 r3 x 0 : Nat) := a0
  have c1 : ((origin r2 r3 x : Nat) : Int) + offset (r2 * r3) r3 x.2.2.2 1 =
    (corner r2 r3 x 1 : Nat) := a1
  have c2 : ((origin r2 r3 x : Nat) : Int) + offset (r2 * r3) r3 x.2.2.2 2 =
    (corner r2 r3 x 2 : Nat) := a2
  unfold cellStep stepOf
  simp only [hp, c0, c1, c2, Int.toNat_natCast]
  rw [rdAll_nat (show corner r2 r3 x 0 < _ from b0), rdAll_nat (show corner r2 r3 x 1 < _ from b1),
    rdAll_nat (show corner r2 r3 x 2 < _ from b2), rdAll_nat hlt]

theorem foldlM_eq {α β : Type} (F : β → α → Option β) (G : β → α → β) (l : List α)
    (h : ∀ x ∈ l, ∀ b, F b x = some (G b x)) (b : β) : l.foldlM F b = some (l.foldl G b) := by
  induction l generalizing b with
  | nil => rfl
  | cons x l ih =>
    rw [List.foldlM_cons, h x (List.mem_cons_self ..)]
    exact ih (fun y hy => h y (List.mem_cons_of_mem _ hy)) _

theorem ebSweep3_defined {T D : Type} (O : DOps D)
    (derive : (Nat → T) → (Nat → T) → (Nat → T) → (Nat → T) → D) (r1 r2 r3 : Nat) (maxEb : D)
    (f : Arr T) : ∃ eb, ebSweep3 O derive r1 r2 r3 maxEb f = some eb :=
  ⟨_, foldlM_eq _ _ _ (fun _ hx eb => cellStep_eq O derive f eb hx) _⟩

theorem ebSweep3_real {r1 r2 r3 : Nat} {maxEb : ℝ} {f : Arr ℝ} {eb : Nat → ℝ}
    (h : ebSweep3 realD (onCols offlineEb3) r1 r2 r3 maxEb f = some eb) :
    (∀ p, eb p ≤ maxEb) ∧ (0 ≤ maxEb → ∀ p, 0 ≤ eb p) ∧
    ∀ t : Tet, t.inGrid r1 r2 r3 → ∃ q0 q1 q2 q3, (t.verts r2 r3).Perm [q0, q1, q2, q3] ∧
      ∀ q ∈ t.verts r2 r3, eb q ≤ offlineEb3 (vec f q0) (vec f q1) (vec f q2) (vec f q3) := by
  have h' := foldlM_eq _ (stepOf realD (onCols offlineEb3) r2 r3 f) (cells r1 r2 r3)
    (fun _ hx eb => cellStep_eq realD (onCols offlineEb3) f eb hx) (fun _ => maxEb)
  unfold ebSweep3 at h
  rw [h'] at h
  cases h
  refine ⟨fun p => foldl_le _ p (fun eb x => lower_le _ _ _ _) _ (fun _ => maxEb), fun h0 => ?_,
    fun t ht => ?_⟩
  · refine foldl_nonneg _ (fun eb x h => ?_) _ _ (fun _ => h0)
    unfold stepOf lower
    refine foldl_nonneg _ (fun eb o h => ?_) _ _ h
    intro q
    split
    · split
      · exact h _
      · exact offlineEb3_nonneg ..
    · exact h q
  · have hx : (t.a, t.b, t.c, t.s) ∈ cells r1 r2 r3 := mem_cells.2 ht
    refine ⟨_, _, _, _, verts_perm hx, fun q hq => ?_⟩
    have hq' := (verts_perm hx).mem_iff.1 hq
    have hq2 : q ∈ [origin r2 r3 (t.a, t.b, t.c, t.s), corner r2 r3 (t.a, t.b, t.c, t.s) 0,
        corner r2 r3 (t.a, t.b, t.c, t.s) 1, corner r2 r3 (t.a, t.b, t.c, t.s) 2] := by
      simp only [List.mem_cons, List.not_mem_nil] at hq' ⊢; tauto
    exact foldl_mem_le (stepOf realD (onCols offlineEb3) r2 r3 f) q _
      (fun eb x => lower_le _ _ _ _) _ _ hx (fun eb => lower_mem _ _ _ _ hq2) _

/-! ### A field close to the input -/

/-- Every component at every vertex is within the vertex bound. -/
def NearField3 (n : Nat) (eb : Nat → ℝ) (f f' : Arr ℝ) : Prop :=
  ∀ c q, c < 3 → q < n → Near (eb q) (f c q) (f' c q)

theorem nearV_of {n q : Nat} {eb : Nat → ℝ} {f f' : Arr ℝ} {e : ℝ} (h : NearField3 n eb f f')
    (hq : q < n) (he : eb q ≤ e) : NearV e (vec f q) (vec f' q) :=
  ⟨(h 0 q (by omega) hq).mono he, (h 1 q (by omega) hq).mono he, (h 2 q (by omega) hq).mono he⟩

theorem tet_lt {r1 r2 r3 : Nat} {t : Tet} (ht : t.inGrid r1 r2 r3) {q : Nat}
    (hq : q ∈ t.verts r2 r3) : q < r1 * r2 * r3 := by
  obtain ⟨v, hv, rfl⟩ := List.mem_map.1 hq
  obtain ⟨a, b, c⟩ := corner_lt ht hv
  exact flat3_lt r1 r2 r3 v a b c

theorem grid_kept3 {r1 r2 r3 : Nat} {maxEb : ℝ} {f f' : Arr ℝ} {eb : Nat → ℝ}
    (h : ebSweep3 realD (onCols offlineEb3) r1 r2 r3 maxEb f = some eb)
    (hn : NearField3 (r1 * r2 * r3) eb f f') (t : Tet) (ht : t.inGrid r1 r2 r3) :
    (cellCP f' (t.verts r2 r3) ↔ cellCP f (t.verts r2 r3)) ∧
    (cellCP f (t.verts r2 r3) → ∀ q ∈ t.verts r2 r3, ∀ c, c < 3 → f' c q = f c q) := by
  obtain ⟨-, -, h3⟩ := ebSweep3_real h
  obtain ⟨q0, q1, q2, q3, hp, hle⟩ := h3 t ht
  have hmem : ∀ q, q ∈ [q0, q1, q2, q3] → q ∈ t.verts r2 r3 := fun q hq => hp.mem_iff.2 hq
  have hv : ∀ q, q ∈ [q0, q1, q2, q3] →
      NearV (offlineEb3 (vec f q0) (vec f q1) (vec f q2) (vec f q3)) (vec f q) (vec f' q) :=
    fun q hq => nearV_of hn (tet_lt ht (hmem q hq)) (hle q (hmem q hq))
  have c1 : cellCP f (t.verts r2 r3) ↔ ThreeD.HasCP [vec f q0, vec f q1, vec f q2, vec f q3] :=
    hasCP_perm (hp.map (vec f))
  have c2 : cellCP f' (t.verts r2 r3) ↔ ThreeD.HasCP [vec f' q0, vec f' q1, vec f' q2, vec f' q3] :=
    hasCP_perm (hp.map (vec f'))
  refine ⟨?_, fun hcp q hq c hc => ?_⟩
  · rw [c1, c2]
    exact offlineEb3_kept le_rfl (hv q0 (by simp)) (hv q1 (by simp)) (hv q2 (by simp))
      (hv q3 (by simp))
  · exact near_nonpos (hn c q hc (tet_lt ht hq)) ((hle q hq).trans (offlineEb3_cp (c1.1 hcp)))

/-! ### Runs -/

/-- Base 2, threshold `FLT_EPSILON`, capacity 65536, escape code 24.
(src/sz_compress_cp_preserve_3d.cpp L353-572.) -/
noncomputable def compressOff3 (r1 r2 r3 : Nat) (maxEb : ℝ) (data : Arr ℝ) :
    Option (State ℝ × Streams ℝ) :=
  match ebSweep3 realD (onCols offlineEb3) r1 r2 r3 maxEb data with
  | none => none
  | some eb => compress (realLog3 (lorenzo3 realOps r2 r3)) (planOff realL 24 eb) (r1 * r2 * r3) data

theorem compressOff3_defined (r1 r2 r3 : Nat) (maxEb : ℝ) (data : Arr ℝ) :
    ∃ s' str, compressOff3 r1 r2 r3 maxEb data = some (s', str) := by
  obtain ⟨eb, heb⟩ := ebSweep3_defined realD (onCols offlineEb3) r1 r2 r3 maxEb data
  unfold compressOff3
  rw [heb]
  exact compress_defined _ _ _ _ fun _ _ _ => rfl

/-- Bounds are at most 1. -/
theorem eb_le_one {r1 r2 r3 : Nat} {maxEb : ℝ} {f : Arr ℝ} {eb : Nat → ℝ}
    (h : ebSweep3 realD (onCols offlineEb3) r1 r2 r3 maxEb f = some eb)
    (hs : maxEb ≤ 1 ∨ (2 ≤ r1 ∧ 2 ≤ r2 ∧ 2 ≤ r3)) (p : Nat) (hp : p < r1 * r2 * r3) : eb p ≤ 1 := by
  obtain ⟨h1, -, h3⟩ := ebSweep3_real h
  rcases hs with hs | ⟨g1, g2, g3⟩
  · exact (h1 p).trans hs
  · obtain ⟨t, ht, hm⟩ := cell_exists hp g1 g2 g3
    obtain ⟨q0, q1, q2, q3, -, hle⟩ := h3 t ht
    exact (hle p hm).trans (offlineEb3_le_one ..)

theorem planOff_real {eb : Nat → ℝ} {esc : Int} {s : State ℝ} {p : Nat} {a : ℝ} {id : Int}
    (h : planOff realL esc eb s p = some (.try a id)) :
    0 < eb p ∧ a = Real.logb 2 (1 + eb p) := by
  simp only [planOff, Option.some.injEq] at h
  split at h
  · rename_i hlt
    cases h
    have h0 : ((0 : Int) : ℝ) < eb p := of_decide_eq_true hlt
    refine ⟨by simpa using h0, ?_⟩
    simp only [realL, realOps, realD]; push_cast; rfl
  · cases h

theorem log_le_one {x : ℝ} (h0 : 0 ≤ x) (h1 : x ≤ 1) : Real.logb 2 (1 + x) ≤ 1 := by
  rw [Real.logb_le_iff_le_rpow (by norm_num) (by linarith)]
  norm_num; linarith

theorem code_ne_24 {a : ℝ} (ha1 : a ≤ 1) :
    (ebQuant realD 2 (Real.logb 2 2) (1 / 2 ^ 23) a).2 ≠ 24 := by
  have hs := ebQuant_spec 2 (by norm_num) (1 / 2 ^ 23) a (by norm_num)
  simp only at hs
  push_cast at hs
  obtain ⟨-, -, s3, s4⟩ := hs
  intro hc
  by_cases hgt : 1 / 2 ^ 23 < a
  · obtain ⟨e1, e2, -⟩ := s3 hgt
    rw [hc] at e1
    rw [e1] at e2
    norm_num at e2
    linarith
  · rw [s4 (not_lt.1 hgt)] at hc; norm_num at hc

theorem good_real {r2 r3 n : Nat} {eb : Nat → ℝ} (h : ∀ p, p < n → eb p ≤ 1) :
    Good (realLog3 (lorenzo3 realOps r2 r3)) (planOff realL 24 eb) n := by
  have := good_off realL realL_laws (Real.logb 2 2) (1 / 2 ^ 23) r2 r3 2 32768 eb n (by
    intro p hp hlt
    rw [escMax_real]
    have h0 : ((0 : Int) : ℝ) < eb p := of_decide_eq_true hlt
    have ha : realL.log2 (realL.add (realL.ofInt 1) (eb p)) = Real.logb 2 (1 + eb p) := by
      simp only [realL, realOps, realD]; push_cast; rfl
    rw [ha]
    exact code_ne_24 (log_le_one (by simpa using h0.le) (h p hp)))
  rw [escMax_real] at this
  exact this

/-- Coded logarithms stay within the bound of their vertex. -/
theorem cod_near {r2 r3 n : Nat} {eb : Nat → ℝ} {data : Arr ℝ} {s' : State ℝ} {str : Streams ℝ}
    (h : compress (realLog3 (lorenzo3 realOps r2 r3)) (planOff realL 24 eb) n data = some (s', str))
    (c q : Nat) (hc : c < 3) : s'.cod c q = logFwd realL (data c q) ∨
      (0 < eb q ∧ |s'.cod c q - logFwd realL (data c q)| < Real.logb 2 (1 + eb q)) := by
  refine compress_inv _ _ _ _ s' str h (fun _ s => ∀ c q, c < 3 →
    s.cod c q = logFwd realL (data c q) ∨
      (0 < eb q ∧ |s.cod c q - logFwd realL (data c q)| < Real.logb 2 (1 + eb q)))
    (fun _ _ _ => Or.inl rfl) (fun _ _ _ h => h) ?_ c q hc
  intro p s s1 e qs hp hI hcod hl c q hc
  obtain ⟨a, id, h1, -, h2, h3⟩ := hcod.real rfl (by norm_num [realLog3, logMode3])
    (by norm_num [realLog3, logMode3]) (by norm_num [realLog3, logMode3])
  obtain ⟨hpos, ha⟩ := planOff_real h1
  by_cases hq : q = p
  · subst hq
    right
    obtain ⟨k1, -⟩ := h2 c hc
    rw [(hl c q (le_refl q)).1, ha] at k1
    exact ⟨hpos, k1⟩
  · rw [(h3 c q hq).1]; exact hI c q hc

/-- A coded vertex has a positive bound. -/
theorem coded_pos {r2 r3 n : Nat} {eb : Nat → ℝ} {data : Arr ℝ} {s' : State ℝ} {str : Streams ℝ}
    (hle : ∀ p, p < n → eb p ≤ 1)
    (h : compress (realLog3 (lorenzo3 realOps r2 r3)) (planOff realL 24 eb) n data = some (s', str))
    {q : Nat} {e : Int} (he : str.eb[q]? = some e)
    (hne : (realLog3 (lorenzo3 realOps r2 r3)).isEsc e = false) : 0 < eb q := by
  have G := good_real (r2 := r2) (r3 := r3) hle
  obtain ⟨st, ws, R, rfl, rfl⟩ := compress_run _ _ n data s' str h
  rw [eb_get] at he
  obtain ⟨w, hw, rfl⟩ := Option.map_eq_some_iff.1 he
  rcases encVertex_cases _ _ _ _ _ _ (R.step q _ hw) with ⟨id, -, h2, h3⟩ |
    ⟨e', qs', h2, ⟨a, id, rs, h0, -, -, -, -, -, -⟩⟩
  · rw [h2] at hne
    simp only [VCode.id] at hne
    rcases h3 with h3 | ⟨a, h3⟩
    · rw [G.esc_lossless _ _ _ h3] at hne; cases hne
    · rw [G.esc_try _ _ _ _ h3] at hne; cases hne
  · exact (planOff_real h0).1

/-- Conversion back, at values that are zero or not tiny. -/
theorem fin_near {sign : Nat → Nat → Byte} {c q : Nat} {x l eb : ℝ} (h0 : 0 < eb) (h1 : eb ≤ 1)
    (hs : sign c q = signOf realL x) (hx : x = 0 ∨ (2 : ℝ) ^ (-98 : ℤ) ≤ |x|)
    (hl : |l - logFwd realL x| < Real.logb 2 (1 + eb)) :
    Near eb x (logFin realL sign c q l) ∧
      SignType.sign (logFin realL sign c q l) = SignType.sign x := by
  have hl1 := log_le_one h0.le h1
  rw [abs_lt] at hl
  rcases hx with rfl | hx
  · have hf : logFwd realL 0 = -100 := by simp [logFwd, realL]
    rw [hf] at hl
    have hlow : realL.ltM99 l = true := by
      simp only [realL, decide_eq_true_eq]; linarith
    have : logFin realL sign c q l = 0 := by
      unfold logFin
      rw [hlow]
      simp [realL, realOps]
    rw [this]
    exact ⟨Or.inl rfl, rfl⟩
  · have hpos : (0 : ℝ) < 2 ^ (-98 : ℤ) := by positivity
    have hne : x ≠ 0 := abs_pos.1 (by linarith)
    have hlog : (-98 : ℝ) ≤ Real.logb 2 |x| := by
      rw [Real.le_logb_iff_rpow_le (by norm_num) (by linarith)]
      have : (2 : ℝ) ^ (-98 : ℝ) = (2 : ℝ) ^ (-98 : ℤ) := by
        rw [← Real.rpow_intCast]; norm_num
      rw [this]; exact hx
    rw [logFwd_real hne] at hl
    have hhigh : realL.ltM99 l = false := by
      simp only [realL, decide_eq_false_iff_not, not_lt]; linarith
    have hfin : logFin realL sign c q l = logBack realL x l :=
      logFin_eq realL_laws _ _ _ _ _ hs hhigh
    obtain ⟨b1, b2⟩ := logBack_real hne h0 (abs_lt.2 hl)
    rw [hfin]
    refine ⟨Or.inr (by rw [mul_comm]; exact b1), ?_⟩
    exact (Online2D.sign_eq_of_mul_pos b2).symm

/-- The decompressed field is within the bounds the pass was given. -/
theorem run_near_eb {r1 r2 r3 : Nat} {eb : Nat → ℝ} (hle : ∀ p, p < r1 * r2 * r3 → eb p ≤ 1)
    {data : Arr ℝ}
    (hm : ∀ c q, c < 3 → q < r1 * r2 * r3 → data c q = 0 ∨ (2 : ℝ) ^ (-98 : ℤ) ≤ |data c q|)
    {s' : State ℝ} {str : Streams ℝ}
    (h : compress (realLog3 (lorenzo3 realOps r2 r3)) (planOff realL 24 eb) (r1 * r2 * r3) data =
      some (s', str)) (m0 : Arr ℝ) :
    ∃ d, decompressLog3 r1 r2 r3 (signMaps realL 3 (r1 * r2 * r3) data) m0 str = some d ∧
      NearField3 (r1 * r2 * r3) eb data d ∧
      ∀ c q, c < 3 → q < r1 * r2 * r3 → SignType.sign (d c q) = SignType.sign (data c q) := by
  obtain ⟨d, hd, hA⟩ := lockstep_dec _ _ _ (good_real hle)
    (logFin realL (mapAt (signMaps realL 3 (r1 * r2 * r3) data))) data m0 s' str h
  have key : ∀ c q, c < 3 → q < r1 * r2 * r3 → Near (eb q) (data c q) (d c q) ∧
      SignType.sign (d c q) = SignType.sign (data c q) := by
    intro c q hc hq
    obtain ⟨e, he, hdq⟩ := hA c q hc hq
    split at hdq
    · rw [hdq]; exact ⟨Or.inl rfl, rfl⟩
    · rename_i hne
      -- a coded vertex has a positive bound
      have hpos : 0 < eb q := coded_pos hle h he (by simpa using hne)
      rw [hdq]
      refine fin_near hpos (hle q hq) (mapAt_signMaps realL _ _ _ _ _ hc hq) (hm c q hc hq) ?_
      rcases cod_near h c q hc with e | ⟨-, e⟩
      · rw [e, sub_self, abs_zero]
        exact Real.logb_pos (by norm_num) (by linarith)
      · exact e
  exact ⟨d, hd, fun c q hc hq => (key c q hc hq).1, fun c q hc hq => (key c q hc hq).2⟩

/-- The decompressed field is within the bounds computed from the input. -/
theorem run_near {r1 r2 r3 : Nat} {maxEb : ℝ}
    (hs : maxEb ≤ 1 ∨ (2 ≤ r1 ∧ 2 ≤ r2 ∧ 2 ≤ r3)) {data : Arr ℝ}
    (hm : ∀ c q, c < 3 → q < r1 * r2 * r3 → data c q = 0 ∨ (2 : ℝ) ^ (-98 : ℤ) ≤ |data c q|)
    {s' : State ℝ} {str : Streams ℝ} (h : compressOff3 r1 r2 r3 maxEb data = some (s', str))
    (m0 : Arr ℝ) :
    ∃ eb d, ebSweep3 realD (onCols offlineEb3) r1 r2 r3 maxEb data = some eb ∧
      decompressLog3 r1 r2 r3 (signMaps realL 3 (r1 * r2 * r3) data) m0 str = some d ∧
      NearField3 (r1 * r2 * r3) eb data d ∧
      ∀ c q, c < 3 → q < r1 * r2 * r3 → SignType.sign (d c q) = SignType.sign (data c q) := by
  unfold compressOff3 at h
  split at h
  · cases h
  · rename_i eb heb
    obtain ⟨d, hd⟩ := run_near_eb (eb_le_one heb hs) hm h m0
    exact ⟨eb, d, heb, hd⟩

end CpSZ.Offline3D
