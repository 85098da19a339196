import Verif.ThreeD.Modes
import Verif.ThreeD.Bound
/-
One sweep of the 3D modes in exact arithmetic.
-/

namespace CpSZ.ThreeD
open VMode Mesh3D

/-- Formula on columns. -/
def onCols (derive : V3 → V3 → V3 → V3 → ℝ) (a b c d : Nat → ℝ) : ℝ :=
  derive ⟨a 0, a 1, a 2⟩ ⟨b 0, b 1, b 2⟩ ⟨c 0, c 1, c 2⟩ ⟨d 0, d 1, d 2⟩

/-- `req` is at most the formula's bound in every cell at `p`, with `p` as last corner. -/
def BoundOK (cells : List Nat → Prop) (derive : V3 → V3 → V3 → V3 → ℝ) (f : Arr ℝ) (p : Nat)
    (req : ℝ) : Prop :=
  ∀ cell, cells cell → p ∈ cell → ∃ q0 q1 q2, cell.Perm [q0, q1, q2, p] ∧ q0 ≠ p ∧ q1 ≠ p ∧
    q2 ≠ p ∧ req ≤ derive (vec f q0) (vec f q1) (vec f q2) (vec f p)

/-- The cells of the grid. -/
def gridCells (r1 r2 r3 : Nat) (cell : List Nat) : Prop :=
  ∃ t : Tet, t.inGrid r1 r2 r3 ∧ cell = t.verts r2 r3

theorem pt_ne : ∀ n, n < 24 → ∀ q, q < 3 → pt n q ≠ pt n 3 := by decide +kernel

theorem nb_ne {i j k n q : Nat} (hn : n < 24) (hq : q < 3) (hf : rowFits i j k n) :
    nb i j k n q ≠ (i, j, k) := by
  intro h
  rw [← self_flat i j k n hf] at h
  apply pt_ne n hn q hq
  simp only [nb, Pos.add, Prod.mk.injEq] at h
  obtain ⟨h1, h2, h3⟩ := h
  exact Prod.ext (by omega) (Prod.ext (by omega) (by omega))

section loop
variable {r1 r2 r3 : Nat} {derive : V3 → V3 → V3 → V3 → ℝ} {Q : Nat → Prop}
  {body : ℝ → Int → (Nat → ℝ) → (Nat → ℝ) → (Nat → ℝ) → (Nat → ℝ) → ℝ × Bool}

theorem loop3_spec
    (hb : ∀ req (idx : Nat) a b c d, 0 < (body req idx a b c d).1 →
      (body req idx a b c d).2 = false ∧ (body req idx a b c d).1 ≤ req ∧
      (body req idx a b c d).1 ≤ onCols derive a b c d ∧ Q idx)
    {f : Arr ℝ} {i j k : Nat} (hi : i < r1) (hj : j < r2) (hk : k < r3) (ns : List Nat)
    (hns : ∀ n ∈ ns, n < 24) (req r : ℝ) (h : loop3 r1 r2 r3 body f i j k ns req = some r)
    (hr : 0 < r) : r ≤ req ∧ ∀ n ∈ ns, inMesh r1 r2 r3 i j k n = true →
      r ≤ derive (vec f (flat3 r2 r3 (nb i j k n 0))) (vec f (flat3 r2 r3 (nb i j k n 1)))
        (vec f (flat3 r2 r3 (nb i j k n 2))) (vec f (flat3 r2 r3 (i, j, k))) ∧
      Q (cellNo r2 r3 (tetOf i j k n)) := by
  induction ns generalizing req with
  | nil =>
    simp only [loop3, Option.some.injEq] at h
    exact ⟨h ▸ le_refl _, fun n hn => by cases hn⟩
  | cons n ns ih =>
    have hn := hns n (List.mem_cons_self ..)
    have ih := ih (fun m hm => hns m (List.mem_cons_of_mem _ hm))
    by_cases hm : inMesh r1 r2 r3 i j k n = true
    · rw [loop3_cons hi hj hk hn ns req hm] at h
      have hB := hb req (cellNo r2 r3 (tetOf i j k n)) (fun c => f c (flat3 r2 r3 (nb i j k n 0)))
        (fun c => f c (flat3 r2 r3 (nb i j k n 1))) (fun c => f c (flat3 r2 r3 (nb i j k n 2)))
        (fun c => f c (flat3 r2 r3 (i, j, k)))
      generalize hgen : body req (cellNo r2 r3 (tetOf i j k n) : Nat)
        (fun c => f c (flat3 r2 r3 (nb i j k n 0))) (fun c => f c (flat3 r2 r3 (nb i j k n 1)))
        (fun c => f c (flat3 r2 r3 (nb i j k n 2))) (fun c => f c (flat3 r2 r3 (i, j, k))) = z
        at h hB
      obtain ⟨req', brk⟩ := z
      cases brk with
      | true =>
        simp only [Option.some.injEq] at h
        subst h
        have := (hB hr).1
        cases this
      | false =>
        simp only at h hB
        obtain ⟨a1, a2⟩ := ih req' h
        obtain ⟨-, b2, b3, b4⟩ := hB (lt_of_lt_of_le hr a1)
        refine ⟨a1.trans b2, fun m hmem hin => ?_⟩
        rcases List.mem_cons.1 hmem with rfl | hmem
        · exact ⟨a1.trans b3, b4⟩
        · exact a2 m hmem hin
    · have h' : loop3 r1 r2 r3 body f i j k ns req = some r := by
        rw [loop3, if_neg hm] at h; exact h
      obtain ⟨a1, a2⟩ := ih req h'
      refine ⟨a1, fun m hmem hin => ?_⟩
      rcases List.mem_cons.1 hmem with rfl | hmem
      · exact absurd hin hm
      · exact a2 m hmem hin

theorem corner_lt {r1 r2 r3 : Nat} {t : Tet} (ht : t.inGrid r1 r2 r3) {v : Pos} (hv : v ∈ t.corners) :
    v.1 < r1 ∧ v.2.1 < r2 ∧ v.2.2 < r3 := by
  obtain ⟨w, hw, rfl⟩ := List.mem_map.1 hv
  obtain ⟨a, b, c⟩ := corners_le t.s ht.2.2.2 w hw
  obtain ⟨h1, h2, h3, -⟩ := ht
  simp only [Pos.add]
  refine ⟨by omega, by omega, by omega⟩

/-- Every cell at `p` is visited by the loop. -/
theorem cell_row {p : Nat} (hp : p < r1 * r2 * r3) {t : Tet} (ht : t.inGrid r1 r2 r3)
    (hm : p ∈ t.verts r2 r3) : ∃ n, n < 24 ∧
      inMesh r1 r2 r3 (p / (r2 * r3)) (p / r3 % r2) (p % r3) n = true ∧
      tetOf (p / (r2 * r3)) (p / r3 % r2) (p % r3) n = t := by
  obtain ⟨hi, hj, hk, hf⟩ := split3 hp
  obtain ⟨v, hv, hve⟩ := List.mem_map.1 hm
  obtain ⟨v1, v2, v3⟩ := corner_lt ht hv
  have : v = (p / (r2 * r3), p / r3 % r2, p % r3) :=
    flat3_inj v2 v3 hj hk (hve.trans hf.symm)
  subst this
  obtain ⟨n, hn, h1, h2, -⟩ := incident_unique r1 r2 r3 _ _ _ t hi hj hk ht hv
  exact ⟨n, hn, h1, h2⟩

theorem required3_ok
    (hb : ∀ req (idx : Nat) a b c d, 0 < (body req idx a b c d).1 →
      (body req idx a b c d).2 = false ∧ (body req idx a b c d).1 ≤ req ∧
      (body req idx a b c d).1 ≤ onCols derive a b c d ∧ Q idx)
    {f : Arr ℝ} {p : Nat} (hp : p < r1 * r2 * r3) {req r : ℝ}
    (h : required3 r1 r2 r3 body f p req = some r) (hr : 0 < r) :
    r ≤ req ∧ BoundOK (gridCells r1 r2 r3) derive f p r ∧
      ∀ t : Tet, t.inGrid r1 r2 r3 → p ∈ t.verts r2 r3 → Q (cellNo r2 r3 t) := by
  obtain ⟨hi, hj, hk, hf⟩ := split3 hp
  obtain ⟨a1, a2⟩ := loop3_spec hb hi hj hk _ (fun n hn => List.mem_range.1 hn) req r h hr
  refine ⟨a1, ?_, ?_⟩
  · rintro cell ⟨t, ht, rfl⟩ hm
    obtain ⟨n, hn, h1, h2⟩ := cell_row hp ht hm
    obtain ⟨b1, -⟩ := a2 n (List.mem_range.2 hn) h1
    obtain ⟨-, c2, c3⟩ := neighbours r1 r2 r3 _ _ _ n hi hj hk hn h1
    have hfit := ((inMesh_iff r1 r2 r3 _ _ _ n hi hj hk hn).1 h1).1
    rw [h2] at c2
    have hperm : (t.verts r2 r3).Perm _ := c2.map (flat3 r2 r3)
    simp only [List.map_cons, List.map_nil, hf] at hperm
    have hne : ∀ q, q < 3 →
        flat3 r2 r3 (nb (p / (r2 * r3)) (p / r3 % r2) (p % r3) n q) ≠ p := by
      intro q hq he
      obtain ⟨-, -, -, d2, d3⟩ := c3 q hq
      exact nb_ne hn hq hfit (flat3_inj d2 d3 hj hk (he.trans hf.symm))
    rw [hf] at b1
    exact ⟨_, _, _, hperm, hne 0 (by omega), hne 1 (by omega), hne 2 (by omega), b1⟩
  · intro t ht hm
    obtain ⟨n, hn, h1, h2⟩ := cell_row hp ht hm
    have := (a2 n (List.mem_range.2 hn) h1).2
    rwa [h2] at this

end loop

theorem minBody_real (derive : V3 → V3 → V3 → V3 → ℝ) (req : ℝ) (idx : Int) (a b c d : Nat → ℝ) :
    (minBody realD (onCols derive) req idx a b c d).2 = false ∧
    (minBody realD (onCols derive) req idx a b c d).1 ≤ req ∧
    (minBody realD (onCols derive) req idx a b c d).1 ≤ onCols derive a b c d := by
  refine ⟨rfl, ?_, ?_⟩
  · simp only [minBody, realD, decide_eq_true_eq]
    split
    · exact le_refl _
    · rename_i h; exact not_lt.1 h
  · simp only [minBody, realD, decide_eq_true_eq]
    split
    · rename_i h; exact h.le
    · exact le_refl _

/-! ### Effect of one vertex on the cells -/

theorem vec_ne {f g : Arr ℝ} {p q : Nat} (h : ∀ c q, q ≠ p → g c q = f c q) (hq : q ≠ p) :
    vec g q = vec f q := by
  simp only [vec, h _ q hq]

theorem cell_other {f g : Arr ℝ} {p : Nat} {cell : List Nat} (h : ∀ c q, q ≠ p → g c q = f c q)
    (hp : p ∉ cell) : cellCP f cell ↔ cellCP g cell := by
  have : cell.map (vec f) = cell.map (vec g) :=
    List.map_congr_left fun q hq => (vec_ne h (fun he => hp (he ▸ hq))).symm
  unfold cellCP
  rw [this]

theorem cell_iff {f g : Arr ℝ} {p q0 q1 q2 : Nat} {cell : List Nat}
    (h : ∀ c q, q ≠ p → g c q = f c q) (hperm : cell.Perm [q0, q1, q2, p]) (h0 : q0 ≠ p)
    (h1 : q1 ≠ p) (h2 : q2 ≠ p) :
    (cellCP f cell ↔ HasCP [vec f q0, vec f q1, vec f q2, vec f p]) ∧
    (cellCP g cell ↔ HasCP [vec f q0, vec f q1, vec f q2, vec g p]) := by
  constructor
  · exact hasCP_perm (hperm.map (vec f))
  · have := hasCP_perm (hperm.map (vec g))
    simp only [List.map_cons, List.map_nil, vec_ne h h0, vec_ne h h1, vec_ne h h2] at this
    exact this

/-- Relative change of one vertex within the relative bound. -/
theorem cell_step_rel {f g : Arr ℝ} {p : Nat} {cell : List Nat} {cells : List Nat → Prop} {req : ℝ}
    (hreq : 0 < req) (hcell : cells cell) (hB : BoundOK cells derive3 f p req)
    (h : ∀ c q, q ≠ p → g c q = f c q) (hx : ∀ c, c < 3 → |g c p - f c p| < |f c p| * req) :
    cellCP f cell ↔ cellCP g cell := by
  by_cases hp : p ∈ cell
  · obtain ⟨q0, q1, q2, hperm, h0, h1, h2, hle⟩ := hB cell hcell hp
    obtain ⟨e1, e2⟩ := cell_iff h hperm h0 h1 h2
    rw [e1, e2]
    have key : ∀ c, c < 3 → ∃ x, |x| < req ∧ g c p = f c p * (1 + x) := by
      intro c hc
      have hx := hx c hc
      have hne : f c p ≠ 0 := by
        intro h0; rw [h0] at hx; simp only [abs_zero, zero_mul] at hx
        exact absurd hx (not_lt.2 (abs_nonneg _))
      refine ⟨(g c p - f c p) / f c p, ?_, ?_⟩
      · rw [abs_div, div_lt_iff₀ (abs_pos.2 hne), mul_comm]; exact hx
      · field_simp; ring
    obtain ⟨x, x1, x2⟩ := key 0 (by omega)
    obtain ⟨y, y1, y2⟩ := key 1 (by omega)
    obtain ⟨z, z1, z2⟩ := key 2 (by omega)
    have hv : vec g p = ⟨(vec f p).u * (1 + x), (vec f p).v * (1 + y), (vec f p).w * (1 + z)⟩ := by
      simp only [vec, x2, y2, z2]
    rw [hv]
    exact derive3_step hreq hle x1 y1 z1
  · exact cell_other h hp

/-- Absolute change of one vertex within the absolute bound. -/
theorem cell_step_abs {f g : Arr ℝ} {p : Nat} {cell : List Nat} {cells : List Nat → Prop} {req : ℝ}
    (hreq : 0 < req) (hcell : cells cell) (hB : BoundOK cells deriveAbs3 f p req)
    (h : ∀ c q, q ≠ p → g c q = f c q) (hx : ∀ c, c < 3 → |g c p - f c p| < req) :
    cellCP f cell ↔ cellCP g cell := by
  by_cases hp : p ∈ cell
  · obtain ⟨q0, q1, q2, hperm, h0, h1, h2, hle⟩ := hB cell hcell hp
    obtain ⟨e1, e2⟩ := cell_iff h hperm h0 h1 h2
    rw [e1, e2]
    have hv : vec g p = ⟨(vec f p).u + (g 0 p - f 0 p), (vec f p).v + (g 1 p - f 1 p),
        (vec f p).w + (g 2 p - f 2 p)⟩ := by
      simp only [vec]; congr 1 <;> ring
    obtain ⟨n1, n2⟩ := deriveAbs3_step hreq hle (hx 0 (by omega)) (hx 1 (by omega)) (hx 2 (by omega))
    rw [hv]
    exact ⟨fun h => absurd h n1, fun h => absurd h n2⟩
  · exact cell_other h hp

/-- A vertex with a positive absolute bound is in no cell with a critical point. -/
theorem cell_none_abs {f : Arr ℝ} {p : Nat} {cell : List Nat} {cells : List Nat → Prop} {req : ℝ}
    (hreq : 0 < req) (hcell : cells cell) (hB : BoundOK cells deriveAbs3 f p req) (hp : p ∈ cell) :
    ¬ cellCP f cell := by
  obtain ⟨q0, q1, q2, hperm, h0, h1, h2, hle⟩ := hB cell hcell hp
  rw [(cell_iff (g := f) (fun _ _ _ => rfl) hperm h0 h1 h2).1]
  exact (deriveAbs3_step (x := 0) (y := 0) (z := 0) hreq hle (by simpa) (by simpa) (by simpa)).1

/-! ### The log modes in exact arithmetic -/

section log
variable {n : Nat} {cells : List Nat → Prop} {eb : ℝ} {bound : Arr ℝ → Nat → Option ℝ}
  {pred : (Nat → ℝ) → Nat → ℝ} {tiny : ℝ} {esc : Int} {data : Arr ℝ}

/-- Base 2, threshold `FLT_EPSILON`, capacity 65536.  (src/sz_compress_cp_preserve_3d.cpp L777-780,
L800-801.) -/
noncomputable def realLog3 (pred : (Nat → ℝ) → Nat → ℝ) : Mode ℝ ℝ :=
  logMode3 realL (Real.logb 2 2) (1 / 2 ^ 23) pred 2 32768

theorem escMax_real : escMax realL.toDOps (Real.logb 2 2) (1 / 2 ^ 23) = 24 := by
  have h1 : Real.logb 2 (2 ^ 23) = 23 := by rw [Real.logb_pow]; simp
  have h2 : truncR 23 = 23 := by rw [truncR_nonneg (by norm_num)]; norm_num
  unfold escMax
  simp only [realL, realOps, realD]
  norm_num
  norm_num at h1
  rw [h1, h2]
  norm_num

/-- What is assumed about the bound computation. -/
def GoodBound (n : Nat) (cells : List Nat → Prop) (eb : ℝ) (bound : Arr ℝ → Nat → Option ℝ) : Prop :=
  ∀ f p r, p < n → bound f p = some r → 0 < r → r ≤ eb ∧ BoundOK cells derive3 f p r

theorem step_log3 (hB : GoodBound n cells eb bound) {s s' : State ℝ} {p : Nat}
    {e : Int} {qs : List Int} (hp : p < n)
    (h : Coded (realLog3 pred) (planLog3 realL tiny esc bound) s s' p e qs)
    (hl : ∀ c q, p ≤ q → s.cod c q = (realLog3 pred).fwd (data c q) ∧ s.val c q = data c q)
    (hnz : ∀ c, c < 3 → data c p ≠ 0) :
    ∃ req, 0 < req ∧ req ≤ eb ∧ BoundOK cells derive3 s.val p req ∧
      (∀ c, c < 3 → |s'.val c p - s.val c p| < |s.val c p| * req ∧ 0 < s.val c p * s'.val c p ∧
        abs (s'.cod c p - Real.logb 2 |s.val c p|) < Real.logb 2 (1 + req)) ∧
      ∀ c q, q ≠ p → s'.cod c q = s.cod c q ∧ s'.val c q = s.val c q := by
  obtain ⟨a, id, h1, -, h2, h3⟩ := h.real rfl (by norm_num [realLog3, logMode3])
    (by norm_num [realLog3, logMode3]) (by norm_num [realLog3, logMode3])
  rcases planLog3_cases h1 with h0 | ⟨req0, req, hb, hreq, hpos, h0⟩
  · cases h0
  · simp only [Plan.try.injEq] at h0
    obtain ⟨ha, -⟩ := h0
    have hpos : 0 < req := by
      have : ((0 : Int) : ℝ) < req := of_decide_eq_true hpos
      simpa using this
    have : req = req0 := by
      rcases hreq with h | h
      · exact h
      · rw [h] at hpos
        have : realL.ofInt 0 = (0 : ℝ) := by simp [realL, realOps, realD]
        rw [this] at hpos
        exact absurd hpos (lt_irrefl _)
    subst this
    have ha : a = Real.logb 2 (1 + req) := by
      rw [ha]; simp only [realL, realOps, realD]; push_cast; rfl
    obtain ⟨hle, hok⟩ := hB _ _ _ hp hb hpos
    refine ⟨req, hpos, hle, hok, fun c hc => ?_, h3⟩
    have hne : s.val c p ≠ 0 := by rw [(hl c p (le_refl p)).2]; exact hnz c hc
    obtain ⟨k1, k2⟩ := h2 c hc
    have hcod : s.cod c p = Real.logb 2 |s.val c p| := by
      rw [(hl c p (le_refl p)).1, (hl c p (le_refl p)).2]
      exact logFwd_real (hnz c hc)
    rw [hcod, ha] at k1
    obtain ⟨b1, b2⟩ := logBack_real hne hpos k1
    have hk2 : s'.val c p = logBack realL (s.val c p) (s'.cod c p) := k2
    rw [hk2]
    exact ⟨b1, b2, k1⟩

structure LogInv3 (cells : List Nat → Prop) (eb : ℝ) (data : Arr ℝ) (p : Nat) (s : State ℝ) :
    Prop where
  later : ∀ c q, p ≤ q → s.val c q = data c q
  err : ∀ c q, c < 3 → s.val c q = data c q ∨
    (|s.val c q - data c q| < |data c q| * eb ∧ 0 < data c q * s.val c q)
  cod : ∀ c q, c < 3 → data c q = 0 ∨
    abs (s.cod c q - Real.logb 2 |data c q|) < Real.logb 2 (1 + eb) ∨
    s.cod c q = Real.logb 2 |data c q|
  cell : ∀ t, cells t → (cellCP data t ↔ cellCP s.val t)
  crit : ∀ t, cells t → cellCP data t → ∀ q ∈ t, ∀ c, c < 3 → s.val c q = data c q

theorem logInv3_final (hB : GoodBound n cells eb bound) (hcells : ∀ t, cells t → ∀ q ∈ t, q < n)
    (hnz : ∀ c q, c < 3 → q < n → data c q ≠ 0)
    {s' : State ℝ} {str : Streams ℝ}
    (h : compress (realLog3 pred) (planLog3 realL tiny esc bound) n data = some (s', str)) :
    LogInv3 cells eb data n s' := by
  refine compress_inv _ _ _ _ s' str h (LogInv3 cells eb data) ?_ ?_ ?_
  · refine ⟨fun _ _ _ => rfl, fun _ _ _ => Or.inl rfl, fun c q _ => ?_, fun t _ => Iff.rfl,
      fun _ _ _ _ _ _ _ => rfl⟩
    by_cases h0 : data c q = 0
    · exact Or.inl h0
    · exact Or.inr (Or.inr (logFwd_real h0))
  · intro p s _ hI
    exact ⟨fun c q hq => hI.later c q (by omega), hI.err, hI.cod, hI.cell, hI.crit⟩
  · intro p s s1 e qs hp hI hc hl
    obtain ⟨req, hpos, hle, hok, hcomp, hother⟩ := step_log3 hB hp hc hl (fun c hc => hnz c p hc hp)
    refine ⟨fun c q hq => ?_, fun c q hc3 => ?_, fun c q hc3 => ?_, fun t ht => ?_,
      fun t ht hcp q hq c hc3 => ?_⟩
    · rw [(hother c q (by omega)).2]; exact hI.later c q (by omega)
    · by_cases hq : q = p
      · subst hq
        obtain ⟨k1, k2, -⟩ := hcomp c hc3
        rw [hI.later c q (le_refl q)] at k1 k2
        exact Or.inr ⟨lt_of_lt_of_le k1 (mul_le_mul_of_nonneg_left hle (abs_nonneg _)), k2⟩
      · rw [(hother c q hq).2]; exact hI.err c q hc3
    · by_cases hq : q = p
      · subst hq
        obtain ⟨-, -, k3⟩ := hcomp c hc3
        rw [hI.later c q (le_refl q)] at k3
        refine Or.inr (Or.inl (lt_of_lt_of_le k3 ?_))
        exact Real.logb_le_logb_of_le (by norm_num) (by linarith) (by linarith)
      · rw [(hother c q hq).1]; exact hI.cod c q hc3
    · exact (hI.cell t ht).trans (cell_step_rel hpos ht hok (fun c q hq => (hother c q hq).2)
        (fun c hc => (hcomp c hc).1))
    · by_cases hqp : q = p
      · subst hqp
        exfalso
        obtain ⟨q0, q1, q2, hperm, -, -, -, hd⟩ := hok t ht hq
        have hcp' := (hasCP_perm (hperm.map (vec s.val))).1 ((hI.cell t ht).1 hcp)
        simp only [List.map_cons, List.map_nil] at hcp'
        have hz : ∀ j, j ∈ t → ¬ (vec s.val j).isZero := by
          intro j hj hz
          have h0 : s.val 0 j = 0 := hz.1
          have hd0 := hnz 0 j (by omega) (hcells t ht j hj)
          rcases hI.err 0 j (by omega) with e | ⟨-, e⟩
          · exact hd0 (e ▸ h0)
          · rw [h0] at e; simp at e
        have hmem : ∀ j, j ∈ [q0, q1, q2, q] → j ∈ t := fun j hj => hperm.mem_iff.2 hj
        have := derive3_cp hcp' (hz q0 (hmem _ (by simp))) (hz q1 (hmem _ (by simp)))
          (hz q2 (hmem _ (by simp))) (hz q (hmem _ (by simp)))
        linarith
      · rw [(hother c q hqp).2]; exact hI.crit t ht hcp q hq c hc3

/-- Coded values stay clear of the decoder's zero threshold if the data do. -/
theorem cod_large3 {s' : State ℝ} {p : Nat} (h0 : 0 ≤ eb) (h1 : eb ≤ 1)
    (hI : LogInv3 cells eb data p s') (c q : Nat) (hc : c < 3)
    (hm : (2 : ℝ) ^ (-98 : ℤ) ≤ |data c q|) : realL.ltM99 (s'.cod c q) = false := by
  have hpos : (0 : ℝ) < 2 ^ (-98 : ℤ) := by positivity
  have hlog : (-98 : ℝ) ≤ Real.logb 2 |data c q| := by
    rw [Real.le_logb_iff_rpow_le (by norm_num) (by linarith)]
    have : (2 : ℝ) ^ (-98 : ℝ) = (2 : ℝ) ^ (-98 : ℤ) := by
      rw [← Real.rpow_intCast]; norm_num
    rw [this]; exact hm
  have hlog1 : Real.logb 2 (1 + eb) ≤ 1 := by
    rw [Real.logb_le_iff_le_rpow (by norm_num) (by linarith)]
    norm_num; linarith
  simp only [realL, decide_eq_false_iff_not, not_lt]
  rcases hI.cod c q hc with h | h | h
  · rw [h] at hm; simp only [abs_zero] at hm; linarith
  · rw [abs_lt] at h; linarith
  · rw [h]; linarith

/-- No code of a quantised vertex is `eb_quant_index_max` if bounds are at most 1 (less than
3 would do). -/
theorem no_collision (hB : GoodBound n cells eb bound) (h1 : eb ≤ 1) (s : State ℝ) (p : Nat)
    (hp : p < n) (a : ℝ) (h : planLog3 realL tiny esc bound s p = some (.try a esc)) :
    (ebQuant realL.toDOps 2 (Real.logb 2 2) (1 / 2 ^ 23) a).2 ≠
      escMax realL.toDOps (Real.logb 2 2) (1 / 2 ^ 23) := by
  rw [escMax_real]
  rcases planLog3_cases h with h0 | ⟨req0, req, hb, hreq, hpos, h0⟩
  · cases h0
  · simp only [Plan.try.injEq] at h0
    obtain ⟨ha, -⟩ := h0
    have hpos : 0 < req := by
      have : ((0 : Int) : ℝ) < req := of_decide_eq_true hpos
      simpa using this
    have : req = req0 := by
      rcases hreq with h | h
      · exact h
      · rw [h] at hpos
        have : realL.ofInt 0 = (0 : ℝ) := by simp [realL, realOps, realD]
        rw [this] at hpos
        exact absurd hpos (lt_irrefl _)
    subst this
    have ha : a = Real.logb 2 (1 + req) := by
      rw [ha]; simp only [realL, realOps, realD]; push_cast; rfl
    obtain ⟨hle, -⟩ := hB _ _ _ hp hb hpos
    have ha1 : a ≤ 1 := by
      rw [ha, Real.logb_le_iff_le_rpow (by norm_num) (by linarith)]
      norm_num; linarith
    have hs := ebQuant_spec 2 (by norm_num) (1 / 2 ^ 23) a (by norm_num)
    simp only at hs
    push_cast at hs
    obtain ⟨-, -, s3, s4⟩ := hs
    change (ebQuant realD 2 (Real.logb 2 2) (1 / 2 ^ 23) a).2 ≠ 24
    intro hc
    by_cases hgt : 1 / 2 ^ 23 < a
    · obtain ⟨e1, e2, -⟩ := s3 hgt
      rw [hc] at e1
      rw [e1] at e2
      norm_num at e2
      linarith
    · rw [s4 (not_lt.1 hgt)] at hc; norm_num at hc

end log

end CpSZ.ThreeD
