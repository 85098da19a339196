import Verif.ThreeD.Sweep
/-
The structured 3D modes in exact arithmetic.
-/

namespace CpSZ.ThreeD
open VMode Mesh3D

theorem derive3_le_one (a b c d : V3) : derive3 a b c d ≤ 1 := by
  by_contra hc
  push Not at hc
  rcases derive3_cases (lt_trans one_pos hc) (le_refl _) with ⟨h, -⟩ | ⟨-, h, -⟩ | ⟨-, h, -⟩ |
    ⟨-, h, -⟩ | ⟨-, h⟩
  · linarith
  all_goals exact absurd (h.trans keepSign3_le_one) (not_le.2 hc)

/-! ### Log mode -/

/-- `required_eb` over the reals.  (src/sz_compress_cp_preserve_3d.cpp L819-837.) -/
noncomputable def boundReal3 (r1 r2 r3 : Nat) (maxEb : ℝ) (f : Arr ℝ) (p : Nat) : Option ℝ :=
  boundLog3 realD r1 r2 r3 maxEb (onCols derive3) f p

theorem boundReal3_ok {r1 r2 r3 : Nat} {maxEb : ℝ} {f : Arr ℝ} {p : Nat} (hp : p < r1 * r2 * r3)
    {r : ℝ} (h : boundReal3 r1 r2 r3 maxEb f p = some r) (hr : 0 < r) :
    r ≤ maxEb ∧ BoundOK (gridCells r1 r2 r3) derive3 f p r := by
  obtain ⟨h1, h2, -⟩ := required3_ok (Q := fun _ => True)
    (fun req idx a b c d _ => by
      obtain ⟨b1, b2, b3⟩ := minBody_real derive3 req idx a b c d
      exact ⟨b1, b2, b3, trivial⟩) hp h hr
  exact ⟨h1, h2⟩

theorem corner_exists : ∀ a, a < 2 → ∀ b, b < 2 → ∀ c, c < 2 →
    ∃ s, s < 6 ∧ ((a, b, c) : Pos) ∈ pathCorners s := by
  have h : ∀ a, a < 2 → ∀ b, b < 2 → ∀ c, c < 2 →
      ∃ s ∈ List.range 6, (pathCorners s).contains ((a, b, c) : Pos) = true := by decide +kernel
  intro a ha b hb c hc
  obtain ⟨s, hs, hm⟩ := h a ha b hb c hc
  exact ⟨s, List.mem_range.1 hs, by simpa using hm⟩

/-- Every vertex of a grid with at least two points in each direction is in some cell. -/
theorem cell_exists {r1 r2 r3 p : Nat} (hp : p < r1 * r2 * r3) (h1 : 2 ≤ r1) (h2 : 2 ≤ r2)
    (h3 : 2 ≤ r3) : ∃ t : Tet, t.inGrid r1 r2 r3 ∧ p ∈ t.verts r2 r3 := by
  obtain ⟨hi, hj, hk, hf⟩ := split3 hp
  generalize p / (r2 * r3) = i at hi hf
  generalize p / r3 % r2 = j at hj hf
  generalize p % r3 = k at hk hf
  obtain ⟨s, hs, hm⟩ := corner_exists (i - min i (r1 - 2)) (by omega) (j - min j (r2 - 2)) (by omega)
    (k - min k (r3 - 2)) (by omega)
  refine ⟨⟨min i (r1 - 2), min j (r2 - 2), min k (r3 - 2), s⟩,
    ⟨by simp only; omega, by simp only; omega, by simp only; omega, hs⟩, ?_⟩
  rw [Tet.verts, List.mem_map]
  refine ⟨(i, j, k), ?_, hf⟩
  rw [Tet.corners, List.mem_map]
  refine ⟨_, hm, ?_⟩
  simp only [Pos.add, Prod.mk.injEq]
  omega

/-- Grids on which every bound is at most 1. -/
def Small (r1 r2 r3 : Nat) (maxEb : ℝ) : Prop := maxEb ≤ 1 ∨ (2 ≤ r1 ∧ 2 ≤ r2 ∧ 2 ≤ r3)

theorem goodBound3 (r1 r2 r3 : Nat) (maxEb : ℝ) (hs : Small r1 r2 r3 maxEb) :
    GoodBound (r1 * r2 * r3) (gridCells r1 r2 r3) (min maxEb 1) (boundReal3 r1 r2 r3 maxEb) := by
  intro f p r hp h hr
  obtain ⟨a1, a2⟩ := boundReal3_ok hp h hr
  refine ⟨le_min a1 ?_, a2⟩
  rcases hs with hs | ⟨h1, h2, h3⟩
  · exact a1.trans hs
  · obtain ⟨t, ht, hm⟩ := cell_exists hp h1 h2 h3
    obtain ⟨q0, q1, q2, -, -, -, -, hle⟩ := a2 _ ⟨t, ht, rfl⟩ hm
    exact hle.trans (derive3_le_one _ _ _ _)

/-- The structured log mode: `required_eb < 1e-6` is replaced by 0, escape code
`eb_quant_index_max = 24`.  (src/sz_compress_cp_preserve_3d.cpp L747-974.) -/
noncomputable def compressLog3 (r1 r2 r3 : Nat) (maxEb : ℝ) (data : Arr ℝ) :
    Option (State ℝ × Streams ℝ) :=
  compress (realLog3 (lorenzo3 realOps r2 r3))
    (planLog3 realL (1 / 10 ^ 6) 24 (boundReal3 r1 r2 r3 maxEb)) (r1 * r2 * r3) data

/-- The decompressor in exact arithmetic (src/sz_decompress_cp_preserve_3d.cpp L7-110). -/
noncomputable def decompressLog3 (r1 r2 r3 : Nat) (maps : List (List Byte)) (m0 : Arr ℝ)
    (s : Streams ℝ) : Option (Arr ℝ) :=
  decompress (realLog3 (lorenzo3 realOps r2 r3)) (logFin realL (mapAt maps)) (r1 * r2 * r3) m0 s

theorem planLog3_defined {T D : Type} {L : LOps T D} {tiny : D} {esc : Int}
    {bound : Arr T → Nat → Option D} {s : State T} {p : Nat} (h : (bound s.val p).isSome) :
    (planLog3 L tiny esc bound s p).isSome := by
  obtain ⟨r, hr⟩ := Option.isSome_iff_exists.1 h
  unfold planLog3
  rw [hr]
  rfl

theorem compressLog3_defined (r1 r2 r3 : Nat) (maxEb : ℝ) (data : Arr ℝ) :
    ∃ s' str, compressLog3 r1 r2 r3 maxEb data = some (s', str) :=
  compress_defined _ _ _ _ fun _ _ hp => planLog3_defined (required3_defined hp _)

theorem goodReal3 (r1 r2 r3 : Nat) (maxEb : ℝ) (hs : Small r1 r2 r3 maxEb) :
    Good (realLog3 (lorenzo3 realOps r2 r3))
      (planLog3 realL (1 / 10 ^ 6) 24 (boundReal3 r1 r2 r3 maxEb)) (r1 * r2 * r3) :=
  goodLog3 realL realL_laws _ _ _ _ _ _ _ _ (lorenzo3_congr realOps r2 r3)
    (Or.inr escMax_real.symm) _
    (fun s p a hp h => no_collision (goodBound3 r1 r2 r3 maxEb hs) (min_le_right _ _) s p hp a h)

/-! ### Absolute mode -/

/-- Base 4, threshold `DBL_EPSILON`, capacity 65536. 
(src/sz_compress_cp_preserve_3d.cpp L1320-1323.) -/
noncomputable def realAbs3 (r2 r3 : Nat) : Mode ℝ ℝ :=
  absMode3 realOps (Real.logb 2 4) (1 / 2 ^ 52) r2 r3 4 32768

/-- `cp` is the bitmap of cells.  (src/sz_compress_cp_preserve_3d.cpp L1351-1385.) -/
noncomputable def planReal3 (r1 r2 r3 : Nat) (maxEb : ℝ) (cp : Nat → Bool) :
    State ℝ → Nat → Option (Plan ℝ) :=
  planAbs3 realOps realL.isZero (fun x => decide (x ≠ 0)) r1 r2 r3 maxEb cp (onCols deriveAbs3)

/-- The absolute mode in exact arithmetic (src/sz_compress_cp_preserve_3d.cpp L1305-1475). -/
noncomputable def compressAbs3 (r1 r2 r3 : Nat) (maxEb : ℝ) (cp : Nat → Bool) (data : Arr ℝ) :
    Option (State ℝ × Streams ℝ) :=
  compress (realAbs3 r2 r3) (planReal3 r1 r2 r3 maxEb cp) (r1 * r2 * r3) data

theorem absBody_real (cp : Nat → Bool) (derive : V3 → V3 → V3 → V3 → ℝ) (req : ℝ) (idx : Nat)
    (a b c d : Nat → ℝ) (h : 0 < (absBody realD cp (onCols derive) req idx a b c d).1) :
    (absBody realD cp (onCols derive) req idx a b c d).2 = false ∧
    (absBody realD cp (onCols derive) req idx a b c d).1 ≤ req ∧
    (absBody realD cp (onCols derive) req idx a b c d).1 ≤ onCols derive a b c d ∧
    cp idx = false := by
  have hB : absBody realD cp (onCols derive) req idx a b c d =
      if cp idx = true then (realD.ofInt 0, true) else
        minBody realD (onCols derive) req idx a b c d := rfl
  rw [hB] at h ⊢
  by_cases hc : cp idx = true
  · rw [if_pos hc] at h; simp [realD] at h
  · rw [if_neg hc]
    obtain ⟨b1, b2, b3⟩ := minBody_real derive req idx a b c d
    exact ⟨b1, b2, b3, by simpa using hc⟩

theorem planReal3_cases {r1 r2 r3 : Nat} {maxEb : ℝ} {cp : Nat → Bool} {s : State ℝ} {p : Nat}
    (hp : p < r1 * r2 * r3) {a : ℝ} {id : Int}
    (h : planReal3 r1 r2 r3 maxEb cp s p = some (.try a id)) (ha : 0 < a) :
    a ≤ maxEb ∧ BoundOK (gridCells r1 r2 r3) deriveAbs3 s.val p a ∧
      (∀ t : Tet, t.inGrid r1 r2 r3 → p ∈ t.verts r2 r3 → cp (cellNo r2 r3 t) = false) ∧
      s.val 0 p ≠ 0 ∧ s.val 1 p ≠ 0 ∧ s.val 2 p ≠ 0 := by
  unfold planReal3 planAbs3 at h
  simp only at h
  by_cases hz : (realL.isZero (s.val 0 p) || realL.isZero (s.val 1 p) ||
      realL.isZero (s.val 2 p)) = true
  · rw [if_pos hz] at h
    simp [realOps, realD] at h
  · rw [if_neg hz] at h
    by_cases hm : maxEb = 0
    · simp [hm] at h
    · simp only [ne_eq, hm, not_false_eq_true, decide_true, if_true] at h
      split at h
      · cases h
      · rename_i req hreq
        simp only [Option.some.injEq] at h
        split at h
        · simp only [Plan.try.injEq] at h
          obtain ⟨rfl, -⟩ := h
          obtain ⟨b1, b2, b3⟩ := required3_ok (Q := fun idx => cp idx = false)
            (absBody_real cp deriveAbs3) hp hreq ha
          simp only [Bool.not_eq_true, Bool.or_eq_false_iff, realL, decide_eq_false_iff_not] at hz
          exact ⟨b1, b2, b3, hz.1.1, hz.1.2, hz.2⟩
        · cases h

structure AbsInv3 (cells : List Nat → Prop) (eb : ℝ) (data : Arr ℝ) (p : Nat) (s : State ℝ) :
    Prop where
  later : ∀ c q, p ≤ q → s.val c q = data c q
  same : ∀ c q, c < 3 → s.cod c q = s.val c q
  err : ∀ c q, c < 3 → s.val c q = data c q ∨
    (|s.val c q - data c q| < eb ∧ data 0 q ≠ 0 ∧ data 1 q ≠ 0 ∧ data 2 q ≠ 0)
  cell : ∀ t, cells t → (cellCP data t ↔ cellCP s.val t)
  crit : ∀ t, cells t → cellCP data t → ∀ q ∈ t, ∀ c, s.val c q = data c q

theorem absInv3_final {r1 r2 r3 : Nat} {maxEb : ℝ} {cp : Nat → Bool} {data : Arr ℝ}
    {s' : State ℝ} {str : Streams ℝ}
    (h : compressAbs3 r1 r2 r3 maxEb cp data = some (s', str)) :
    AbsInv3 (gridCells r1 r2 r3) maxEb data (r1 * r2 * r3) s' := by
  refine compress_inv _ _ _ _ s' str h (AbsInv3 (gridCells r1 r2 r3) maxEb data) ?_ ?_ ?_
  · exact ⟨fun _ _ _ => rfl, fun _ _ _ => rfl, fun _ _ _ => Or.inl rfl, fun t _ => Iff.rfl,
      fun _ _ _ _ _ _ => rfl⟩
  · intro p s _ hI
    exact ⟨fun c q hq => hI.later c q (by omega), hI.same, hI.err, hI.cell, hI.crit⟩
  · intro p s s1 e qs hp hI hc hl
    obtain ⟨a, id, h1, hthr, h2, hother⟩ := hc.real rfl (by norm_num [realAbs3, absMode3])
      (by norm_num [realAbs3, absMode3]) (by norm_num [realAbs3, absMode3])
    have ha : 0 < a := lt_trans (by norm_num [realAbs3, absMode3]) hthr
    obtain ⟨hle, hok, -, z0, z1, z2⟩ := planReal3_cases hp h1 ha
    have hv : ∀ c, c < 3 → |s1.val c p - s.val c p| < a ∧ s1.val c p = s1.cod c p := by
      intro c hc3
      obtain ⟨k1, k2⟩ := h2 c hc3
      have k2 : s1.val c p = s1.cod c p := k2
      rw [k2, ← hI.same c p hc3]
      exact ⟨k1, rfl⟩
    refine ⟨fun c q hq => ?_, fun c q hc3 => ?_, fun c q hc3 => ?_, fun t ht => ?_,
      fun t ht hcp q hq c => ?_⟩
    · rw [(hother c q (by omega)).2]; exact hI.later c q (by omega)
    · by_cases hq : q = p
      · subst hq; exact (hv c hc3).2.symm
      · rw [(hother c q hq).1, (hother c q hq).2]; exact hI.same c q hc3
    · by_cases hq : q = p
      · subst hq
        have := (hv c hc3).1
        rw [hI.later c q (le_refl q)] at this
        rw [hI.later 0 q (le_refl q)] at z0
        rw [hI.later 1 q (le_refl q)] at z1
        rw [hI.later 2 q (le_refl q)] at z2
        exact Or.inr ⟨lt_of_lt_of_le this hle, z0, z1, z2⟩
      · rw [(hother c q hq).2]; exact hI.err c q hc3
    · exact (hI.cell t ht).trans (cell_step_abs ha ht hok (fun c q hq => (hother c q hq).2)
        (fun c hc => (hv c hc).1))
    · by_cases hqp : q = p
      · subst hqp
        exact absurd ((hI.cell t ht).1 hcp) (cell_none_abs ha ht hok hq)
      · rw [(hother c q hqp).2]; exact hI.crit t ht hcp q hq c

/-! ### Flagged cells, for any arithmetic -/

section flagged
variable {T D : Type} {O : Ops T D} {cp : Nat → Bool} {r1 r2 r3 : Nat}
  {derive : (Nat → T) → (Nat → T) → (Nat → T) → (Nat → T) → D}

theorem loop3_flagged {f : Arr T} {i j k : Nat} (hi : i < r1) (hj : j < r2) (hk : k < r3)
    (ns : List Nat) (hns : ∀ n ∈ ns, n < 24) (req : D) {m : Nat} (hm : m ∈ ns)
    (hin : inMesh r1 r2 r3 i j k m = true) (hcp : cp (cellNo r2 r3 (tetOf i j k m)) = true) :
    loop3 r1 r2 r3 (absBody O.toDOps cp derive) f i j k ns req = some (O.ofInt 0) := by
  induction ns generalizing req with
  | nil => cases hm
  | cons n ns ih =>
    have hn := hns n (List.mem_cons_self ..)
    by_cases hmesh : inMesh r1 r2 r3 i j k n = true
    · rw [loop3_cons hi hj hk hn ns req hmesh]
      have hB : ∀ a b c d, absBody O.toDOps cp derive req (cellNo r2 r3 (tetOf i j k n) : Nat)
          a b c d = if cp (cellNo r2 r3 (tetOf i j k n)) then (O.ofInt 0, true) else
            (if O.lt req (derive a b c d) then req else derive a b c d, false) :=
        fun _ _ _ _ => rfl
      rw [hB]
      cases hc : cp (cellNo r2 r3 (tetOf i j k n)) with
      | true => rfl
      | false =>
        simp only [Bool.false_eq_true, if_false]
        rcases List.mem_cons.1 hm with rfl | hm
        · rw [hc] at hcp; cases hcp
        · exact ih (fun m hm => hns m (List.mem_cons_of_mem _ hm)) _ hm
    · rw [loop3, if_neg hmesh]
      rcases List.mem_cons.1 hm with rfl | hm
      · exact absurd hin hmesh
      · exact ih (fun m hm => hns m (List.mem_cons_of_mem _ hm)) _ hm

theorem planAbs3_flagged {isZero : T → Bool} {nz : D → Bool} {maxEb : D}
    (hnz : nz (O.ofInt 0) = false) {s : State T} {p : Nat}
    (hp : p < r1 * r2 * r3) {t : Tet} (ht : t.inGrid r1 r2 r3) (hm : p ∈ t.verts r2 r3)
    (hcp : cp (cellNo r2 r3 t) = true) :
    planAbs3 O isZero nz r1 r2 r3 maxEb cp derive s p = some (.lossless 0) := by
  obtain ⟨hi, hj, hk, -⟩ := split3 hp
  obtain ⟨n, hn, h1, h2⟩ := cell_row hp ht hm
  unfold planAbs3
  simp only
  generalize (if isZero (s.val 0 p) || isZero (s.val 1 p) || isZero (s.val 2 p) then O.ofInt 0
    else maxEb) = req
  cases hr : nz req with
  | false => simp only [Bool.false_eq_true, if_false, hr]
  | true =>
    have : required3 r1 r2 r3 (absBody O.toDOps cp derive) s.val p req = some (O.ofInt 0) :=
      loop3_flagged hi hj hk _ (fun n hn => List.mem_range.1 hn) req (List.mem_range.2 hn) h1
        (by rw [h2]; exact hcp)
    simp only [if_true, this, hnz, Bool.false_eq_true, if_false]

end flagged

end CpSZ.ThreeD
