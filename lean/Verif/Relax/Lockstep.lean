import Verif.Relax.Model
/-
Decoding and cells of the relaxed mode, for uninterpreted arithmetic.
-/

namespace CpSZ.Online2D.Relax

open CpSZ.Mesh2D

variable {T D : Type}

theorem flat (r1 r2 p : Nat) (h : p < r1 * r2) :
    ∃ i j, i < r1 ∧ j < r2 ∧ i * r2 + j = p := by
  have hr : 0 < r2 := by
    rcases Nat.eq_zero_or_pos r2 with h0 | h0
    · subst h0; omega
    · exact h0
  refine ⟨p / r2, p % r2, ?_, Nat.mod_lt _ hr, ?_⟩
  · rw [Nat.div_lt_iff_lt_mul hr]; exact h
  · have := Nat.div_add_mod p r2
    rw [Nat.mul_comm] at this; exact this

/-- The tentative value of a component, as the decompressor computes it. -/
theorem tentative_some (O : ROps T D) (P : Par D) (r2 : Nat) (f : Nat → T) (p : Nat) (eb : D)
    (q : Int) (x : T) (h : tentative O P r2 f p eb = some (q, x)) :
    x = O.ofD (O.add (O.toD (lorenzo O.toOps r2 f p)) (linOffset O.toDOps eb P.radius q)) := by
  unfold tentative at h
  simp only at h
  split at h
  · cases h
  · split at h
    · cases h; rfl
    · cases h

theorem ebQuant_ne (O : DOps D) (base : Int) (lb thr a : D)
    (h : (ebQuant O base lb thr a).2 ≠ 0) :
    (ebQuant O base lb thr a).1 = O.mul (O.pow base (ebQuant O base lb thr a).2) thr := by
  unfold ebQuant at h ⊢
  split
  · rename_i hc; simp [hc] at h
  · rfl

theorem compress_defined (O : ROps T D) (P : Par D) (maxCount : Nat) (chk : Test T) (r1 r2 : Nat)
    (maxEb : D) (m : Field T) :
    ∃ m' s, compress O P maxCount chk r1 r2 maxEb m = some (m', s) := by
  obtain ⟨⟨s, ws⟩, h⟩ := Option.isSome_iff_exists.1
    (scanEnc_defined (encVertex O P maxCount chk r1 r2 (cpExist chk r2 m) maxEb) (r1 * r2) 0
      (fun q s _ hq => by
        obtain ⟨i, j, hi, hj, rfl⟩ := flat r1 r2 q (by omega)
        obtain ⟨s', w, e, -⟩ := encVertex_cases O P maxCount chk r1 r2 i j maxEb m s hi hj
        rw [e]; rfl) (m, 0))
  exact ⟨s.1, ⟨ws.flatMap VCode.eb, ws.flatMap (VCode.dq P.radius), ws.flatMap VCode.un⟩,
    by simp only [compress, h]⟩

theorem compress_lengths (O : ROps T D) (P : Par D) (maxCount : Nat) (chk : Test T) (r1 r2 : Nat)
    (maxEb : D) (m m' : Field T) (s : Streams T)
    (h : compress O P maxCount chk r1 r2 maxEb m = some (m', s)) :
    s.eb.length = 2 * (r1 * r2) ∧ s.dq.length = 2 * (r1 * r2) ∧
      s.un.length ≤ 2 * (r1 * r2) := by
  unfold compress at h
  split at h
  · cases h
  · rename_i m1 ws hs
    simp only [Option.some.injEq, Prod.mk.injEq] at h
    obtain ⟨rfl, rfl⟩ := h
    have hl : ws.length = r1 * r2 := scanEnc_length _ _ _ _ _ _ hs
    rw [← hl]
    clear hs hl
    induction ws with
    | nil => simp
    | cons w ws ih =>
      simp only [List.flatMap_cons, List.length_append, List.length_cons] at ih ⊢
      cases w <;> simp [VCode.eb, VCode.dq, VCode.un] at ih ⊢ <;> omega

/-- Every bound that may be used has a code different from zero, or no value is accepted with
it. -/
def CodesOK (O : ROps T D) (P : Par D) (maxCount : Nat) (maxEb : D) : Prop :=
  ∀ k ≤ maxCount, (ebQuant O.toDOps P.base P.logBase P.thr (tried O P maxEb k)).2 ≠ 0 ∨
    ∀ d, ∀ q, O.quot d (ebQuant O.toDOps P.base P.logBase P.thr (tried O P maxEb k)).1 = some q →
      O.ltInt q P.capacity = false

theorem tentative_ok (O : ROps T D) (P : Par D) (r2 : Nat) (f : Nat → T) (p : Nat) (eb : D)
    (r : Int × T) (h : tentative O P r2 f p eb = some r) :
    ¬ ∀ d q, O.quot d eb = some q → O.ltInt q P.capacity = false := by
  intro hc
  unfold tentative at h
  simp only at h
  split at h
  · cases h
  · rename_i qd hqd
    rw [hc _ _ hqd] at h
    cases h

theorem lockstep (O : ROps T D) (P : Par D) (maxCount : Nat) (chk : Test T) (r1 r2 : Nat)
    (maxEb : D) (hc : CodesOK O P maxCount maxEb) (m m0 m' : Field T) (s : Streams T)
    (h : compress O P maxCount chk r1 r2 maxEb m = some (m', s)) :
    ∃ d, decompress O.toOps P r1 r2 m0 s = some d ∧
      ∀ q, q < r1 * r2 → d.u q = m'.u q ∧ d.v q = m'.v q := by
  unfold compress at h
  split at h
  · cases h
  · rename_i m1 ws hs
    simp only [Option.some.injEq, Prod.mk.injEq] at h
    obtain ⟨rfl, rfl⟩ := h
    -- positions below the end of the grid only
    let enc' := fun (s : Field T × Nat) p => if p < r1 * r2 then
      encVertex O P maxCount chk r1 r2 (cpExist chk r2 m) maxEb s p else none
    have hs' : scanEnc enc' (r1 * r2) 0 (m, 0) = some (m1, ws) := by
      rw [← hs]
      have : ∀ n p s, p + n ≤ r1 * r2 → scanEnc enc' n p s =
          scanEnc (encVertex O P maxCount chk r1 r2 (cpExist chk r2 m) maxEb) n p s := by
        intro n
        induction n with
        | zero => intros; rfl
        | succ n ih =>
          intro p s hp
          simp only [scanEnc, enc', if_pos (show p < r1 * r2 by omega)]
          cases encVertex O P maxCount chk r1 r2 (cpExist chk r2 m) maxEb s p with
          | none => rfl
          | some r => simp only; rw [ih (p + 1) r.1 (by omega)]
      exact this _ _ _ (by omega)
    obtain ⟨d, hd, hA⟩ := scan_lockstep enc' (decVertex O.toOps P r2) (prepend P.radius)
      (fun p s d => Agree p s.1 d)
      (by
        intro p s d s' w rest hA he
        simp only [enc'] at he
        split at he
        swap
        · cases he
        rename_i hp
        obtain ⟨i, j, hi, hj, rfl⟩ := flat r1 r2 p hp
        obtain ⟨s2, w2, e2, hcases⟩ := encVertex_cases O P maxCount chk r1 r2 i j maxEb m s hi hj
        rw [e2] at he
        cases he
        rcases hcases with ⟨h1, rfl⟩ | ⟨c, -, -, hacc, h1, rfl⟩
        · refine ⟨d.set (i * r2 + j) (s.1.u (i * r2 + j)) (s.1.v (i * r2 + j)), rfl, ?_⟩
          intro q hq
          by_cases hqp : q = i * r2 + j
          · subst hqp; simp [Field.set, setAt, h1]
          · have := hA q (by omega)
            simp [Field.set, setAt, hqp, this.1, this.2, h1]
        · obtain ⟨k, hk, hid, t0, t1⟩ := hacc.bound
          have hne : (ebQuant O.toDOps P.base P.logBase P.thr (tried O P maxEb k)).2 ≠ 0 :=
            (hc k hk).resolve_right (tentative_ok O P r2 _ _ _ _ t0)
          have x0 := tentative_some O P r2 _ _ _ _ _ t0
          have x1 := tentative_some O P r2 _ _ _ _ _ t1
          rw [ebQuant_ne _ _ _ _ _ hne, ← hid,
            lorenzo_congr O.toOps r2 _ s.1.u d.u (fun q hq => (hA q hq).1)] at x0
          rw [ebQuant_ne _ _ _ _ _ hne, ← hid,
            lorenzo_congr O.toOps r2 _ s.1.v d.v (fun q hq => (hA q hq).2)] at x1
          rw [← hid] at hne
          refine ⟨d.set (i * r2 + j) c.x c.y, ?_, ?_⟩
          · simp only [prepend, VCode.eb, VCode.dq, VCode.un, List.cons_append, List.nil_append,
              decVertex, hne, if_false, ← x0, ← x1]
          · intro q hq
            by_cases hqp : q = i * r2 + j
            · subst hqp; simp [Field.set, setAt, h1]
            · have := hA q (by omega)
              simp [Field.set, setAt, hqp, this.1, this.2, h1])
      (r1 * r2) 0 (m, 0) m0 m1 ws ⟨[], [], []⟩ (fun q hq => by omega) hs'
    refine ⟨d, ?_, fun q hq => ?_⟩
    · rw [foldr_prepend] at hd
      simp only [List.append_nil] at hd
      simp [decompress, hd]
    · have := hA q (by omega)
      exact ⟨this.1.symm, this.2.symm⟩

/-- The decompressor takes the vertex for a lossless one. -/
def readsLossless : VCode T → Bool
  | .lossless _ _ => true
  | .coded e0 _ _ _ => decide (e0 = 0)

def isLossless : VCode T → Bool
  | .lossless _ _ => true
  | .coded _ _ _ _ => false

/-- The decompressor takes two lossless values for every vertex whose first bound code is
zero. -/
theorem decompress_takes (O : Ops T D) (P : Par D) (r2 : Nat) (ws : List (VCode T)) (p : Nat)
    (d d' : Field T) (un : List T) (r : Streams T)
    (h : scanDec (decVertex O P r2) ws.length p d
      ⟨ws.flatMap VCode.eb, ws.flatMap (VCode.dq P.radius), un⟩ = some (d', r)) :
    2 * ws.countP readsLossless ≤ un.length := by
  induction ws generalizing p d un with
  | nil => simp
  | cons w ws ih =>
    simp only [List.length_cons, scanDec] at h
    cases w with
    | lossless x y =>
      simp only [List.flatMap_cons, VCode.eb, VCode.dq, List.cons_append, List.nil_append,
        decVertex, if_true] at h
      split at h
      · cases h
      · rename_i d1 i1 h1
        split at h1
        · rename_i a b uns
          cases h1
          have := ih _ _ _ h
          simp only [List.countP_cons, readsLossless, if_true, List.length_cons]
          omega
        · cases h1
    | coded e0 e1 q0 q1 =>
      simp only [List.flatMap_cons, VCode.eb, VCode.dq, List.cons_append, List.nil_append,
        decVertex] at h
      by_cases he : e0 = 0
      · simp only [he, if_true] at h
        split at h
        · cases h
        · rename_i d1 i1 h1
          split at h1
          · rename_i a b uns
            cases h1
            have := ih _ _ _ h
            simp only [List.countP_cons, readsLossless, he, decide_true, if_true, List.length_cons]
            omega
          · cases h1
      · simp only [he, if_false] at h
        have := ih _ _ _ h
        simp only [List.countP_cons, readsLossless, he, decide_false, Bool.false_eq_true, if_false]
        exact this

theorem un_length (ws : List (VCode T)) :
    (ws.flatMap VCode.un).length = 2 * ws.countP isLossless := by
  induction ws with
  | nil => rfl
  | cons w ws ih =>
    cases w <;> simp [VCode.un, isLossless, List.countP_cons] at ih ⊢ <;> omega

/-- A vertex coded with bound code zero makes the decompressor run past the end of the
lossless values. -/
theorem zero_code_undecodable (O : Ops T D) (P : Par D) (r1 r2 : Nat) (ws : List (VCode T))
    (hl : ws.length = r1 * r2) (e1 q0 q1 : Int) (h : VCode.coded 0 e1 q0 q1 ∈ ws) (d : Field T) :
    decompress O P r1 r2 d ⟨ws.flatMap VCode.eb, ws.flatMap (VCode.dq P.radius),
      ws.flatMap VCode.un⟩ = none := by
  unfold decompress
  rw [← hl]
  cases hs : scanDec (decVertex O P r2) ws.length 0 d ⟨ws.flatMap VCode.eb,
      ws.flatMap (VCode.dq P.radius), ws.flatMap VCode.un⟩ with
  | none => rfl
  | some r =>
    exfalso
    have h1 := decompress_takes O P r2 ws 0 d r.1 _ r.2 hs
    rw [un_length] at h1
    have h2 : ws.countP isLossless < ws.countP readsLossless := by
      clear hl hs h1
      induction ws with
      | nil => cases h
      | cons w ws ih =>
        have hle : ws.countP isLossless ≤ ws.countP readsLossless :=
          List.countP_mono_left fun w _ => by cases w <;> simp [isLossless, readsLossless]
        simp only [List.countP_cons]
        rcases List.mem_cons.1 h with rfl | h
        · simp [isLossless, readsLossless]; omega
        · have := ih h
          cases w <;> simp [isLossless, readsLossless] <;> omega
    omega

/-! ### Cells -/

/-- Invariant of the sweep: vertices not yet visited are original; a triangle that tested
positive is untouched; of the others, a triangle with a changed vertex tests negative in some
order of its vertices. -/
structure CellInv (chk : Test T) (r1 r2 : Nat) (m : Field T) (p : Nat) (f : Field T) : Prop where
  later : ∀ q, p ≤ q → f.u q = m.u q ∧ f.v q = m.v q
  kept : ∀ t : Tri, t.inGrid r1 r2 → triTest chk r2 m t = true →
    ∀ P ∈ t.verts, vecAt r2 f P = vecAt r2 m P
  none : ∀ t : Tri, t.inGrid r1 r2 → triTest chk r2 m t = false →
    (∀ P ∈ t.verts, vecAt r2 f P = vecAt r2 m P) ∨
    ∃ P Q R, t.verts.Perm [P, Q, R] ∧ chk (vecAt r2 f P) (vecAt r2 f Q) (vecAt r2 f R) = false

theorem verts_lt {r1 r2 : Nat} {t : Tri} (ht : t.inGrid r1 r2) {P : Nat × Nat} (hP : P ∈ t.verts) :
    P.1 < r1 ∧ P.2 < r2 := by
  unfold Tri.inGrid at ht
  unfold Tri.verts at hP
  split at hP <;> simp only [List.mem_cons, List.not_mem_nil, or_false] at hP <;>
    rcases hP with rfl | rfl | rfl <;> simp only <;> omega

theorem flat_inj {r2 i j i' j' : Nat} (hj : j < r2) (hj' : j' < r2)
    (h : i * r2 + j = i' * r2 + j') : i = i' ∧ j = j' := by
  have h1 : (i * r2 + j) / r2 = i := by
    rw [Nat.mul_comm, Nat.mul_add_div (by omega), Nat.div_eq_of_lt hj]; rfl
  have h2 : (i' * r2 + j') / r2 = i' := by
    rw [Nat.mul_comm, Nat.mul_add_div (by omega), Nat.div_eq_of_lt hj']; rfl
  have : i = i' := by rw [← h1, ← h2, h]
  subst this
  exact ⟨rfl, by omega⟩

theorem vecAt_set_ne {r2 i j : Nat} (f : Field T) (x y : T) (P : Nat × Nat) (hj : j < r2)
    (hP : P.2 < r2) (h : P ≠ (i, j)) : vecAt r2 (f.set (i * r2 + j) x y) P = vecAt r2 f P := by
  have : P.1 * r2 + P.2 ≠ i * r2 + j := by
    intro e
    obtain ⟨a, b⟩ := flat_inj hP hj e
    exact h (Prod.ext a b)
  simp [vecAt, Field.set, setAt, this]

theorem vecAt_set_self {r2 i j : Nat} (f : Field T) (x y : T) :
    vecAt r2 (f.set (i * r2 + j) x y) (i, j) = (x, y) := by
  simp [vecAt, Field.set, setAt]

theorem verts_nodup (t : Tri) : t.verts.Nodup := by
  unfold Tri.verts
  split <;> simp

theorem cellInv_step (O : ROps T D) (P : Par D) (maxCount : Nat) (chk : Test T) (r1 r2 i j : Nat)
    (maxEb : D) (m f : Field T) (c : Coded T) (hi : i < r1) (hj : j < r2)
    (hI : CellInv chk r1 r2 m (i * r2 + j) f)
    (hno : ∀ k < 6, inMesh r1 r2 i j k = true → triTest chk r2 m (triOf i j k) = false)
    (hacc : Accepted O P maxCount chk r1 r2 maxEb f (i * r2 + j) c) :
    CellInv chk r1 r2 m (i * r2 + j + 1) (f.set (i * r2 + j) c.x c.y) := by
  refine ⟨fun q hq => ?_, fun t ht hpos R hR => ?_, fun t ht hneg => ?_⟩
  · have := hI.later q (by omega)
    have hne : q ≠ i * r2 + j := by omega
    simp [Field.set, setAt, hne, this]
  · have hne : R ≠ (i, j) := by
      rintro rfl
      obtain ⟨k, hk, hm, ht', -⟩ := incident_unique r1 r2 i j t hi hj ht hR
      have := hno k hk hm
      rw [ht', hpos] at this
      cases this
    rw [vecAt_set_ne f _ _ R hj (verts_lt ht hR).2 hne]
    exact hI.kept t ht hpos R hR
  · by_cases hv : (i, j) ∈ t.verts
    · right
      obtain ⟨k, hk, hm, ht', -⟩ := incident_unique r1 r2 i j t hi hj ht hv
      obtain ⟨b, hb, hb'⟩ := verified_spec chk r1 r2 i j f c.x c.y hi hj [0, 1, 2, 3, 4, 5] (by simp)
      rw [hacc.ok] at hb
      have hk' : k = 0 ∨ k = 1 ∨ k = 2 ∨ k = 3 ∨ k = 4 ∨ k = 5 := by omega
      obtain ⟨A, B, hp, hc⟩ := hb' (Option.some.inj hb).symm k
        (by rcases hk' with h | h | h | h | h | h <;> simp [h]) hm
      rw [ht'] at hp
      have hnd := hp.nodup_iff.1 (verts_nodup t)
      have hA : A ∈ t.verts := hp.mem_iff.2 (by simp)
      have hB : B ∈ t.verts := hp.mem_iff.2 (by simp)
      have hAne : A ≠ (i, j) := by rintro rfl; simp at hnd
      have hBne : B ≠ (i, j) := by rintro rfl; simp at hnd
      refine ⟨A, B, (i, j), hp, ?_⟩
      rw [vecAt_set_ne f _ _ A hj (verts_lt ht hA).2 hAne,
        vecAt_set_ne f _ _ B hj (verts_lt ht hB).2 hBne, vecAt_set_self]
      exact hc
    · have hsame : ∀ R ∈ t.verts, vecAt r2 (f.set (i * r2 + j) c.x c.y) R = vecAt r2 f R := by
        intro R hR
        exact vecAt_set_ne f _ _ R hj (verts_lt ht hR).2 (by rintro rfl; exact hv hR)
      rcases hI.none t ht hneg with h | ⟨A, B, C, hp, hc⟩
      · exact Or.inl fun R hR => (hsame R hR).trans (h R hR)
      · right
        refine ⟨A, B, C, hp, ?_⟩
        rw [hsame A (hp.mem_iff.2 (by simp)), hsame B (hp.mem_iff.2 (by simp)),
          hsame C (hp.mem_iff.2 (by simp))]
        exact hc

/-- Induction principle for properties of the final mirror. -/
theorem compress_inv (O : ROps T D) (P : Par D) (maxCount : Nat) (chk : Test T) (r1 r2 : Nat)
    (maxEb : D) (m m' : Field T) (s : Streams T)
    (h : compress O P maxCount chk r1 r2 maxEb m = some (m', s))
    (I : Nat → Field T → Prop) (h0 : I 0 m)
    (hskip : ∀ p f, p < r1 * r2 → I p f → I (p + 1) f)
    (hstep : ∀ i j f c, i < r1 → j < r2 → I (i * r2 + j) f →
      (O.isZero (f.u (i * r2 + j)) && O.isZero (f.v (i * r2 + j))) = false →
      (∀ k < 6, inMesh r1 r2 i j k = true → triTest chk r2 m (triOf i j k) = false) →
      Accepted O P maxCount chk r1 r2 maxEb f (i * r2 + j) c →
      I (i * r2 + j + 1) (f.set (i * r2 + j) c.x c.y)) : I (r1 * r2) m' := by
  unfold compress at h
  split at h
  · cases h
  · rename_i m1 ws hs
    simp only [Option.some.injEq, Prod.mk.injEq] at h
    obtain ⟨rfl, rfl⟩ := h
    have := scanEnc_inv (encVertex O P maxCount chk r1 r2 (cpExist chk r2 m) maxEb)
      (fun p s => I p s.1) (r1 * r2) 0
      (fun q s s' w _ hq hI he => by
        obtain ⟨i, j, hi, hj, rfl⟩ := flat r1 r2 q (by omega)
        obtain ⟨s2, w2, e2, hcases⟩ := encVertex_cases O P maxCount chk r1 r2 i j maxEb m s hi hj
        rw [e2] at he
        cases he
        rcases hcases with ⟨h1, -⟩ | ⟨c, hz, hno, hacc, h1, -⟩
        · show I _ s'.1
          rw [h1]; exact hskip _ _ (by omega) hI
        · show I _ s'.1
          rw [h1]; exact hstep i j s.1 c hi hj hI hz hno hacc) (m, 0) m1 ws h0 hs
    simpa using this

theorem cellInv_final (O : ROps T D) (P : Par D) (maxCount : Nat) (chk : Test T) (r1 r2 : Nat)
    (maxEb : D) (m m' : Field T) (s : Streams T)
    (h : compress O P maxCount chk r1 r2 maxEb m = some (m', s)) :
    CellInv chk r1 r2 m (r1 * r2) m' :=
  compress_inv O P maxCount chk r1 r2 maxEb m m' s h (CellInv chk r1 r2 m)
    ⟨fun _ _ => ⟨rfl, rfl⟩, fun _ _ _ _ _ => rfl, fun _ _ _ => Or.inl fun _ _ => rfl⟩
    (fun p f _ hI => ⟨fun q hq => hI.later q (by omega), hI.kept, hI.none⟩)
    (fun i j f c hi hj hI _ hno hacc =>
      cellInv_step O P maxCount chk r1 r2 i j maxEb m f c hi hj hI hno hacc)

end CpSZ.Online2D.Relax
