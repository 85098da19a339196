import Verif.Online2D.Model
/-
Lockstep of the 2D compressors whose vertices carry two bound codes (relative mode and
absolute mode), for uninterpreted arithmetic.
-/

namespace CpSZ.Online2D

variable {T D : Type}

/-- Two fields agree on the positions below `p`. -/
def Agree (p : Nat) (m d : Field T) : Prop := ∀ q, q < p → m.u q = d.u q ∧ m.v q = d.v q

theorem lorenzo_congr (O : Ops T D) (r2 p : Nat) (f g : Nat → T)
    (h : ∀ q, q < p → f q = g q) : lorenzo O r2 f p = lorenzo O r2 g p := by
  unfold lorenzo
  by_cases hi : p / r2 = 0
  · by_cases hj : p % r2 = 0
    · simp [hi, hj]
    · have hp : p ≠ 0 := by rintro rfl; simp at hj
      simp [hi, hj, h (p - 1) (by omega)]
  · have hr : 0 < r2 := by
      rcases Nat.eq_zero_or_pos r2 with rfl | h
      · simp at hi
      · exact h
    have hp : r2 ≤ p := by
      by_contra hc
      exact hi (Nat.div_eq_of_lt (by omega))
    by_cases hj : p % r2 = 0
    · simp [hi, hj, h (p - r2) (by omega)]
    · simp [hi, hj, h (p - r2) (by omega), h (p - 1) (by omega), h (p - 1 - r2) (by omega)]

theorem encComp_some (O : Ops T D) (P : Par D) (r2 : Nat) (f : Nat → T) (p : Nat)
    (a : D) (id q : Int) (x : T) (h : encComp O P r2 f p a = some (id, q, x)) :
    0 < id ∧ id = (ebQuant O.toDOps P.base P.logBase P.thr a).2 ∧
    linQuant O.toDOps (O.toD (O.subT (f p) (lorenzo O r2 f p)))
      (ebQuant O.toDOps P.base P.logBase P.thr a).1 P.capacity P.radius = some q ∧
    x = O.ofD (O.add (O.toD (lorenzo O r2 f p))
      (linOffset O.toDOps (ebQuant O.toDOps P.base P.logBase P.thr a).1 P.radius q)) ∧
    O.le (ebQuant O.toDOps P.base P.logBase P.thr a).1 (O.abs (O.toD (O.subT x (f p)))) = false := by
  unfold encComp at h
  generalize hr : ebQuant O.toDOps P.base P.logBase P.thr a = r at h ⊢
  obtain ⟨eb, id'⟩ := r
  simp only at h
  split at h
  · rename_i hid
    split at h
    · cases h
    · rename_i q' hq
      split at h
      · cases h
      · rename_i hle
        simp only [Option.some.injEq, Prod.mk.injEq] at h
        obtain ⟨rfl, rfl, rfl⟩ := h
        exact ⟨hid, rfl, hq, rfl, by simpa using hle⟩
  · cases h

/-- The bound used by the encoder for an accepted component is the one the decoder derives
from the code. -/
theorem ebQuant_pos (O : DOps D) (base : Int) (lb thr a : D)
    (h : 0 < (ebQuant O base lb thr a).2) :
    (ebQuant O base lb thr a).1 = O.mul (O.pow base (ebQuant O base lb thr a).2) thr := by
  unfold ebQuant at h ⊢
  split
  · rename_i hc; simp [hc] at h
  · rfl

theorem setAt_same (f : Nat → T) (p : Nat) (x : T) : setAt f p x p = x := by simp [setAt]
theorem setAt_ne (f : Nat → T) (p q : Nat) (x : T) (h : q ≠ p) : setAt f p x q = f q := by
  simp [setAt, h]

theorem setAt_self (f : Nat → T) (p : Nat) : setAt f p (f p) = f := by
  funext q; unfold setAt; split
  · rename_i h; rw [h]
  · rfl

/-- Case analysis of one encoder step. -/
theorem encVertex_cases (O : Ops T D) (P : Par D) (r2 : Nat) (absEb : D → T → D)
    (bound : Field T → Nat → Option D) (m m' : Field T) (p : Nat) (w : VCode T)
    (h : encVertex O P r2 absEb bound m p = some (m', w)) :
    (m' = m ∧ w = .lossless (m.u p) (m.v p)) ∨
    ∃ req e0 q0 x e1 q1 y, bound m p = some req ∧ O.lt (O.ofInt 0) req = true ∧
      encComp O P r2 m.u p (absEb req (m.u p)) = some (e0, q0, x) ∧
      encComp O P r2 m.v p (absEb req (m.v p)) = some (e1, q1, y) ∧
      m' = m.set p x y ∧ w = .coded e0 e1 q0 q1 := by
  unfold encVertex at h
  split at h
  · cases h
  · rename_i req hreq
    split at h
    · rename_i hlt
      split at h
      · rename_i e0 q0 x e1 q1 y h0 h1
        simp only [Option.some.injEq, Prod.mk.injEq] at h
        obtain ⟨rfl, rfl⟩ := h
        exact Or.inr ⟨req, e0, q0, x, e1, q1, y, hreq, hlt, h0, h1, rfl, rfl⟩
      · simp only [Option.some.injEq, Prod.mk.injEq] at h
        obtain ⟨rfl, rfl⟩ := h
        exact Or.inl ⟨rfl, rfl⟩
    · simp only [Option.some.injEq, Prod.mk.injEq] at h
      obtain ⟨rfl, rfl⟩ := h
      exact Or.inl ⟨rfl, rfl⟩

/-- Prepend the codes of a vertex to the streams. -/
def prepend (radius : Int) (w : VCode T) (s : Streams T) : Streams T :=
  ⟨w.eb ++ s.eb, w.dq radius ++ s.dq, w.un ++ s.un⟩

theorem foldr_prepend (radius : Int) (ws : List (VCode T)) (s : Streams T) :
    ws.foldr (prepend radius) s =
      ⟨ws.flatMap VCode.eb ++ s.eb, ws.flatMap (VCode.dq radius) ++ s.dq,
        ws.flatMap VCode.un ++ s.un⟩ := by
  induction ws with
  | nil => rfl
  | cons w ws ih => simp [ih, prepend]

theorem step_lockstep (O : Ops T D) (P : Par D) (r2 : Nat) (absEb : D → T → D)
    (bound : Field T → Nat → Option D) (p : Nat) (m d m' : Field T) (w : VCode T)
    (rest : Streams T) (hA : Agree p m d)
    (h : encVertex O P r2 absEb bound m p = some (m', w)) :
    ∃ d', decVertex O P r2 d p (prepend P.radius w rest) = some (d', rest) ∧
      Agree (p + 1) m' d' := by
  rcases encVertex_cases O P r2 absEb bound m m' p w h with ⟨rfl, rfl⟩ | hc
  · refine ⟨d.set p (m'.u p) (m'.v p), rfl, ?_⟩
    intro q hq
    by_cases hqp : q = p
    · subst hqp; simp [Field.set, setAt]
    · have := hA q (by omega)
      simp [Field.set, setAt, hqp, this.1, this.2]
  · obtain ⟨req, e0, q0, x, e1, q1, y, -, -, h0, h1, rfl, rfl⟩ := hc
    obtain ⟨i0, j0, -, x0, -⟩ := encComp_some O P r2 _ p _ _ _ _ h0
    obtain ⟨i1, j1, -, x1, -⟩ := encComp_some O P r2 _ p _ _ _ _ h1
    rw [j0] at i0
    rw [j1] at i1
    rw [ebQuant_pos _ _ _ _ _ i0, ← j0,
      lorenzo_congr O r2 p m.u d.u (fun q hq => (hA q hq).1)] at x0
    rw [ebQuant_pos _ _ _ _ _ i1, ← j1,
      lorenzo_congr O r2 p m.v d.v (fun q hq => (hA q hq).2)] at x1
    refine ⟨d.set p x y, ?_, ?_⟩
    · have : e0 ≠ 0 := by omega
      simp only [prepend, VCode.eb, VCode.dq, VCode.un, List.cons_append, List.nil_append,
        decVertex, this, if_false, ← x0, ← x1]
    · intro q hq
      by_cases hqp : q = p
      · subst hqp; simp [Field.set, setAt]
      · have := hA q (by omega)
        simp [Field.set, setAt, hqp, this.1, this.2]

theorem lockstep (O : Ops T D) (P : Par D) (r1 r2 : Nat) (absEb : D → T → D)
    (bound : Field T → Nat → Option D) (m m0 m' : Field T) (s : Streams T)
    (h : compress O P r1 r2 absEb bound m = some (m', s)) :
    ∃ d, decompress O P r1 r2 m0 s = some d ∧
      ∀ q, q < r1 * r2 → d.u q = m'.u q ∧ d.v q = m'.v q := by
  unfold compress at h
  split at h
  · cases h
  · rename_i m1 ws hs
    simp only [Option.some.injEq, Prod.mk.injEq] at h
    obtain ⟨rfl, rfl⟩ := h
    obtain ⟨d, hd, hA⟩ := scan_lockstep (encVertex O P r2 absEb bound) (decVertex O P r2)
      (prepend P.radius) Agree (fun p s d s' w rest => step_lockstep O P r2 absEb bound p s d s' w rest)
      (r1 * r2) 0 m m0 m1 ws ⟨[], [], []⟩ (fun q hq => by omega) hs
    refine ⟨d, ?_, fun q hq => ?_⟩
    · rw [foldr_prepend] at hd
      simp only [List.append_nil] at hd
      simp [decompress, hd]
    · have := hA q (by omega)
      exact ⟨this.1.symm, this.2.symm⟩

/-- Along the scan, positions not yet visited hold the original values, and each visited
vertex is either untouched or was replaced by values accepted by the quantiser. -/
def Step (O : Ops T D) (P : Par D) (r2 : Nat) (absEb : D → T → D)
    (bound : Field T → Nat → Option D) (m : Field T) (p : Nat) (x y : T) : Prop :=
  ∃ req e0 q0 e1 q1, bound m p = some req ∧ O.lt (O.ofInt 0) req = true ∧
    encComp O P r2 m.u p (absEb req (m.u p)) = some (e0, q0, x) ∧
    encComp O P r2 m.v p (absEb req (m.v p)) = some (e1, q1, y)

/-- Induction principle for properties of the final mirror: `I p m` must be preserved when
a vertex is left alone and when it is replaced by accepted values. -/
theorem compress_inv (O : Ops T D) (P : Par D) (r1 r2 : Nat) (absEb : D → T → D)
    (bound : Field T → Nat → Option D) (m m' : Field T) (s : Streams T)
    (h : compress O P r1 r2 absEb bound m = some (m', s))
    (I : Nat → Field T → Prop) (h0 : I 0 m)
    (hskip : ∀ p f, p < r1 * r2 → I p f → I (p + 1) f)
    (hstep : ∀ p f x y, p < r1 * r2 → I p f → Step O P r2 absEb bound f p x y →
      I (p + 1) (f.set p x y)) : I (r1 * r2) m' := by
  unfold compress at h
  split at h
  · cases h
  · rename_i m1 ws hs
    simp only [Option.some.injEq, Prod.mk.injEq] at h
    obtain ⟨rfl, rfl⟩ := h
    have := scanEnc_inv (encVertex O P r2 absEb bound) I (r1 * r2) 0
      (fun q f f' w _ hq hI he => by
        rcases encVertex_cases O P r2 absEb bound f f' q w he with ⟨rfl, rfl⟩ | hc
        · exact hskip q f' (by omega) hI
        · obtain ⟨req, e0, q0, x, e1, q1, y, a1, a2, a3, a4, rfl, rfl⟩ := hc
          exact hstep q f x y (by omega) hI ⟨req, e0, q0, e1, q1, a1, a2, a3, a4⟩)
      m m1 ws h0 hs
    simpa using this

end CpSZ.Online2D
