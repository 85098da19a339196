import Verif.Sz3.Plan
/-
The decompressor of the interpolation based mode reproduces the working copy of the
compressor, for any arithmetic.
-/

namespace CpSZ.Sz3
open Mesh2D

variable {T D : Type}

/-- What is needed of the arithmetic: the zero bound converts to zero, and `(int)` of the
quotient of an absolute value by a bound is nonnegative, or far below zero if it overflows
(`INT_MIN` on the usual platforms). -/
structure Sane (S : SOps T D) (base : Int) (thr : D) (radius : Int) : Prop where
  zero : isZero S.t (S.conv (S.d.ofInt 0)) = true
  trunc : ∀ (x : T) (id : Int), ∀ t,
    t = S.t.trunc (S.t.div (S.t.abs x) (S.conv (S.d.mul (S.d.pow base id) thr))) →
    0 ≤ t ∨ t + 1 < -(2 * radius)

/-- A bound used by the quantiser: zero or the value of a code. -/
def IsEb (S : SOps T D) (base : Int) (thr : D) (eb : T) : Prop :=
  isZero S.t eb = true ∨ ∃ id, eb = S.conv (S.d.mul (S.d.pow base id) thr)

theorem isEb_ebQuant {S : SOps T D} {base : Int} {thr : D} {radius : Int}
    (hS : Sane S base thr radius) (logBase req : D) :
    IsEb S base thr (S.conv (ebQuant S.d base logBase thr req).1) := by
  unfold ebQuant
  split
  · exact Or.inl hS.zero
  · exact Or.inr ⟨_, rfl⟩

/-- Either a code that reproduces the value, or the value is stored. -/
theorem quantT_cases {S : SOps T D} {base : Int} {thr : D} {radius : Int}
    (hS : Sane S base thr radius) (cur pred eb : T) (hE : IsEb S base thr eb) :
    let r := quantT S.t radius cur pred eb
    (r = (0, cur, [cur])) ∨
      (isZero S.t eb = false ∧ r.1 ≠ 0 ∧ r.2.2 = [] ∧
        r.2.1 = S.t.add pred (S.t.mul (S.t.ofInt (2 * (r.1 - radius))) eb)) := by
  intro r
  by_cases hz : isZero S.t eb = true
  · left; simp only [r, quantT, hz, if_true]
  obtain ⟨id, rfl⟩ := hE.resolve_left hz
  rw [Bool.not_eq_true] at hz
  have ht := hS.trunc (S.t.sub cur pred) id _ rfl
  simp only [r, quantT, hz, Bool.false_eq_true, if_false]
  generalize S.t.trunc (S.t.div (S.t.abs (S.t.sub cur pred)) _) = t at *
  split
  · rename_i hlt
    cases S.t.lt (S.t.sub cur pred) (S.t.ofInt 0) <;>
      simp only [Bool.false_eq_true, if_false, if_true] <;> split
    · exact Or.inl rfl
    · exact Or.inr ⟨trivial, by simp only; omega, rfl, by simp only; congr 3; omega⟩
    · exact Or.inl rfl
    · exact Or.inr ⟨trivial, by simp only; omega, rfl, by simp only; congr 3; omega⟩
  · exact Or.inl rfl

theorem recoverT_quantT {S : SOps T D} {base : Int} {thr : D} {radius : Int}
    (hS : Sane S base thr radius) (cur pred eb eb' : T) (hE : IsEb S base thr eb)
    (he : isZero S.t eb = false → eb' = eb) (un : List T) :
    recoverT S.t radius pred (quantT S.t radius cur pred eb).1 eb'
      ((quantT S.t radius cur pred eb).2.2 ++ un) =
    some ((quantT S.t radius cur pred eb).2.1, un) := by
  rcases quantT_cases hS cur pred eb hE with h | ⟨h1, h2, h3, h4⟩
  · rw [h]; rfl
  · rw [h3, h4, he h1]
    unfold recoverT
    rw [if_pos h2]
    rfl

theorem readAll_congr {n : Nat} {f g : Nat → T} {ps : List Int}
    (h : ∀ p ∈ ps, ∃ q : Nat, p = q ∧ f q = g q) : readAll n f ps = readAll n g ps := by
  induction ps with
  | nil => rfl
  | cons p ps ih =>
    have e : rd n f p = rd n g p := by
      obtain ⟨q, rfl, hq⟩ := h p (by simp)
      unfold rd
      split
      · simp [hq]
      · rfl
    simp only [readAll, e, ih fun p' hp' => h p' (by simp [hp'])]

theorem predict_congr {N : DOps T} {n : Nat} {f g : Nat → T} {e : DEv}
    (h : ∀ p ∈ e.reads, ∃ q : Nat, p = q ∧ f q = g q) : predict N n f e = predict N n g e := by
  unfold predict
  rw [readAll_congr h]

/-- Agreement of two fields on a set of positions. -/
def Agree (done : Nat → Prop) (f d : Fld T) : Prop := ∀ q, done q → f.u q = d.u q ∧ f.v q = d.v q

theorem Agree.set {done : Nat → Prop} {f d : Fld T} (h : Agree done f d) (p : Nat) (x y : T) :
    Agree (fun q => done q ∨ q = p) (f.set p x y) (d.set p x y) := by
  intro q hq
  by_cases e : q = p
  · simp [Online2D.Field.set, Online2D.setAt, e]
  · have := h q (hq.resolve_right e)
    simp [Online2D.Field.set, Online2D.setAt, e, this]

theorem lockstep_all {S : SOps T D} {P : Par D} (hS : Sane S P.base P.thr P.radius) (n : Nat)
    (bound : Fld T → Ev → D → Option D) :
    ∀ (es : List Ev) (done : Nat → Prop) (f f' d : Fld T) (cs : List (Code T)),
      Causal done es → Agree done f d → encAll S P n bound es f = some (f', cs) →
      ∃ d', decAll S P.base P.thr P.radius n (es.map Ev.toD) d (streams cs) = some d' ∧
        Agree (fun q => done q ∨ q ∈ es.map Ev.pos) f' d' := by
  intro es
  induction es with
  | nil =>
    intro done f f' d cs _ hA h
    simp only [encAll, Option.some.injEq, Prod.mk.injEq] at h
    obtain ⟨rfl, rfl⟩ := h
    exact ⟨d, rfl, fun q hq => hA q (by simpa using hq)⟩
  | cons e es ih =>
    intro done f f' d cs hC hA h
    unfold encAll at h
    split at h
    · cases h
    rename_i f1 c h1
    split at h
    · cases h
    rename_i f2 cs' h2
    simp only [Option.some.injEq, Prod.mk.injEq] at h
    obtain ⟨rfl, rfl⟩ := h
    unfold encEv at h1
    split at h1
    · cases h1
    rename_i req hreq
    simp only at h1
    split at h1
    · rename_i pu pv hpu hpv
      simp only [Option.some.injEq, Prod.mk.injEq] at h1
      obtain ⟨rfl, rfl⟩ := h1
      have hu : predict S.t n d.u e.toD = some pu := by
        rw [← hpu]
        exact (predict_congr fun p hp => by
          obtain ⟨q, rfl, hq⟩ := hC.1 p hp
          exact ⟨q, rfl, (hA q hq).1⟩).symm
      have hv : predict S.t n d.v e.toD = some pv := by
        rw [← hpv]
        exact (predict_congr fun p hp => by
          obtain ⟨q, rfl, hq⟩ := hC.1 p hp
          exact ⟨q, rfl, (hA q hq).2⟩).symm
      have heb : isZero S.t (S.conv (ebQuant S.d P.base P.logBase P.thr req).1) = false →
          S.conv (S.d.mul (S.d.pow P.base (ebQuant S.d P.base P.logBase P.thr req).2) P.thr) =
          S.conv (ebQuant S.d P.base P.logBase P.thr req).1 := by
        intro hz
        unfold ebQuant at hz ⊢
        split
        · rename_i hle
          rw [if_pos hle, hS.zero] at hz
          cases hz
        · rfl
      obtain ⟨d', hd', hA'⟩ := ih _ _ _ _ _ hC.2 (hA.set e.pos _ _) h2
      refine ⟨d', ?_, fun q hq => hA' q ?_⟩
      · simp only [List.map_cons, decAll, decEv, streams, List.flatMap_cons, List.cons_append,
          List.nil_append, hu, hv, List.append_assoc]
        rw [recoverT_quantT hS _ _ _ _ (isEb_ebQuant hS _ _) heb]
        simp only
        rw [recoverT_quantT hS _ _ _ _ (isEb_ebQuant hS _ _) heb]
        exact hd'
      · rw [List.map_cons, List.mem_cons] at hq
        tauto
    · cases h1

/-- The decompressor returns the working copy of the compressor. -/
theorem lockstep {S : SOps T D} {P : Par D} (hS : Sane S P.base P.thr P.radius) {r1 r2 : Nat} (h1 : 0 < r1)
    (h2 : 0 < r2) {bound : Fld T → Ev → D → Option D} {m m' : Fld T} {s : Streams T}
    (h : compress S P r1 r2 bound m = some (m', s)) (m0 : Fld T) :
    ∃ d, decompress S P.base P.thr P.radius r1 r2 m0 s = some d ∧
      ∀ q, q < r1 * r2 → d.u q = m'.u q ∧ d.v q = m'.v q := by
  unfold compress at h
  split at h
  · cases h
  rename_i f cs he
  simp only [Option.some.injEq, Prod.mk.injEq] at h
  obtain ⟨rfl, rfl⟩ := h
  obtain ⟨d, hd, hA⟩ := lockstep_all hS (r1 * r2) bound _ _ m f m0 cs (plan_causal h1 h2)
    (fun q hq => hq.elim) he
  refine ⟨d, ?_, fun q hq => ?_⟩
  · unfold decompress
    rw [planDec_eq]
    exact hd
  · have := hA q (Or.inr ((plan_perm h1 h2).mem_iff.2 (List.mem_range.2 hq)))
    exact ⟨this.1.symm, this.2.symm⟩

theorem encAll_length {S : SOps T D} {P : Par D} {n : Nat} {bound : Fld T → Ev → D → Option D}
    {es : List Ev} {f f' : Fld T} {cs : List (Code T)}
    (h : encAll S P n bound es f = some (f', cs)) : cs.length = es.length := by
  induction es generalizing f f' cs with
  | nil =>
    simp only [encAll, Option.some.injEq, Prod.mk.injEq] at h
    rw [← h.2]; rfl
  | cons e es ih =>
    unfold encAll at h
    split at h
    · cases h
    split at h
    · cases h
    rename_i f2 cs' h2
    simp only [Option.some.injEq, Prod.mk.injEq] at h
    rw [← h.2, List.length_cons, List.length_cons, ih h2]

theorem quantT_un_length (N : DOps T) (radius : Int) (cur pred eb : T) :
    (quantT N radius cur pred eb).2.2.length ≤ 1 := by
  unfold quantT
  split
  · simp
  · simp only
    generalize N.lt eb _ = b
    split
    · cases b <;> simp
    · simp

theorem encAll_un_length {S : SOps T D} {P : Par D} {n : Nat}
    {bound : Fld T → Ev → D → Option D} {es : List Ev} {f f' : Fld T} {cs : List (Code T)}
    (h : encAll S P n bound es f = some (f', cs)) :
    (cs.flatMap Code.un).length ≤ 2 * es.length := by
  induction es generalizing f f' cs with
  | nil =>
    simp only [encAll, Option.some.injEq, Prod.mk.injEq] at h
    rw [← h.2]; simp
  | cons e es ih =>
    unfold encAll at h
    split at h
    · cases h
    rename_i f1 c h1
    split at h
    · cases h
    rename_i f2 cs' h2
    simp only [Option.some.injEq, Prod.mk.injEq] at h
    rw [← h.2, List.flatMap_cons, List.length_append, List.length_cons]
    have := ih h2
    have hc : c.un.length ≤ 2 := by
      unfold encEv at h1
      split at h1
      · cases h1
      simp only at h1
      split at h1
      · simp only [Option.some.injEq, Prod.mk.injEq] at h1
        rw [← h1.2]
        simp only [List.length_append]
        have a := quantT_un_length S.t P.radius
        exact Nat.add_le_add (a _ _ _) (a _ _ _)
      · cases h1
    omega

theorem plan_length {r1 r2 : Nat} (h1 : 0 < r1) (h2 : 0 < r2) :
    (planEnc r1 r2).length = r1 * r2 := by
  have := (plan_perm h1 h2).length_eq
  rwa [List.length_map, List.length_range] at this

theorem compress_lengths {S : SOps T D} {P : Par D} {r1 r2 : Nat} (h1 : 0 < r1) (h2 : 0 < r2)
    {bound : Fld T → Ev → D → Option D} {m m' : Fld T} {s : Streams T}
    (h : compress S P r1 r2 bound m = some (m', s)) :
    s.eb.length = r1 * r2 ∧ s.dq.length = 2 * (r1 * r2) ∧ s.un.length ≤ 2 * (r1 * r2) := by
  unfold compress at h
  split at h
  · cases h
  rename_i f cs he
  simp only [Option.some.injEq, Prod.mk.injEq] at h
  obtain ⟨-, rfl⟩ := h
  have hl := encAll_length he
  have hu := encAll_un_length he
  rw [plan_length h1 h2] at hl hu
  refine ⟨by simp [streams, hl], ?_, hu⟩
  simp [streams, List.length_flatMap, hl, Nat.mul_comm]

theorem serialize_parse (c : Codec T) (cD : Codec D) (E1 E2 : Env) (P : Par D)
    (s : Streams T) (n : Nat) (h1 : s.eb.length = n) (h2 : s.dq.length = 2 * n)
    (hn : 1 + c.size + 4 < n * c.size)
    (hun : s.un.length < 2 ^ 64)
    (hb : 0 ≤ P.base ∧ P.base < 2 ^ 31) (hr : 0 ≤ P.capacity ∧ P.capacity < 2 ^ 31)
    (f1 : Fits E1 (2 * 1024) s.eb) (f2 : Fits E2 (2 * P.capacity.toNat) s.dq) :
    ∃ bs, serialize c cD E1 E2 P s = some bs ∧
      ∀ rest, parse c cD n (bs ++ rest) = some ⟨P.base, P.thr, P.radius, s⟩ := by
  obtain ⟨b1, e1, d1⟩ := ints_roundtrip E1 _ _ f1
  obtain ⟨b2, e2, d2⟩ := ints_roundtrip E2 _ _ f2
  rw [h1] at d1
  rw [h2] at d2
  have hrad : 0 ≤ P.radius ∧ P.radius < 2 ^ 31 := by unfold Par.radius; omega
  refine ⟨leBytes 4 P.base.toNat ++ (cD.enc P.thr ++ (leBytes 4 P.capacity.toNat ++
      (leBytes 1 2 ++ (leBytes 4 P.radius.toNat ++
        (leBytes 8 s.un.length ++ (writeArray c s.un ++ (b1 ++ b2))))))),
    by simp only [serialize, e1, e2], fun rest => ?_⟩
  unfold parse
  simp only [List.append_assoc]
  rw [readLE_leBytes (by omega)]
  simp only [readVar_enc]
  rw [readLE_leBytes (by omega)]
  simp only
  rw [if_neg (by omega)]
  rw [readLE_leBytes (by omega)]
  simp only
  rw [readLE_leBytes (by omega)]
  simp only
  rw [readLE_leBytes (by omega)]
  simp only [readArray_writeArray, d1, d2, Int.toNat_of_nonneg hb.1, Int.toNat_of_nonneg hrad.1]

end CpSZ.Sz3
