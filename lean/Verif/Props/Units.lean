import Verif.Props.Axes
import Verif.Props.Online2D
import Verif.Props.FloatCP
/-
C78: units do not matter, except that the online modes compare bounds with a fixed threshold.
-/

namespace CpSZ

/-- Specification: the rounding commutes with multiplication by `c`.  Every rounding does for
`c = 1` and exact arithmetic for every `c`; `float` and `double` do for powers of two as long as
nothing overflows or underflows. -/
def Scales (c : ℝ) (r : ℝ → ℝ) : Prop := ∀ x, r (c * x) = c * r x

theorem scales_id (c : ℝ) : Scales c id := fun _ => rfl

theorem Scales.mul {c d : ℝ} {r : ℝ → ℝ} (h : Scales c r) (h' : Scales d r) : Scales (c * d) r :=
  fun x => by rw [mul_assoc, h, h', mul_assoc]

/-- Rounding to `p` significant bits commutes with powers of two. -/
theorem scales_fl {rnd : ℝ → ℤ} (hr : IsIntRounding rnd) (p : ℕ) (k : ℤ) : Scales ((2 : ℝ) ^ k) (fl rnd p) := by
  have hk : (0 : ℝ) < (2 : ℝ) ^ k := zpow_pos (by norm_num) _
  have h2 : (2 : ℝ) ≠ 0 := by norm_num
  have hlog : ∀ y : ℝ, 0 < y → Int.log 2 ((2 : ℝ) ^ k * y) = k + Int.log 2 y := by
    intro y hy
    have hp : 0 < (2 : ℝ) ^ k * y := mul_pos hk hy
    apply le_antisymm
    · have h := Int.lt_zpow_succ_log_self (by norm_num : 1 < 2) y
      have : (2 : ℝ) ^ k * y < (2 : ℝ) ^ (k + (Int.log 2 y + 1)) := by
        rw [zpow_add₀ h2]
        exact mul_lt_mul_of_pos_left (by exact_mod_cast h) hk
      have := (Int.lt_zpow_iff_log_lt (b := 2) (by norm_num) hp).1 (by exact_mod_cast this)
      omega
    · have h := Int.zpow_log_le_self (by norm_num : 1 < 2) hy
      have : (2 : ℝ) ^ (k + Int.log 2 y) ≤ (2 : ℝ) ^ k * y := by
        rw [zpow_add₀ h2]
        exact mul_le_mul_of_nonneg_left (by exact_mod_cast h) hk.le
      exact (Int.zpow_le_iff_le_log (b := 2) (by norm_num) hp).1 (by exact_mod_cast this)
  have key : ∀ y, 0 < y → flPos rnd p ((2 : ℝ) ^ k * y) = (2 : ℝ) ^ k * flPos rnd p y := by
    intro y hy
    unfold flPos ulpExp
    rw [hlog y hy, add_sub_assoc, zpow_add₀ h2, mul_div_mul_left _ _ hk.ne', mul_left_comm]
  intro x
  unfold fl
  rcases lt_trichotomy x 0 with h | h | h
  · rw [if_neg (not_le.2 (mul_neg_of_pos_of_neg hk h)), if_neg (not_le.2 h), ← mul_neg,
      key _ (by linarith), mul_neg]
  · subst h
    rw [mul_zero, if_pos le_rfl]
    have h0 : flPos rnd p 0 = 0 := by
      have := hr.int 0
      simp only [Int.cast_zero] at this
      simp [flPos, this]
    rw [h0, mul_zero]
  · rw [if_pos (mul_pos hk h).le, if_pos h.le, key _ h]

theorem linQuant_scale {rT rD lg : ℝ → ℝ} (hD : IsRounding rD) {c : ℝ} (hc : 0 < c)
    (d e : ℝ) (cap R : Int) :
    linQuant (roundedOps rT rD lg).toDOps (c * d) (c * e) cap R =
      linQuant (roundedOps rT rD lg).toDOps d e cap R := by
  have d0 : rD ((0 : ℤ) : ℝ) = 0 := by simpa using hD.int 0 (by norm_num)
  unfold linQuant
  simp only [roundedOps, d0, abs_mul, abs_of_pos hc, mul_div_mul_left _ _ hc.ne',
    mul_pos_iff_of_pos_left hc]

theorem linOffset_scale {rT rD lg : ℝ → ℝ} {c : ℝ} (hD : Scales c rD) (e : ℝ) (R q : Int) :
    linOffset (roundedOps rT rD lg).toDOps (c * e) R q =
      c * linOffset (roundedOps rT rD lg).toDOps e R q := by
  simp only [linOffset, roundedOps]
  rw [mul_left_comm, hD]

namespace Online2D

/-- Specification: the field in another unit. -/
noncomputable def Field.scale (c : ℝ) (m : Field ℝ) : Field ℝ :=
  ⟨fun p => c * m.u p, fun p => c * m.v p⟩

/-- Specification: the same codes, stored values in the other unit. -/
noncomputable def Streams.scale (c : ℝ) (s : Streams ℝ) : Streams ℝ :=
  ⟨s.eb, s.dq, s.un.map (c * ·)⟩

/-- Specification: the mode with its threshold expressed in the other unit. -/
noncomputable def Par.scale (c : ℝ) (P : Par ℝ) : Par ℝ := { P with thr := c * P.thr }

theorem lorenzo_scale {rT rD lg : ℝ → ℝ} {c : ℝ} (hT : Scales c rT) (r2 : Nat)
    (f : Nat → ℝ) (p : Nat) :
    lorenzo (roundedOps rT rD lg) r2 (fun q => c * f q) p =
      c * lorenzo (roundedOps rT rD lg) r2 f p := by
  have hif : ∀ (q : Prop) [Decidable q] (x : ℝ), (if q then c * x else (0 : ℝ)) =
      c * (if q then x else 0) := by
    intro q _ x; split <;> simp
  unfold lorenzo
  simp only [roundedOps, hif]
  rw [← mul_add, hT, ← mul_sub, hT]

theorem ebQuant_scale {rT rD lg : ℝ → ℝ} (hD : IsRounding rD) {c : ℝ} (hc : 0 < c)
    (hDc : Scales c rD) (base : Int) (lb thr a : ℝ) :
    ebQuant (roundedOps rT rD lg).toDOps base lb (c * thr) (c * a) =
      (c * (ebQuant (roundedOps rT rD lg).toDOps base lb thr a).1,
        (ebQuant (roundedOps rT rD lg).toDOps base lb thr a).2) := by
  have d0 : rD ((0 : ℤ) : ℝ) = 0 := by simpa using hD.int 0 (by norm_num)
  unfold ebQuant
  simp only [roundedOps, mul_div_mul_left _ _ hc.ne', mul_le_mul_iff_right₀ hc]
  by_cases h : a ≤ thr
  · simp only [h, decide_true, if_true, d0, mul_zero]
  · simp only [h, decide_false, Bool.false_eq_true, if_false, Prod.mk.injEq, and_true]
    rw [mul_left_comm, hDc]

/-- One component: if bound and quantised bound scale, so does the result. -/
theorem encComp_scale {rT rD lg : ℝ → ℝ} (hD : IsRounding rD) {c : ℝ} (hc : 0 < c)
    (hTc : Scales c rT) (hDc : Scales c rD) (P P' : Par ℝ) (hcap : P'.capacity = P.capacity)
    (hrad : P'.radius = P.radius) (r2 : Nat) (f : Nat → ℝ) (p : Nat) (a a' : ℝ) (sh : Int → Int)
    (h1 : (ebQuant (roundedOps rT rD lg).toDOps P'.base P'.logBase P'.thr a').1 =
      c * (ebQuant (roundedOps rT rD lg).toDOps P.base P.logBase P.thr a).1)
    (h2 : (ebQuant (roundedOps rT rD lg).toDOps P'.base P'.logBase P'.thr a').2 =
      sh (ebQuant (roundedOps rT rD lg).toDOps P.base P.logBase P.thr a).2)
    (h3 : 0 < sh (ebQuant (roundedOps rT rD lg).toDOps P.base P.logBase P.thr a).2 ↔
      0 < (ebQuant (roundedOps rT rD lg).toDOps P.base P.logBase P.thr a).2) :
    encComp (roundedOps rT rD lg) P' r2 (fun q => c * f q) p a' =
      (encComp (roundedOps rT rD lg) P r2 f p a).map (fun w => (sh w.1, w.2.1, c * w.2.2)) := by
  unfold encComp
  rw [lorenzo_scale hTc, hcap, hrad]
  generalize ebQuant (roundedOps rT rD lg).toDOps P.base P.logBase P.thr a = E at *
  generalize ebQuant (roundedOps rT rD lg).toDOps P'.base P'.logBase P'.thr a' = E' at *
  obtain ⟨eb, id⟩ := E
  obtain ⟨eb', id'⟩ := E'
  simp only at h1 h2 h3
  subst h1 h2
  simp only [h3]
  split
  · have hdiff : (roundedOps rT rD lg).toD ((roundedOps rT rD lg).subT (c * f p)
        (c * lorenzo (roundedOps rT rD lg) r2 f p)) = c * (roundedOps rT rD lg).toD
        ((roundedOps rT rD lg).subT (f p) (lorenzo (roundedOps rT rD lg) r2 f p)) := by
      show rT (_ - _) = c * rT (_ - _)
      rw [← mul_sub, hTc]
    rw [hdiff, linQuant_scale hD hc]
    generalize linQuant (roundedOps rT rD lg).toDOps ((roundedOps rT rD lg).toD
        ((roundedOps rT rD lg).subT (f p) (lorenzo (roundedOps rT rD lg) r2 f p))) eb P.capacity
        P.radius = o
    cases o with
    | none => rfl
    | some q =>
      dsimp only
      rw [linOffset_scale hDc]
      generalize linOffset (roundedOps rT rD lg).toDOps eb P.radius q = off
      have hdec : (roundedOps rT rD lg).ofD ((roundedOps rT rD lg).add ((roundedOps rT rD lg).toD
          (c * lorenzo (roundedOps rT rD lg) r2 f p)) (c * off)) =
          c * (roundedOps rT rD lg).ofD ((roundedOps rT rD lg).add ((roundedOps rT rD lg).toD
          (lorenzo (roundedOps rT rD lg) r2 f p)) off) := by
        show rT (rD (_ + _)) = c * rT (rD (_ + _))
        rw [← hTc, ← hDc, mul_add]
        rfl
      rw [hdec]
      generalize (roundedOps rT rD lg).ofD ((roundedOps rT rD lg).add ((roundedOps rT rD lg).toD
          (lorenzo (roundedOps rT rD lg) r2 f p)) off) = x
      have habs : (roundedOps rT rD lg).le (c * eb) ((roundedOps rT rD lg).abs
          ((roundedOps rT rD lg).toD ((roundedOps rT rD lg).subT (c * x) (c * f p)))) =
          (roundedOps rT rD lg).le eb ((roundedOps rT rD lg).abs ((roundedOps rT rD lg).toD
          ((roundedOps rT rD lg).subT x (f p)))) := by
        show decide (c * eb ≤ |rT (_ - _)|) = decide (eb ≤ |rT (_ - _)|)
        rw [← mul_sub, hTc, abs_mul, abs_of_pos hc]
        simp only [mul_le_mul_iff_right₀ hc]
      rw [habs]
      split <;> rfl
  · rfl

/-- What one vertex contributes in the other unit. -/
noncomputable def VCode.scale (c : ℝ) (sh : Int → Int) : VCode ℝ → VCode ℝ
  | .lossless u v => .lossless (c * u) (c * v)
  | .coded e0 e1 q0 q1 => .coded (sh e0) (sh e1) q0 q1

theorem scale_set (c : ℝ) (m : Field ℝ) (p : Nat) (x y : ℝ) :
    (m.scale c).set p (c * x) (c * y) = (m.set p x y).scale c := by
  unfold Field.set Field.scale setAt
  congr 1 <;> funext q <;> simp only <;> split <;> rfl

theorem encVertex_scale {rT rD lg : ℝ → ℝ} (hD : IsRounding rD) {c e : ℝ} (hc : 0 < c)
    (he : 0 < e) (hTc : Scales c rT) (hDc : Scales c rD) (P : Par ℝ) (r2 : Nat)
    (absEb : ℝ → ℝ → ℝ) (bound bound' : Field ℝ → Nat → Option ℝ)
    (ha : ∀ req x, absEb (e * req) (c * x) = c * absEb req x)
    (hb : ∀ m p, bound' (m.scale c) p = (bound m p).map (e * ·)) (m : Field ℝ) (p : Nat) :
    encVertex (roundedOps rT rD lg) (P.scale c) r2 absEb bound' (m.scale c) p =
      (encVertex (roundedOps rT rD lg) P r2 absEb bound m p).map
        (fun w => (w.1.scale c, w.2.scale c id)) := by
  have d0 : rD ((0 : ℤ) : ℝ) = 0 := by simpa using hD.int 0 (by norm_num)
  unfold encVertex
  rw [hb]
  cases bound m p with
  | none => rfl
  | some req =>
    simp only [Option.map_some]
    have hlt : (roundedOps rT rD lg).lt ((roundedOps rT rD lg).ofInt 0) (e * req) =
        (roundedOps rT rD lg).lt ((roundedOps rT rD lg).ofInt 0) req := by
      show decide (rD ((0 : ℤ) : ℝ) < e * req) = decide (rD ((0 : ℤ) : ℝ) < req)
      rw [d0]
      simp only [mul_pos_iff_of_pos_left he]
    rw [hlt]
    split
    · rw [show (m.scale c).u = fun q => c * m.u q from rfl,
        show (m.scale c).v = fun q => c * m.v q from rfl]
      dsimp only
      rw [ha, ha]
      have hE : ∀ a, ebQuant (roundedOps rT rD lg).toDOps (P.scale c).base (P.scale c).logBase
          (P.scale c).thr (c * a) = (c * (ebQuant (roundedOps rT rD lg).toDOps P.base P.logBase P.thr
          a).1, (ebQuant (roundedOps rT rD lg).toDOps P.base P.logBase P.thr a).2) :=
        fun a => ebQuant_scale hD hc hDc _ _ _ _
      rw [encComp_scale hD hc hTc hDc P (P.scale c) rfl rfl r2 m.u p (absEb req (m.u p)) _ id
          (by rw [hE]) (by rw [hE]; rfl) Iff.rfl,
        encComp_scale hD hc hTc hDc P (P.scale c) rfl rfl r2 m.v p (absEb req (m.v p)) _ id
          (by rw [hE]) (by rw [hE]; rfl) Iff.rfl]
      cases encComp (roundedOps rT rD lg) P r2 m.u p (absEb req (m.u p)) with
      | none => rfl
      | some w =>
        cases encComp (roundedOps rT rD lg) P r2 m.v p (absEb req (m.v p)) with
        | none => rfl
        | some w' =>
          simp only [Option.map_some, scale_set]
          rfl
    · rfl

/-- **C78** The 2D online modes, for any arithmetic that commutes with the change of unit: if the
bounds follow the unit (`e` is one for relative and `c` for absolute bounds) and the threshold of
the mode is expressed in the new unit too, the codes are the same and the values are the same in
the new unit. -/
theorem C78_compress_partial {rT rD lg : ℝ → ℝ} (hD : IsRounding rD) {c e : ℝ} (hc : 0 < c)
    (he : 0 < e) (hTc : Scales c rT) (hDc : Scales c rD) (P : Par ℝ) (r1 r2 : Nat)
    (absEb : ℝ → ℝ → ℝ) (bound bound' : Field ℝ → Nat → Option ℝ)
    (ha : ∀ req x, absEb (e * req) (c * x) = c * absEb req x)
    (hb : ∀ m p, bound' (m.scale c) p = (bound m p).map (e * ·)) (m : Field ℝ) :
    compress (roundedOps rT rD lg) (P.scale c) r1 r2 absEb bound' (m.scale c) =
      (compress (roundedOps rT rD lg) P r1 r2 absEb bound m).map
        (fun w => (w.1.scale c, w.2.scale c)) := by
  unfold compress
  rw [scanEnc_map _ _ (Field.scale c) (VCode.scale c id)
    (encVertex_scale hD hc he hTc hDc P r2 absEb bound bound' ha hb)]
  cases scanEnc (encVertex (roundedOps rT rD lg) P r2 absEb bound) (r1 * r2) 0 m with
  | none => rfl
  | some w =>
    simp only [Option.map_some, Option.some.injEq, Prod.mk.injEq, true_and]
    unfold Streams.scale
    congr 1
    · rw [List.flatMap_map]
      congr 1
      funext a
      cases a <;> rfl
    · rw [List.flatMap_map]
      congr 1
      funext a
      cases a <;> rfl
    · rw [List.flatMap_map, List.map_flatMap]
      congr 1
      funext a
      cases a <;> rfl

/-! ### The bounds in another unit -/

theorem minfX_scale {e : ℝ} (he : 0 < e) (a b : Option ℝ) :
    minfX (a.map (e * ·)) (b.map (e * ·)) = (minfX a b).map (e * ·) := by
  rcases a with _ | a <;> rcases b with _ | b <;> try rfl
  simp only [Option.map_some, minfX, mul_lt_mul_iff_right₀ he]
  split <;> rfl

theorem requiredLoop_scale {c e : ℝ} (he : 0 < e) (r1 r2 : Nat)
    (derive : Nat → ℝ → ℝ → ℝ → ℝ → ℝ → ℝ → Option ℝ)
    (hd : ∀ k u0 u1 u2 v0 v1 v2, derive k (c * u0) (c * u1) (c * u2) (c * v0) (c * v1) (c * v2) =
      (derive k u0 u1 u2 v0 v1 v2).map (e * ·)) (m : Field ℝ) (p : Nat)
    (ks : List Nat) (req : Option ℝ) :
    Mesh2D.requiredLoop r1 r2 minfX derive (m.scale c) p ks (req.map (e * ·)) =
      (Mesh2D.requiredLoop r1 r2 minfX derive m p ks req).map (Option.map (e * ·)) := by
  have hrd : ∀ (f : Nat → ℝ) (i : Int), Mesh2D.rd (r1 * r2) (fun q => c * f q) i =
      (Mesh2D.rd (r1 * r2) f i).map (c * ·) := by
    intro f i
    unfold Mesh2D.rd
    split <;> rfl
  induction ks generalizing req with
  | nil => rfl
  | cons k ks ih =>
    unfold Mesh2D.requiredLoop
    split
    · rw [show (m.scale c).u = fun q => c * m.u q from rfl,
        show (m.scale c).v = fun q => c * m.v q from rfl]
      simp only [hrd]
      cases Mesh2D.rd (r1 * r2) m.u (p + Mesh2D.offsets r2 k) with
      | none => rfl
      | some u0 =>
        cases Mesh2D.rd (r1 * r2) m.u (p + Mesh2D.offsets r2 (k + 1)) with
        | none => rfl
        | some u1 =>
          cases Mesh2D.rd (r1 * r2) m.v (p + Mesh2D.offsets r2 k) with
          | none => rfl
          | some v0 =>
            cases Mesh2D.rd (r1 * r2) m.v (p + Mesh2D.offsets r2 (k + 1)) with
            | none => rfl
            | some v1 =>
              simp only [Option.map_some]
              rw [hd, minfX_scale he]
              exact ih _
    · exact ih _

theorem keepAbsR_scale {rF : ℝ → ℝ} {c : ℝ} (hc : 0 < c) (hF : Scales c rF) (A B X : ℝ) :
    keepAbsR rF (c * A) (c * B) (c * c * X) = (keepAbsR rF A B X).map (c * ·) := by
  unfold keepAbsR
  rw [abs_mul, abs_mul, abs_mul, abs_of_pos hc, abs_of_pos (mul_pos hc hc), ← mul_add, hF]
  simp only [mul_eq_zero, hc.ne', false_or]
  split
  · rfl
  · simp only [Option.map_some, Option.some.injEq]
    rw [mul_assoc c c, mul_div_mul_left _ _ hc.ne', mul_div_assoc, hF]

theorem optMinf_scale {e : ℝ} (he : 0 < e) (a b : Option ℝ) :
    optMinf (a.map (e * ·)) (b.map (e * ·)) = (optMinf a b).map (e * ·) := by
  rcases a with _ | a <;> rcases b with _ | b <;> try rfl
  simp only [Option.map_some, optMinf, minf, mul_lt_mul_iff_right₀ he]
  split <;> rfl

theorem optMaxf_scale {e : ℝ} (he : 0 < e) (a b : Option ℝ) :
    optMaxf (a.map (e * ·)) (b.map (e * ·)) = (optMaxf a b).map (e * ·) := by
  rcases a with _ | a <;> rcases b with _ | b <;> try rfl
  simp only [Option.map_some, optMaxf, maxf, mul_lt_mul_iff_right₀ he]
  split <;> rfl

theorem deriveAbsR_scale {rT rF rD : ℝ → ℝ} {c : ℝ} (hc : 0 < c) (hT : Scales c rT)
    (hF : Scales c rF) (hD : Scales c rD) (u0 u1 u2 v0 v1 v2 : ℝ) :
    deriveAbsR rT rF rD (c * u0) (c * u1) (c * u2) (c * v0) (c * v1) (c * v2) =
      (deriveAbsR rT rF rD u0 u1 u2 v0 v1 v2).map (c * ·) := by
  have hcc : 0 < c * c := mul_pos hc hc
  have hp : ∀ x y : ℝ, c * x * (c * y) = c * c * (x * y) := fun x y => by ring
  have hT' : ∀ x, rT (c * c * x) = c * c * rT x := hT.mul hT
  have hD' : ∀ x, rD (c * c * x) = c * c * rD x := hD.mul hD
  have hn : ∀ x : ℝ, -(c * x) = c * (-x) := fun x => by ring
  have h0 : ∀ x : ℝ, c * c * x = 0 ↔ x = 0 := fun x => by simp [hc.ne']
  have hz : (some 0 : Option ℝ) = (some 0 : Option ℝ).map (c * ·) := by simp
  unfold deriveAbsR
  simp only [hp, hT', hT _, ← mul_sub, ← mul_add, hD', h0, mul_div_mul_left _ _ hcc.ne', hn,
    keepAbsR_scale hc hF, optMinf_scale hc]
  split
  · exact hz
  · split
    · exact hz
    · have hif : ∀ (q : Prop) [Decidable q] (x y : Option ℝ),
          (if q then optMaxf (x.map (c * ·)) (y.map (c * ·)) else x.map (c * ·)) =
          (if q then optMaxf x y else x).map (c * ·) := by
        intro q _ x y
        split
        · rw [optMaxf_scale hc]
        · rfl
      conv_lhs => rw [hz]
      simp only [hif]

theorem boundAbsR_scale {rT rF rD : ℝ → ℝ} {c : ℝ} (hc : 0 < c) (hT : Scales c rT)
    (hF : Scales c rF) (hD : Scales c rD) (r1 r2 : Nat) (maxEb : ℝ) (m : Field ℝ) (p : Nat) :
    boundAbsR rT rF rD r1 r2 (c * maxEb) (m.scale c) p =
      (boundAbsR rT rF rD r1 r2 maxEb m p).map (c * ·) := by
  unfold boundAbsR Mesh2D.requiredEb
  have hu : (m.scale c).u p = 0 ↔ m.u p = 0 := by simp [Field.scale, hc.ne']
  have hv : (m.scale c).v p = 0 ↔ m.v p = 0 := by simp [Field.scale, hc.ne']
  simp only [hu, hv]
  split
  · simp
  · rw [show (some (c * maxEb) : Option ℝ) = (some maxEb : Option ℝ).map (c * ·) from rfl,
      requiredLoop_scale hc r1 r2 _ (fun _ => deriveAbsR_scale hc hT hF hD)]
    cases Mesh2D.requiredLoop r1 r2 minfX (fun _ => deriveAbsR rT rF rD) m p [0, 1, 2, 3, 4, 5]
        (some maxEb) with
    | none => rfl
    | some w => cases w <;> simp

theorem keepSignR_scale {rT rF rD : ℝ → ℝ} {d : ℝ} (hd : 0 < d) (hT : Scales d rT)
    (hF : Scales d rF) (A B X : ℝ) :
    keepSignR rT rF rD (d * A) (d * B) (d * X) = keepSignR rT rF rD A B X := by
  unfold keepSignR
  simp only [abs_mul, abs_of_pos hd, ← mul_add, hF _, hT _, mul_eq_zero, hd.ne', false_or,
    mul_div_mul_left _ _ hd.ne']

theorem keepTypeR_scale {rT rF rD : ℝ → ℝ} {c : ℝ} (hc : 0 < c) (hT : Scales c rT)
    (hF : Scales c rF) (hD : Scales c rD) (u0 u1 u2 v0 v1 v2 c0 c1 c2 c3 : ℝ) :
    keepTypeR rT rF rD (c * u0) (c * u1) (c * u2) (c * v0) (c * v1) (c * v2) c0 c1 c2 c3 =
      keepTypeR rT rF rD u0 u1 u2 v0 v1 v2 c0 c1 c2 c3 := by
  obtain ⟨d, hd⟩ : ∃ d, d = c * c := ⟨_, rfl⟩
  obtain ⟨e, hee⟩ : ∃ e, e = d * d := ⟨_, rfl⟩
  have d0 : 0 < d := by rw [hd]; exact mul_pos hc hc
  have hp : ∀ x y : ℝ, c * x * (c * y) = d * (x * y) := fun x y => by rw [hd]; ring
  have hp' : ∀ x y : ℝ, d * x * (d * y) = e * (x * y) := fun x y => by rw [hee]; ring
  have Td : Scales d rT := by rw [hd]; exact hT.mul hT
  have Fd : Scales d rF := by rw [hd]; exact hF.mul hF
  have Dd : Scales d rD := by rw [hd]; exact hD.mul hD
  have De : Scales e rD := by rw [hee]; exact Dd.mul Dd
  have q : ∀ a x : ℝ, a * (c * x) = c * (a * x) := fun a x => by ring
  have q' : ∀ a x : ℝ, a * (d * x) = d * (a * x) := fun a x => by ring
  have hs : ∀ x, √(e * x) = d * √x := by
    intro x
    rw [hee, Real.sqrt_mul (mul_pos d0 d0).le, Real.sqrt_mul_self d0.le]
  have hle : ∀ x, d * x ≤ 0 ↔ x ≤ 0 := fun x => by
    rw [← not_lt, ← not_lt, mul_pos_iff_of_pos_left d0]
  have hnd : ∀ x : ℝ, -(d * x) = d * (-x) := fun x => by ring
  have h0 : ∀ x : ℝ, d * x = 0 ↔ x = 0 := fun x => by simp [d0.ne']
  unfold keepTypeR
  simp only [hp, hp', Td _, Dd _, De _, hT _, hD _, ← mul_sub, ← mul_add, abs_mul, abs_of_pos hc,
    abs_of_pos d0, q c0, q c1, q c2, q c3, q (-c0), q (-c2), q 2, q' 4, q' 2,
    q' (-(rT (rT (c1 * c2) - rT (c0 * c3)))),
    keepSignR_scale hc hT hF, keepSignR_scale d0 Td Fd, hs, hle, hnd, h0,
    mul_div_mul_left _ _ d0.ne', mul_pos_iff_of_pos_left d0]

theorem deriveOnlineR_scale {rT rF rD : ℝ → ℝ} {c : ℝ} (hc : 0 < c) (hT : Scales c rT)
    (hF : Scales c rF) (hD : Scales c rD) (u0 u1 u2 v0 v1 v2 c0 c1 c2 c3 : ℝ) :
    deriveOnlineR rT rF rD (c * u0) (c * u1) (c * u2) (c * v0) (c * v1) (c * v2) c0 c1 c2 c3 =
      deriveOnlineR rT rF rD u0 u1 u2 v0 v1 v2 c0 c1 c2 c3 := by
  have hk := keepTypeR_scale hc hT hF hD u0 u1 u2 v0 v1 v2 c0 c1 c2 c3
  obtain ⟨d, hd⟩ : ∃ d, d = c * c := ⟨_, rfl⟩
  have d0 : 0 < d := by rw [hd]; exact mul_pos hc hc
  have hp : ∀ x y : ℝ, c * x * (c * y) = d * (x * y) := fun x y => by rw [hd]; ring
  have Td : Scales d rT := by rw [hd]; exact hT.mul hT
  have Fd : Scales d rF := by rw [hd]; exact hF.mul hF
  have Dd : Scales d rD := by rw [hd]; exact hD.mul hD
  have hnc : ∀ x : ℝ, -(c * x) = c * (-x) := fun x => by ring
  have hnd : ∀ x : ℝ, -(d * x) = d * (-x) := fun x => by ring
  have h0 : ∀ x : ℝ, d * x = 0 ↔ x = 0 := fun x => by simp [d0.ne']
  have hz : ∀ A B : ℝ, keepSignR rT rF rD (d * A) (d * B) 0 = keepSignR rT rF rD A B 0 := by
    intro A B
    conv_lhs => rw [← mul_zero d]
    exact keepSignR_scale d0 Td Fd A B 0
  unfold deriveOnlineR keepPositionR
  simp only [hk, hp, hnc, hnd, Td _, Dd _, ← mul_sub, ← mul_add, h0, hz,
    keepSignR_scale d0 Td Fd, mul_div_mul_left _ _ d0.ne']

theorem boundOnlineR_scale {rT rF rD : ℝ → ℝ} {c : ℝ} (hc : 0 < c) (hT : Scales c rT)
    (hF : Scales c rF) (hD : Scales c rD) (r1 r2 : Nat) (maxEb : ℝ) (m : Field ℝ) (p : Nat) :
    boundOnlineR rT rF rD r1 r2 maxEb (m.scale c) p = boundOnlineR rT rF rD r1 r2 maxEb m p := by
  have h1 : ∀ x : Option ℝ, x.map ((1 : ℝ) * ·) = x := fun x => by cases x <;> simp
  have h := requiredLoop_scale (c := c) one_pos r1 r2 (deriveKR rT rF rD)
    (fun k u0 u1 u2 v0 v1 v2 => by
      rw [h1]; exact deriveOnlineR_scale hc hT hF hD u0 u1 u2 v0 v1 v2 _ _ _ _)
    m p [0, 1, 2, 3, 4, 5] (some maxEb)
  rw [h1] at h
  unfold boundOnlineR Mesh2D.requiredEb
  rw [h]
  cases Mesh2D.requiredLoop r1 r2 minfX (deriveKR rT rF rD) m p [0, 1, 2, 3, 4, 5] (some maxEb) with
  | none => rfl
  | some w => simp

/-- **C78** The absolute mode with its threshold and its bound in the new unit. -/
theorem C78_absolute_partial {rT rF rD lg : ℝ → ℝ} (hDr : IsRounding rD) {c : ℝ} (hc : 0 < c)
    (hT : Scales c rT) (hF : Scales c rF) (hD : Scales c rD) (P : Par ℝ) (r1 r2 : Nat) (maxEb : ℝ)
    (m : Field ℝ) :
    compress (roundedOps rT rD lg) (P.scale c) r1 r2 (fun req _ => req)
        (boundAbsR rT rF rD r1 r2 (c * maxEb)) (m.scale c) =
      (compress (roundedOps rT rD lg) P r1 r2 (fun req _ => req)
        (boundAbsR rT rF rD r1 r2 maxEb) m).map (fun w => (w.1.scale c, w.2.scale c)) :=
  C78_compress_partial hDr hc hc hT hD P r1 r2 (fun req _ => req) _ _ (fun _ _ => rfl)
    (boundAbsR_scale hc hT hF hD r1 r2 maxEb) m

/-- **C78** The relative mode with its threshold in the new unit; the bound stays. -/
theorem C78_relative_partial {rT rF rD lg : ℝ → ℝ} (hDr : IsRounding rD) {c : ℝ} (hc : 0 < c)
    (hT : Scales c rT) (hF : Scales c rF) (hD : Scales c rD) (P : Par ℝ) (r1 r2 : Nat) (maxEb : ℝ)
    (m : Field ℝ) :
    compress (roundedOps rT rD lg) (P.scale c) r1 r2 (fun req cur => rD (|cur| * req))
        (boundOnlineR rT rF rD r1 r2 maxEb) (m.scale c) =
      (compress (roundedOps rT rD lg) P r1 r2 (fun req cur => rD (|cur| * req))
        (boundOnlineR rT rF rD r1 r2 maxEb) m).map (fun w => (w.1.scale c, w.2.scale c)) := by
  refine C78_compress_partial hDr hc one_pos hT hD P r1 r2 _ _ _ (fun req x => ?_)
    (fun m p => ?_) m
  · simp only [one_mul]
    rw [abs_mul, abs_of_pos hc, mul_assoc, hD]
  · rw [boundOnlineR_scale hc hT hF hD]
    cases boundOnlineR rT rF rD r1 r2 maxEb m p <;> simp

/-- **C78** The decompressor on any streams, whether or not a compressor wrote them: the streams in
the new unit, read with the threshold in the new unit, give the field in the new unit. -/
theorem C78_decompress {rT rD lg : ℝ → ℝ} {c : ℝ} (hT : Scales c rT) (hD : Scales c rD)
    (P : Par ℝ) (r1 r2 : Nat) (m0 : Field ℝ) (s : Streams ℝ) :
    decompress (roundedOps rT rD lg) (P.scale c) r1 r2 (m0.scale c) (s.scale c) =
      (decompress (roundedOps rT rD lg) P r1 r2 m0 s).map (Field.scale c) := by
  have hx : ∀ (f : Nat → ℝ) (p : Nat) (e : ℝ) (q : Int),
      (roundedOps rT rD lg).ofD ((roundedOps rT rD lg).add ((roundedOps rT rD lg).toD
        (lorenzo (roundedOps rT rD lg) r2 (fun q => c * f q) p))
        (linOffset (roundedOps rT rD lg).toDOps (c * e) P.radius q)) =
      c * (roundedOps rT rD lg).ofD ((roundedOps rT rD lg).add ((roundedOps rT rD lg).toD
        (lorenzo (roundedOps rT rD lg) r2 f p))
        (linOffset (roundedOps rT rD lg).toDOps e P.radius q)) := by
    intro f p e q
    rw [lorenzo_scale hT, linOffset_scale hD]
    show rT (rD (_ + _)) = c * rT (rD (_ + _))
    rw [← hT, ← hD, mul_add]
    rfl
  have he : ∀ i : Int, (roundedOps rT rD lg).mul ((roundedOps rT rD lg).pow P.base i)
      (c * P.thr) = c * (roundedOps rT rD lg).mul ((roundedOps rT rD lg).pow P.base i) P.thr := by
    intro i
    show rD (_ * _) = c * rD (_ * _)
    rw [← hD, mul_left_comm]
  have hstep : ∀ (m : Field ℝ) (p : Nat) (s : Streams ℝ),
      decVertex (roundedOps rT rD lg) (P.scale c) r2 (m.scale c) p (s.scale c) =
        (decVertex (roundedOps rT rD lg) P r2 m p s).map
          (fun w => (w.1.scale c, w.2.scale c)) := by
    intro m p s
    obtain ⟨eb, dq, un⟩ := s
    match eb, dq with
    | [], _ => rfl
    | [_], _ => rfl
    | _ :: _ :: _, [] => rfl
    | _ :: _ :: _, [_] => rfl
    | e0 :: e1 :: ebs, q0 :: q1 :: dqs =>
      unfold decVertex Streams.scale
      by_cases h0 : e0 = 0
      · simp only [if_pos h0]
        match un with
        | [] => rfl
        | [_] => rfl
        | x :: y :: uns =>
          simp only [List.map_cons, scale_set]
          rfl
      · simp only [if_neg h0]
        have h1 := hx m.u p
        have h2 := hx m.v p
        simp only [Field.scale, Par.scale, he, Option.map_some, Option.some.injEq, Prod.mk.injEq,
          and_true] at *
        rw [h1, h2]
        exact scale_set c m p _ _
  unfold decompress
  have hscan : ∀ n p (m : Field ℝ) (s : Streams ℝ),
      scanDec (decVertex (roundedOps rT rD lg) (P.scale c) r2) n p (m.scale c) (s.scale c) =
        (scanDec (decVertex (roundedOps rT rD lg) P r2) n p m s).map
          (fun w => (w.1.scale c, w.2.scale c)) := by
    intro n
    induction n with
    | zero => intros; rfl
    | succ n ih =>
      intro p m s
      unfold scanDec
      rw [hstep]
      cases decVertex (roundedOps rT rD lg) P r2 m p s with
      | none => rfl
      | some w => exact ih _ _ _
  rw [hscan]
  cases scanDec (decVertex (roundedOps rT rD lg) P r2) (r1 * r2) 0 m0 s <;> rfl

/-! ### The threshold of the real modes does not change with the unit -/

theorem scanEnc_map_on {σ ω : Type} (step step' : σ → Nat → Option (σ × ω)) (g : σ → σ)
    (h : ω → ω) (I : Nat → σ → Prop) (n p : Nat)
    (H : ∀ s q, p ≤ q → q < p + n → I q s →
      step' (g s) q = (step s q).map (fun w => (g w.1, h w.2)))
    (hI : ∀ s q w, I q s → step s q = some w → I (q + 1) w.1) (s : σ) (h0 : I p s) :
    scanEnc step' n p (g s) = (scanEnc step n p s).map (fun w => (g w.1, w.2.map h)) := by
  induction n generalizing p s with
  | zero => rfl
  | succ n ih =>
    unfold scanEnc
    rw [H s p le_rfl (by omega) h0]
    cases hs : step s p with
    | none => rfl
    | some w =>
      simp only [Option.map_some]
      rw [ih (p + 1) (fun s q h1 h2 => H s q (by omega) (by omega)) w.1 (hI s p w h0 hs)]
      cases scanEnc step n (p + 1) w.1 with
      | none => rfl
      | some w' => rfl

/-- Specification: the index of a quantised bound when the unit shrinks by `4^k`; zero marks the
vertices that are stored verbatim. -/
def shiftEb (k : Nat) (e : Int) : Int := if e = 0 then 0 else e + k

theorem ebQuant_shift (k : Nat) {thr a : ℝ} (ht : 0 < thr) (ha : 4 * thr ≤ a) :
    ebQuant realD 4 (Real.logb 2 4) thr (4 ^ k * a) =
      (4 ^ k * (ebQuant realD 4 (Real.logb 2 4) thr a).1,
        (ebQuant realD 4 (Real.logb 2 4) thr a).2 + k) := by
  have h4 : (1 : ℝ) ≤ 4 ^ k := one_le_pow₀ (by norm_num)
  have hka : 4 * thr ≤ 4 ^ k * a := le_trans ha (le_mul_of_one_le_left (by linarith) h4)
  have hne : ¬ a ≤ thr := by linarith
  have hne' : ¬ (4 ^ k * a ≤ thr) := by linarith
  have hat : 1 ≤ a / thr := by rw [le_div_iff₀ ht]; linarith
  have hl4 : Real.logb 2 4 = 2 := by
    rw [show (4 : ℝ) = 2 ^ (2 : ℝ) by norm_num]; exact Real.logb_rpow (by norm_num) (by norm_num)
  have hx : 0 ≤ Real.logb 2 (a / thr) / Real.logb 2 4 := by
    rw [hl4]
    exact div_nonneg (Real.logb_nonneg (by norm_num) hat) (by norm_num)
  have hlog : Real.logb 2 (4 ^ k * a / thr) / Real.logb 2 4 =
      Real.logb 2 (a / thr) / Real.logb 2 4 + k := by
    rw [mul_div_assoc, Real.logb_mul (by positivity) (by positivity), Real.logb_pow, hl4]
    ring
  have htr : truncR (Real.logb 2 (a / thr) / Real.logb 2 4 + k) =
      truncR (Real.logb 2 (a / thr) / Real.logb 2 4) + k := by
    rw [truncR_nonneg hx, truncR_nonneg (by positivity), Int.floor_add_natCast]
  unfold ebQuant
  simp only [realD, hne, hne', decide_false, Bool.false_eq_true, if_false, hlog, htr,
    Prod.mk.injEq, and_true]
  rw [zpow_add₀ (by norm_num), zpow_natCast]
  push_cast
  ring

theorem scale_pos (k : Nat) : (0 : ℝ) < 4 ^ k := by positivity

/-- Common part of the two modes. -/
theorem compress_shift (k : Nat) {e : ℝ} (he : 0 < e) (r1 r2 : Nat) (absEb : ℝ → ℝ → ℝ)
    (bound bound' : Field ℝ → Nat → Option ℝ)
    (ha : ∀ req x, absEb (e * req) (4 ^ k * x) = 4 ^ k * absEb req x)
    (hb : ∀ m p, bound' (m.scale (4 ^ k)) p = (bound m p).map (e * ·)) (m : Field ℝ)
    (hbig : ∀ p f req, p < r1 * r2 → Rounded.Reach realOps parOnline r2 absEb bound m p f →
      bound f p = some req → 0 < req →
      4 / 2 ^ 52 ≤ absEb req (f.u p) ∧ 4 / 2 ^ 52 ≤ absEb req (f.v p)) :
    compress realOps parOnline r1 r2 absEb bound' (m.scale (4 ^ k)) =
      (compress realOps parOnline r1 r2 absEb bound m).map (fun w => (w.1.scale (4 ^ k),
        ⟨w.2.eb.map (shiftEb k), w.2.dq, w.2.un.map (4 ^ k * ·)⟩)) := by
  have hE : ∀ a : ℝ, 4 / 2 ^ 52 ≤ a → ebQuant realD parOnline.base parOnline.logBase parOnline.thr
      (4 ^ k * a) = (4 ^ k * (ebQuant realD parOnline.base parOnline.logBase parOnline.thr a).1,
        (ebQuant realD parOnline.base parOnline.logBase parOnline.thr a).2 + k) := by
    intro a h
    exact ebQuant_shift k (thr := 1 / 2 ^ 52) (by norm_num) (by linarith)
  have hE2 : ∀ a : ℝ, 4 / 2 ^ 52 ≤ a →
      0 < (ebQuant realD parOnline.base parOnline.logBase parOnline.thr a).2 := by
    intro a h
    have hs := ebQuant_spec 4 (by norm_num) (1 / 2 ^ 52) a (by norm_num)
    have hne : (ebQuant realD 4 (Real.logb 2 ((4 : Int) : ℝ)) (1 / 2 ^ 52) a).2 ≠ 0 := by
      intro h0
      have := hs.2.1.1 h0
      push_cast at this
      linarith
    have h1 := lt_of_le_of_ne hs.1 hne.symm
    push_cast at h1
    exact h1
  have hcomp : ∀ (f : Nat → ℝ) (p : Nat) (a : ℝ), 4 / 2 ^ 52 ≤ a →
      encComp realOps parOnline r2 (fun q => 4 ^ k * f q) p (4 ^ k * a) =
        (encComp realOps parOnline r2 f p a).map
          (fun w => (shiftEb k w.1, w.2.1, 4 ^ k * w.2.2)) := by
    intro f p a h
    have hpos := hE2 a h
    have hsh : shiftEb k (ebQuant realD parOnline.base parOnline.logBase parOnline.thr a).2 =
        (ebQuant realD parOnline.base parOnline.logBase parOnline.thr a).2 + k := by
      rw [shiftEb, if_neg hpos.ne']
    exact encComp_scale (rT := id) (rD := id) (lg := Real.logb 2) IsRounding.id (scale_pos k)
      (scales_id _) (scales_id _) parOnline parOnline rfl rfl r2 f p a _ (shiftEb k)
      (congrArg Prod.fst (hE a h)) ((congrArg Prod.snd (hE a h)).trans hsh.symm)
      ⟨fun _ => hpos, fun _ => by
        show 0 < shiftEb k (ebQuant realD parOnline.base parOnline.logBase parOnline.thr a).2
        rw [hsh]
        omega⟩
  have hstep : ∀ f q, 0 ≤ q → q < 0 + r1 * r2 → Rounded.Reach realOps parOnline r2 absEb bound m q
      f → encVertex realOps parOnline r2 absEb bound' (f.scale (4 ^ k)) q =
        (encVertex realOps parOnline r2 absEb bound f q).map
          (fun w => (w.1.scale (4 ^ k), w.2.scale (4 ^ k) (shiftEb k))) := by
    intro f q _ hq hR
    rw [Nat.zero_add] at hq
    have hB := hbig q f
    unfold encVertex
    rw [hb]
    revert hB
    cases bound f q with
    | none => intro _; rfl
    | some req =>
      intro hB
      simp only [Option.map_some]
      by_cases hpos : 0 < req
      · obtain ⟨hu, hv⟩ := hB req hq hR rfl hpos
        have t1 : realOps.lt (realOps.ofInt 0) (e * req) = true := by
          simp only [realOps, realD, Int.cast_zero, decide_eq_true_eq]
          exact mul_pos he hpos
        have t2 : realOps.lt (realOps.ofInt 0) req = true := by
          simp only [realOps, realD, Int.cast_zero, decide_eq_true_eq]
          exact hpos
        rw [if_pos t1, if_pos t2, show (f.scale (4 ^ k)).u = fun q => 4 ^ k * f.u q from rfl,
          show (f.scale (4 ^ k)).v = fun q => 4 ^ k * f.v q from rfl]
        dsimp only
        rw [ha, ha, hcomp _ _ _ hu, hcomp _ _ _ hv]
        cases encComp realOps parOnline r2 f.u q (absEb req (f.u q)) with
        | none => rfl
        | some w =>
          cases encComp realOps parOnline r2 f.v q (absEb req (f.v q)) with
          | none => rfl
          | some w' =>
            simp only [Option.map_some, scale_set]
            rfl
      · have t1 : ¬ realOps.lt (realOps.ofInt 0) (e * req) = true := by
          simp only [realOps, realD, Int.cast_zero, decide_eq_true_eq]
          rw [mul_pos_iff_of_pos_left he]
          exact hpos
        have t2 : ¬ realOps.lt (realOps.ofInt 0) req = true := by
          simp only [realOps, realD, Int.cast_zero, decide_eq_true_eq]
          exact hpos
        rw [if_neg t1, if_neg t2]
        rfl
  unfold compress
  rw [scanEnc_map_on _ _ (Field.scale (4 ^ k)) (VCode.scale (4 ^ k) (shiftEb k))
    (Rounded.Reach realOps parOnline r2 absEb bound m) (r1 * r2) 0 hstep
    (fun s q w hR hs => Rounded.Reach.next hR (w := w.2) hs) m Rounded.Reach.init]
  cases scanEnc (encVertex realOps parOnline r2 absEb bound) (r1 * r2) 0 m with
  | none => rfl
  | some w =>
    simp only [Option.map_some, Option.some.injEq, Prod.mk.injEq, true_and]
    congr 1
    · rw [List.flatMap_map, List.map_flatMap]
      congr 1
      funext a
      cases a <;> rfl
    · rw [List.flatMap_map]
      congr 1
      funext a
      cases a <;> rfl
    · rw [List.flatMap_map, List.map_flatMap]
      congr 1
      funext a
      cases a <;> rfl

/-- **C78** The relative mode as it is (fixed threshold), exact arithmetic: if no vertex of the run
is stored verbatim only because its bound is below the threshold, the field in a unit smaller by
`4^k` gets the same data codes, and the codes of its bounds are larger by `k`. -/
theorem C78_relative_shift_partial (k r1 r2 : Nat) (maxEb : ℝ) (m : Field ℝ)
    (hbig : ∀ p f req, p < r1 * r2 →
      Rounded.Reach realOps parOnline r2 absRel (boundOnline r1 r2 maxEb) m p f →
      boundOnline r1 r2 maxEb f p = some req → 0 < req →
      4 / 2 ^ 52 ≤ |f.u p| * req ∧ 4 / 2 ^ 52 ≤ |f.v p| * req) :
    compressRel r1 r2 maxEb (m.scale (4 ^ k)) =
      (compressRel r1 r2 maxEb m).map (fun w => (w.1.scale (4 ^ k),
        ⟨w.2.eb.map (shiftEb k), w.2.dq, w.2.un.map (4 ^ k * ·)⟩)) := by
  refine compress_shift k one_pos r1 r2 absRel _ _ (fun req x => ?_) (fun m p => ?_) m hbig
  · unfold absRel
    rw [abs_mul, abs_of_pos (scale_pos k)]
    ring
  · rw [← boundOnlineR_id, boundOnlineR_scale (scale_pos k) (scales_id _) (scales_id _)
      (scales_id _)]
    cases boundOnlineR id id id r1 r2 maxEb m p <;> simp

/-- **C78** The absolute mode as it is, exact arithmetic. -/
theorem C78_absolute_shift_partial (k r1 r2 : Nat) (maxEb : ℝ) (m : Field ℝ)
    (hbig : ∀ p f req, p < r1 * r2 →
      Rounded.Reach realOps parOnline r2 (fun req _ => req) (boundAbs r1 r2 maxEb) m p f →
      boundAbs r1 r2 maxEb f p = some req → 0 < req → 4 / 2 ^ 52 ≤ req) :
    compress realOps parOnline r1 r2 (fun req _ => req) (boundAbs r1 r2 (4 ^ k * maxEb))
        (m.scale (4 ^ k)) =
      (compress realOps parOnline r1 r2 (fun req _ => req) (boundAbs r1 r2 maxEb) m).map
        (fun w => (w.1.scale (4 ^ k),
          ⟨w.2.eb.map (shiftEb k), w.2.dq, w.2.un.map (4 ^ k * ·)⟩)) :=
  compress_shift k (scale_pos k) r1 r2 (fun req _ => req) _ _ (fun _ _ => rfl)
    (boundAbsR_scale (scale_pos k) (scales_id _) (scales_id _) (scales_id _) r1 r2 maxEb) m
    (fun p f req hp hR hb h0 => ⟨hbig p f req hp hR hb h0, hbig p f req hp hR hb h0⟩)

/-- **C78** Why the unit does matter: a field so small that every vertex has a component whose bound
is less than four times the threshold is not compressed at all.  Every vertex is stored verbatim. -/
theorem C78_tiny_field_not_compressed (r1 r2 : Nat) (maxEb : ℝ) (m m' : Field ℝ) (s : Streams ℝ)
    (htiny : ∀ p < r1 * r2, |m.u p| * maxEb < 4 / 2 ^ 52 ∨ |m.v p| * maxEb < 4 / 2 ^ 52)
    (h : compressRel r1 r2 maxEb m = some (m', s)) :
    m' = m ∧ (∀ e ∈ s.eb, e = 0) ∧ s.un.length = 2 * (r1 * r2) := by
  unfold compressRel compress at h
  cases hs : scanEnc (encVertex realOps parOnline r2 absRel (boundOnline r1 r2 maxEb)) (r1 * r2) 0 m
      with
  | none => rw [hs] at h; cases h
  | some w =>
    obtain ⟨m1, ws⟩ := w
    rw [hs] at h
    simp only [Option.some.injEq, Prod.mk.injEq] at h
    obtain ⟨rfl, rfl⟩ := h
    have hinv := scanEnc_forall_inv _ (fun _ f => f = m) (fun w => ∃ u v, w = .lossless u v)
      (r1 * r2) 0 (fun q f f' w _ hq hf hst => by
        subst hf
        rw [Nat.zero_add] at hq
        rcases encVertex_cases _ _ _ _ _ _ _ _ _ hst with ⟨h1, h2⟩ | ⟨req, e0, q0, x, e1, q1, y,
          hb, hlt, c0, c1, -, -⟩
        · exact ⟨h1, _, _, h2⟩
        · exfalso
          obtain ⟨req', hb', hpos, hle, -, -⟩ := step_le hq ⟨req, e0, q0, e1, q1, hb, hlt, c0, c1⟩
          rw [hb] at hb'
          obtain rfl := Option.some.inj hb'
          have key : ∀ (g : Nat → ℝ) (p : Nat) (e q : Int) (x : ℝ), encComp realOps parOnline r2 g p
              (absRel req (g p)) = some (e, q, x) → 4 / 2 ^ 52 ≤ |g p| * maxEb := by
            intro g p e q x hc
            obtain ⟨he, hid, -⟩ := encComp_some _ _ _ _ _ _ _ _ _ hc
            have hs := ebQuant_spec 4 (by norm_num) (1 / 2 ^ 52) (absRel req (g p)) (by norm_num)
            by_contra hcon
            have : absRel req (g p) < ((4 : Int) : ℝ) * (1 / 2 ^ 52) := by
              have := mul_le_mul_of_nonneg_left hle (abs_nonneg (g p))
              unfold absRel
              push_cast
              linarith
            have h0 := hs.2.1.2 this
            push_cast at h0
            have : e = 0 := hid.trans h0
            omega
          rcases htiny q hq with h0 | h0
          · exact absurd h0 (not_lt.2 (key _ _ _ _ _ c0))
          · exact absurd h0 (not_lt.2 (key _ _ _ _ _ c1)))
      m m1 ws rfl hs
    refine ⟨hinv.1, ?_, ?_⟩
    · intro e he
      obtain ⟨w, hw, hwe⟩ := List.mem_flatMap.1 he
      obtain ⟨u, v, rfl⟩ := hinv.2 w hw
      simpa [VCode.eb] using hwe
    · have hl : ws.length = r1 * r2 := by
        have := scanEnc_length _ _ _ _ _ _ hs
        omega
      rw [← hl]
      have : ∀ ws : List (VCode ℝ), (∀ w ∈ ws, ∃ u v, w = .lossless u v) →
          (ws.flatMap VCode.un).length = 2 * ws.length := by
        intro ws hw
        induction ws with
        | nil => rfl
        | cons w ws ih =>
          obtain ⟨u, v, rfl⟩ := hw w (by simp)
          rw [List.flatMap_cons, List.length_append, ih (fun w h => hw w (by simp [h]))]
          simp only [VCode.un, List.length_cons, List.length_nil]
          omega
      exact this ws hinv.2

/-- A field with one vertex. -/
noncomputable def exOne : Field ℝ := ⟨fun _ => 1, fun _ => 1⟩

/-- **C78** The claim without restrictions is false: a field that is quantised with bounds `4^24`
times the threshold is stored verbatim in a unit larger by `2^60`. -/
theorem C78_threshold_matters :
    ∃ m' s, compressRel 1 1 (1 / 10) exOne = some (m', s) ∧ s.eb = [24, 24] ∧ s.un = [] ∧
      ∃ s', compressRel 1 1 (1 / 10) (exOne.scale (1 / 2 ^ 60)) =
        some (exOne.scale (1 / 2 ^ 60), s') ∧ s'.eb = [0, 0] := by
  have hb : ∀ f, boundOnline 1 1 (1 / 10) f 0 = some (1 / 10) := by
    intro f
    have hin : ∀ k ∈ [0, 1, 2, 3, 4, 5], Mesh2D.inMesh 1 1 (0 / 1) (0 % 1) k = false := by decide
    unfold boundOnline Mesh2D.requiredEb
    have i0 := hin 0 (by simp)
    have i1 := hin 1 (by simp)
    have i2 := hin 2 (by simp)
    have i3 := hin 3 (by simp)
    have i4 := hin 4 (by simp)
    have i5 := hin 5 (by simp)
    simp only [Mesh2D.requiredLoop, i0, i1, i2, i3, i4, i5, Bool.false_eq_true, if_false,
      Option.map_some, Option.getD_some]
  have hq : ebQuant realD 4 (Real.logb 2 4) (1 / 2 ^ 52) (1 / 10) = (1 / 16, 24) := by
    have hs := ebQuant_spec 4 (by norm_num) (1 / 2 ^ 52) (1 / 10) (by norm_num)
    push_cast at hs
    generalize ebQuant realD 4 (Real.logb 2 4) (1 / 2 ^ 52) (1 / 10) = r at *
    obtain ⟨e, i⟩ := r
    obtain ⟨-, -, h3, -⟩ := hs
    obtain ⟨h1, h2, h4⟩ := h3 (by norm_num)
    simp only at h1 h2 h4
    have hi : i = 24 := by
      have a1 : (4 : ℝ) ^ i < (4 : ℝ) ^ (25 : ℤ) := by
        rw [h1] at h2
        generalize (4 : ℝ) ^ i = y at *
        norm_num at *
        linarith
      have a2 : (4 : ℝ) ^ (23 : ℤ) < (4 : ℝ) ^ i := by
        rw [h1] at h4
        generalize (4 : ℝ) ^ i = y at *
        norm_num at *
        linarith
      rw [zpow_lt_zpow_iff_right₀ (by norm_num)] at a1 a2
      omega
    subst hi
    rw [h1]
    norm_num
  have hlin : linQuant realD 1 (1 / 16) 65536 32768 = some 32776 :=
    linQuant_near (rT := id) (rD := id) (lg := Real.logb 2) (u := 0) IsFloat.id (by norm_num)
      (diff := 1) (prec := 1 / 16) (R := 32768) (by norm_num) (by norm_num) (k := 8) (by norm_num)
      (by norm_num)
  have hlor : ∀ f : Nat → ℝ, lorenzo realOps 1 f 0 = 0 := by
    intro f
    simp [lorenzo, realOps]
  have hcomp : encComp realOps parOnline 1 (fun _ => 1) 0 (absRel (1 / 10) 1) =
      some (24, 32776, 1) := by
    have ha : absRel (1 / 10) 1 = 1 / 10 := by norm_num [absRel]
    unfold encComp
    rw [ha, hlor]
    have hq' : ebQuant realOps.toDOps parOnline.base parOnline.logBase parOnline.thr (1 / 10) =
        (1 / 16, 24) := hq
    have hlin' : linQuant realOps.toDOps (realOps.toD (realOps.subT 1 0)) (1 / 16)
        parOnline.capacity parOnline.radius = some 32776 := by
      have : realOps.toD (realOps.subT 1 0) = 1 := by norm_num [realOps]
      rw [this]
      exact hlin
    rw [hq']
    dsimp only
    rw [hlin']
    norm_num [realOps, realD, linOffset, parOnline]
  refine ⟨_, _, by
    unfold compressRel compress
    simp only [scanEnc, encVertex, hb, exOne, hcomp]
    rw [if_pos (by norm_num [realOps, realD])]
    , ?_, ?_, ?_⟩
  · rfl
  · rfl
  · obtain ⟨m', s', h⟩ := Rounded.compress_defined2 realOps parOnline 1 1 absRel
      (boundOnline 1 1 (1 / 10)) (exOne.scale (1 / 2 ^ 60)) (fun f p hp => by
        obtain rfl : p = 0 := by omega
        rw [hb]; rfl)
    have ht := C78_tiny_field_not_compressed 1 1 (1 / 10) _ m' s' (fun p _ => Or.inl (by
      simp only [Field.scale, exOne]
      rw [abs_of_pos (by norm_num)]
      norm_num)) h
    obtain ⟨rfl, h0, -⟩ := ht
    refine ⟨s', h, ?_⟩
    have hl := (compress_lengths realOps parOnline 1 1 absRel (boundOnline 1 1 (1 / 10)) _ _ s' h).1
    match hs : s'.eb, hl, h0 with
    | [a, b], _, h0 => rw [h0 a (by simp), h0 b (by simp)]

end Online2D

/-! ### The block codecs -/

namespace Block
open Buf3

theorem quantize_scale {rT rD lg : ℝ → ℝ} (hDr : IsRounding rD) {c : ℝ} (hc : 0 < c)
    (hT : Scales c rT) (hD : Scales c rD) (pred cur prec : ℝ) (cap R : Int) :
    quantize (roundedQ rT rD lg) (c * pred) (c * cur) (c * prec) cap R =
      ((quantize (roundedQ rT rD lg) pred cur prec cap R).1,
        c * (quantize (roundedQ rT rD lg) pred cur prec cap R).2.1,
        (quantize (roundedQ rT rD lg) pred cur prec cap R).2.2.map (c * ·)) := by
  unfold quantize
  have hdiff : (roundedQ rT rD lg).diff (c * cur) (c * pred) =
      c * (roundedQ rT rD lg).diff cur pred := by
    show rT (_ - _) = c * rT (_ - _)
    rw [← mul_sub, hT]
  have hl : linQuant (roundedQ rT rD lg).toDOps (c * (roundedQ rT rD lg).diff cur pred) (c * prec)
      cap R = linQuant (roundedQ rT rD lg).toDOps ((roundedQ rT rD lg).diff cur pred) prec cap R :=
    linQuant_scale (rT := rT) (lg := lg) hDr hc _ _ _ _
  rw [hdiff, hl]
  cases linQuant (roundedQ rT rD lg).toDOps ((roundedQ rT rD lg).diff cur pred) prec cap R with
  | none => rfl
  | some q =>
    dsimp only
    have hoff : linOffset (roundedQ rT rD lg).toDOps (c * prec) R q =
        c * linOffset (roundedQ rT rD lg).toDOps prec R q :=
      linOffset_scale (rT := rT) (lg := lg) hD prec R q
    rw [hoff]
    generalize linOffset (roundedQ rT rD lg).toDOps prec R q = off
    have hdec : (roundedQ rT rD lg).addTo (c * pred) (c * off) =
        c * (roundedQ rT rD lg).addTo pred off := by
      show rT (rD (_ + _)) = c * rT (rD (_ + _))
      rw [← hT, ← hD, mul_add]
    rw [hdec]
    generalize (roundedQ rT rD lg).addTo pred off = x
    have hdist : (roundedQ rT rD lg).dist (c * x) (c * cur) =
        c * (roundedQ rT rD lg).dist x cur := by
      show |rT (_ - _)| = c * |rT (_ - _)|
      rw [← mul_sub, hT, abs_mul, abs_of_pos hc]
    have hle : (roundedQ rT rD lg).le (c * (roundedQ rT rD lg).dist x cur) (c * prec) =
        (roundedQ rT rD lg).le ((roundedQ rT rD lg).dist x cur) prec := by
      show decide (_ ≤ _) = decide (_ ≤ _)
      simp only [mul_le_mul_iff_right₀ hc]
    rw [hdist, hle]
    split <;> rfl

theorem lor2_scale {rT rF rD lg : ℝ → ℝ} {c : ℝ} (hT : Scales c rT) (hF : Scales c rF)
    (d2 : Nat) (R : Nat → ℝ) (X Y : Nat) :
    lorGrid2 (roundedB rT rF rD lg) d2 (fun p => c * R p) X Y =
      c * lorGrid2 (roundedB rT rF rD lg) d2 R X Y := by
  have hif : ∀ (q : Prop) [Decidable q] (x : ℝ), (if q then (0 : ℝ) else c * x) =
      c * (if q then 0 else x) := by
    intro q _ x; split <;> simp
  unfold lorGrid2
  simp only [roundedB, hif]
  rw [← mul_add, hT, ← mul_sub, hT, hF]

theorem lor3_scale {rT rF rD lg : ℝ → ℝ} {c : ℝ} (hT : Scales c rT) (hF : Scales c rF)
    (d2 d3 : Nat) (o : Nat × Nat × Nat) (R : Nat → ℝ) (X Y Z : Nat) :
    lorGrid3 (roundedB rT rF rD lg) d2 d3 o (fun p => c * R p) X Y Z =
      c * lorGrid3 (roundedB rT rF rD lg) d2 d3 o R X Y Z := by
  have hif : ∀ (q : Prop) [Decidable q] (x : ℝ), (if q then (0 : ℝ) else c * x) =
      c * (if q then 0 else x) := by
    intro q _ x; split <;> simp
  unfold lorGrid3 padAt
  simp only [roundedB, hif]
  rw [← mul_add, hT, ← mul_add, hT, ← mul_sub, hT, ← mul_sub, hT,
    ← mul_sub, hT, ← mul_add, hT, hF]

/-- One point of a codec with one bound per point. -/
theorem lorStep_scale {rT rD lg : ℝ → ℝ} (hDr : IsRounding rD) {c : ℝ} (hc : 0 < c)
    (hT : Scales c rT) (hD : Scales c rD) (G G' : Cfg ℝ ℝ ℝ)
    (hO : G.O = roundedQ rT rD lg) (hO' : G'.O = roundedQ rT rD lg) (hz : G.zeroCheck = true)
    (hz' : G'.zeroCheck = true) (hi : ∀ x, G.isZero x = decide (x = 0))
    (hi' : ∀ x, G'.isZero x = decide (x = 0)) (hm : G.mean = none) (hm' : G'.mean = none)
    (hcap : G'.capL = G.capL) (hrad : G'.radius = G.radius) (pred cur pr : ℝ) :
    lorStep G' (c * pred) (c * cur) (c * pr) =
      ((lorStep G pred cur pr).1, (lorStep G pred cur pr).2.1.map (c * ·),
        c * (lorStep G pred cur pr).2.2) := by
  unfold lorStep
  rw [hz, hz', hi, hi', hm, hm', hO, hO', hcap, hrad]
  have h0 : c * pr = 0 ↔ pr = 0 := by simp [hc.ne']
  simp only [h0, Bool.true_and]
  split
  · rfl
  · rw [quantize_scale hDr hc hT hD]

/-- **C78** The 2D codec with one bound per point, data and bounds in another unit: the values in
the new unit. -/
theorem C78_block_2d {rT rF rD lg : ℝ → ℝ} (hDr : IsRounding rD) {c : ℝ} (hc : 0 < c)
    (hT : Scales c rT) (hF : Scales c rF) (hD : Scales c rD) (data prec : Nat → ℝ)
    (r1 r2 bs : Nat) (h1 : 0 < r1) (h2 : 0 < r2) (hb : 0 < bs) (out0 out1 : Nat → ℝ) :
    ∀ p < r1 * r2, writes out0 (outEb2 (roundedB rT rF rD lg) (fun p => c * data p)
        (fun p => c * prec p) r1 r2 bs).recon p =
      c * writes out1 (outEb2 (roundedB rT rF rD lg) data prec r1 r2 bs).recon p := by
  set B := roundedB rT rF rD lg with hB
  have key : ∀ (data prec out0 : Nat → ℝ), IsRecon B (cfg2 B r2 bs (false, B.zeroT) 32768 prec true
      B.tenth (fun _ _ _ _ => none)) r2 (r1 * r2) data
      (writes out0 (outEb2 B data prec r1 r2 bs).recon) := by
    intro data prec out0 p hp
    exact (plan_recon B r1 r2 bs h1 h2 hb (cfg2 B r2 bs (false, B.zeroT) 32768 prec true B.tenth
      (fun _ _ _ _ => none)) rfl rfl
      (regAt2_buf B) (fun _ _ _ _ => rfl) data
      (List.replicate 3 B.zeroF) out0).1 p hp
  have hR := key data prec out1
  generalize writes out1 (outEb2 B data prec r1 r2 bs).recon = R at hR ⊢
  refine isRecon_unique B _ r2 (r1 * r2) h2 (fun p => c * data p) _ (fun p => c * R p)
    (key _ _ out0) (fun p hp => ?_)
  rw [hB, lor2_scale hT hF, ← hB]
  simp only
  conv_lhs => rw [hR p hp]
  show _ = (lorStep _ (c * _) (c * _) (c * _)).2.2
  rw [lorStep_scale (rT := rT) (rD := rD) (lg := lg) hDr hc hT hD
    (cfg2 B r2 bs (false, B.zeroT) 32768 prec true B.tenth (fun _ _ _ _ => none))
    (cfg2 B r2 bs (false, B.zeroT) 32768 (fun p => c * prec p) true B.tenth (fun _ _ _ _ => none))
    rfl rfl rfl rfl
    (fun _ => rfl) (fun _ => rfl) rfl rfl rfl rfl]
  rfl

/-- **C78** The codes are the same. -/
theorem C78_block_2d_codes {rT rF rD lg : ℝ → ℝ} (hDr : IsRounding rD) {c : ℝ} (hc : 0 < c)
    (hT : Scales c rT) (hF : Scales c rF) (hD : Scales c rD) (data prec : Nat → ℝ)
    (r1 r2 bs : Nat) (h1 : 0 < r1) (h2 : 0 < r2) (hb : 0 < bs) :
    (outEb2 (roundedB rT rF rD lg) (fun p => c * data p) (fun p => c * prec p) r1 r2 bs).ty =
      (outEb2 (roundedB rT rF rD lg) data prec r1 r2 bs).ty := by
  have hval := C78_block_2d (lg := lg) hDr hc hT hF hD data prec r1 r2 bs h1 h2 hb (fun _ => 0)
    (fun _ => 0)
  set B := roundedB rT rF rD lg with hB
  have key : ∀ (data prec : Nat → ℝ), List.Forall₂ (fun (w : Nat × ℝ) t => ∃ un, lorStep
      (cfg2 B r2 bs (false, B.zeroT) 32768 prec true B.tenth (fun _ _ _ _ => none))
      (lorGrid2 B r2 (writes (fun _ => 0) (outEb2 B data prec r1 r2 bs).recon)
        (w.1 / r2) (w.1 % r2)) (data w.1) (prec w.1) = (t, un, w.2))
      (outEb2 B data prec r1 r2 bs).recon (outEb2 B data prec r1 r2 bs).ty := by
    intro data prec
    exact (plan_recon B r1 r2 bs h1 h2 hb (cfg2 B r2 bs (false, B.zeroT) 32768 prec true B.tenth
      (fun _ _ _ _ => none)) rfl rfl
      (regAt2_buf B) (fun _ _ _ _ => rfl) data
      (List.replicate 3 B.zeroF) (fun _ => 0)).2
  have hfst : ∀ data prec, (outEb2 B data prec r1 r2 bs).recon.map Prod.fst =
      positions (planC2 r1 r2 bs) := by
    intro data prec
    unfold outEb2
    rw [runEnc_recon_pos]
  have hpos : ∀ w ∈ (outEb2 B data prec r1 r2 bs).recon, w.1 < r1 * r2 := by
    intro w hw
    have : w.1 ∈ (outEb2 B data prec r1 r2 bs).recon.map Prod.fst := List.mem_map_of_mem hw
    rw [hfst] at this
    exact List.mem_range.1 ((tiling2 r1 r2 bs h1 h2 hb).mem_iff.1 this)
  have k1 := key data prec
  have k2 := key (fun p => c * data p) (fun p => c * prec p)
  have f1 := hfst data prec
  have f2 := hfst (fun p => c * data p) (fun p => c * prec p)
  generalize writes (fun _ => 0) (outEb2 B data prec r1 r2 bs).recon = R at *
  generalize writes (fun _ => 0) (outEb2 B (fun p => c * data p) (fun p => c * prec p) r1 r2
    bs).recon = R' at *
  generalize (outEb2 B data prec r1 r2 bs).recon = l at *
  generalize (outEb2 B (fun p => c * data p) (fun p => c * prec p) r1 r2 bs).recon = l' at *
  rw [← f1] at f2
  obtain ⟨n1, g1⟩ := List.forall₂_iff_get.1 k1
  obtain ⟨n2, g2⟩ := List.forall₂_iff_get.1 k2
  have hll : l'.length = l.length := by
    have := congrArg List.length f2
    simpa using this
  refine List.ext_getElem (by omega) (fun i hi hi' => ?_)
  obtain ⟨un, s1⟩ := g1 i (by omega) hi'
  obtain ⟨un', s2⟩ := g2 i (by omega) hi
  have hq : (l'.get ⟨i, by omega⟩).1 = (l.get ⟨i, by omega⟩).1 := by
    have := List.getElem_of_eq f2 (i := i) (by rw [List.length_map]; omega)
    simpa using this
  have hlt := hpos _ (List.get_mem l ⟨i, by omega⟩)
  rw [hq] at s2
  simp only [List.get_eq_getElem] at s1 s2 hlt hq
  generalize (l[i]'(by omega)) = w at *
  generalize (l'[i]'(by omega)) = w' at *
  generalize (outEb2 B data prec r1 r2 bs).ty[i] = t at *
  generalize (outEb2 B (fun p => c * data p) (fun p => c * prec p) r1 r2 bs).ty[i] = t' at *
  obtain ⟨p, v⟩ := w
  simp only at s1 s2 hlt hq
  have hg : lorGrid2 B r2 R' (p / r2) (p % r2) = c * lorGrid2 B r2 R (p / r2) (p % r2) := by
    rw [hB, ← lor2_scale hT hF]
    have hpe : p = (p / r2) * r2 + p % r2 := by
      rw [Nat.mul_comm]; exact (Nat.div_add_mod p r2).symm
    have hY := Nat.mod_lt p h2
    refine lorGrid2_congr _ _ _ _ _ _ (fun _ => hval _ ?_) (fun h => hval _ ?_)
      (fun h h' => hval _ ?_)
    · omega
    · obtain ⟨X, hX⟩ : ∃ k, p / r2 = k + 1 := Nat.exists_eq_succ_of_ne_zero h.ne'
      rw [hX] at hpe ⊢
      rw [Nat.add_sub_cancel]
      rw [Nat.add_mul] at hpe
      omega
    · obtain ⟨X, hX⟩ : ∃ k, p / r2 = k + 1 := Nat.exists_eq_succ_of_ne_zero h.ne'
      rw [hX] at hpe ⊢
      rw [Nat.add_sub_cancel]
      rw [Nat.add_mul] at hpe
      omega
  rw [hg, lorStep_scale (rT := rT) (rD := rD) (lg := lg) hDr hc hT hD
    (cfg2 B r2 bs (false, B.zeroT) 32768 prec true B.tenth (fun _ _ _ _ => none))
    (cfg2 B r2 bs (false, B.zeroT) 32768 (fun p => c * prec p) true B.tenth (fun _ _ _ _ => none))
    rfl rfl rfl rfl
    (fun _ => rfl) (fun _ => rfl) rfl rfl rfl rfl, s1] at s2
  simp only [Prod.mk.injEq] at s2
  exact s2.1.symm

/-- **C78** The 3D codec with one bound per point. -/
theorem C78_block_3d {rT rF rD lg : ℝ → ℝ} (hDr : IsRounding rD) {c : ℝ} (hc : 0 < c)
    (hT : Scales c rT) (hF : Scales c rF) (hD : Scales c rD) (data prec : Nat → ℝ)
    (r1 r2 r3 bs : Nat) (h1 : 0 < r1) (h2 : 0 < r2) (h3 : 0 < r3) (hb : 0 < bs)
    (out0 out1 : Nat → ℝ) :
    ∀ X < r1, ∀ Y < r2, ∀ Z < r3, writes out0 (outEb3 (roundedB rT rF rD lg)
        (fun p => c * data p) (fun p => c * prec p) r1 r2 r3 bs).recon (idx3 r2 r3 X Y Z) =
      c * writes out1 (outEb3 (roundedB rT rF rD lg) data prec r1 r2 r3 bs).recon
        (idx3 r2 r3 X Y Z) := by
  set B := roundedB rT rF rD lg with hB
  have hR := eb3_recon B data prec r1 r2 r3 bs h1 h2 h3 hb out1
  generalize writes out1 (outEb3 B data prec r1 r2 r3 bs).recon = R at hR ⊢
  refine Buf3.isRecon_unique B ⟨r1, r2, r3, bs, false⟩ (cfgEb3 B r2 r3 bs (fun p => c * prec p))
    (fun _ _ _ _ => rfl) (fun p => c * data p) _ (fun p => c * R p)
    (eb3_recon B _ (fun p => c * prec p) r1 r2 r3 bs h1 h2 h3 hb out0)
    (fun X hX Y hY Z hZ _ => ?_)
  rw [hB, lor3_scale hT hF, ← hB]
  simp only
  conv_lhs => rw [hR X hX Y hY Z hZ rfl]
  show _ = (lorStep _ (c * _) (c * _) (c * _)).2.2
  rw [lorStep_scale (rT := rT) (rD := rD) (lg := lg) hDr hc hT hD
    (cfgEb3 B r2 r3 bs prec) (cfgEb3 B r2 r3 bs (fun p => c * prec p)) rfl rfl rfl rfl
    (fun _ => rfl) (fun _ => rfl) rfl rfl rfl rfl]
  rfl

-- `float` data in metres or in units of `2^10` metres.
example (data : Nat → ℝ) (out0 : Nat → ℝ) : ∀ p < 7 * 9,
    writes out0 (outEb2 (roundedB (fl nearest 24) (fl nearest 24) (fl nearest 53) (Real.logb 2))
      (fun p => (2 : ℝ) ^ (10 : ℤ) * data p)
      (fun p => (2 : ℝ) ^ (10 : ℤ) * (if p % 3 = 0 then 0 else 1 / 10)) 7 9 4).recon p =
    (2 : ℝ) ^ (10 : ℤ) * writes out0 (outEb2 (roundedB (fl nearest 24) (fl nearest 24)
      (fl nearest 53) (Real.logb 2)) data (fun p => if p % 3 = 0 then 0 else 1 / 10) 7 9 4).recon
      p :=
  C78_block_2d (fl_isFloat (p := 53) nearest_rounding (by norm_num)).toIsRounding (by positivity)
    (scales_fl nearest_rounding 24 10) (scales_fl nearest_rounding 24 10)
    (scales_fl nearest_rounding 53 10) data _ 7 9 4 (by norm_num) (by norm_num) (by norm_num)
    out0 out0

end Block

namespace Online2D

-- Both modes for `float` data, any power of two: the hypotheses hold for every field.
example (m : Field ℝ) (maxEb : ℝ) (k : ℤ) :
    compress (roundedOps (fl nearest 24) (fl nearest 53) (Real.logb 2)) (parOnline.scale (2 ^ k))
      5 6 (fun req _ => req) (boundAbsR (fl nearest 24) (fl nearest 24) (fl nearest 53) 5 6
        (2 ^ k * maxEb)) (m.scale (2 ^ k)) =
    (compress (roundedOps (fl nearest 24) (fl nearest 53) (Real.logb 2)) parOnline
      5 6 (fun req _ => req) (boundAbsR (fl nearest 24) (fl nearest 24) (fl nearest 53) 5 6
        maxEb) m).map (fun w => (w.1.scale (2 ^ k), w.2.scale (2 ^ k))) :=
  C78_absolute_partial (fl_isFloat (p := 53) nearest_rounding (by norm_num)).toIsRounding
    (by positivity) (scales_fl nearest_rounding 24 k) (scales_fl nearest_rounding 24 k)
    (scales_fl nearest_rounding 53 k) parOnline 5 6 maxEb m

-- A field above the threshold: nonzero bounds of the absolute mode on a grid without triangles.
example (k : Nat) (m : Field ℝ) : compress realOps parOnline 1 1 (fun req _ => req)
      (boundAbs 1 1 (4 ^ k * (1 / 10))) (m.scale (4 ^ k)) =
    (compress realOps parOnline 1 1 (fun req _ => req) (boundAbs 1 1 (1 / 10)) m).map
      (fun w => (w.1.scale (4 ^ k), ⟨w.2.eb.map (shiftEb k), w.2.dq, w.2.un.map (4 ^ k * ·)⟩)) := by
  refine C78_absolute_shift_partial k 1 1 (1 / 10) m (fun p f req hp _ hb h0 => ?_)
  obtain rfl : p = 0 := by omega
  have hin : ∀ k ∈ [0, 1, 2, 3, 4, 5], Mesh2D.inMesh 1 1 (0 / 1) (0 % 1) k = false := by decide
  unfold boundAbs Mesh2D.requiredEb at hb
  have i0 := hin 0 (by simp)
  have i1 := hin 1 (by simp)
  have i2 := hin 2 (by simp)
  have i3 := hin 3 (by simp)
  have i4 := hin 4 (by simp)
  have i5 := hin 5 (by simp)
  simp only [Mesh2D.requiredLoop, i0, i1, i2, i3, i4, i5, Bool.false_eq_true, if_false,
    Option.map_some, Option.getD_some] at hb
  split at hb
  · obtain rfl := Option.some.inj hb
    exact absurd h0 (lt_irrefl _)
  · obtain rfl := Option.some.inj hb
    norm_num

end Online2D
end CpSZ
