import Verif.Relax.Real
import Verif.Online2D.Real
import Verif.Rounding
/-
Evaluation of the relaxed mode on concrete fields, for the witnesses in `Verif/Props/Relax.lean`.
-/

namespace CpSZ.Online2D.Relax

open CpSZ.Mesh2D

variable {T D : Type}
theorem encVertex_coded {O : ROps T D} {P : Par D} {n : Nat} {chk : Test T} {r1 r2 : Nat}
    {cp : Nat → Bool} {maxEb e : D} {id : Int} {s : Field T × Nat} {p : Nat} {q0 q1 : Int} {x y : T}
    (hz : (O.isZero (s.1.u p) && O.isZero (s.1.v p)) = false)
    (hi : incidentCP r1 r2 cp p [0, 1, 2, 3, 4, 5] = some false)
    (he : ebQuant O.toDOps P.base P.logBase P.thr maxEb = (e, id))
    (hu : tentative O P r2 s.1.u p e = some (q0, x)) (hv : tentative O P r2 s.1.v p e = some (q1, y))
    (hc : verified chk r1 r2 s.1 p x y [0, 1, 2, 3, 4, 5] = some true) :
    encVertex O P n chk r1 r2 cp maxEb s p =
      some ((s.1.set p x y, s.2 + 1), .coded id id q0 q1) := by
  unfold encVertex
  simp only [hz, hi, Bool.false_eq_true, if_false]
  have : relaxLoop O P n chk r1 r2 s.1 p (n - s.2) s.2 maxEb =
      some (s.2 + 1, some ⟨id, q0, q1, x, y⟩) := by
    unfold relaxLoop
    simp only [he, hu, hv, hc]
  rw [this]

theorem encVertex_lossless {O : ROps T D} {P : Par D} {n : Nat} {chk : Test T} {r1 r2 : Nat}
    {cp : Nat → Bool} {maxEb e : D} {id : Int} {s : Field T × Nat} {p : Nat}
    (hi : incidentCP r1 r2 cp p [0, 1, 2, 3, 4, 5] = some false)
    (he : ebQuant O.toDOps P.base P.logBase P.thr maxEb = (e, id))
    (hu : tentative O P r2 s.1.u p e = none) :
    encVertex O P n chk r1 r2 cp maxEb s p = some (s, .lossless (s.1.u p) (s.1.v p)) := by
  unfold encVertex
  split
  · rfl
  · have : relaxLoop O P n chk r1 r2 s.1 p (n - s.2) s.2 maxEb = some (s.2, none) := by
      unfold relaxLoop
      simp only [he, hu]
    simp only [hi, this]

theorem ebQuant_pow {P : Par ℝ} (hb : P.base = 4) (hlb : P.logBase = Real.logb 2 P.base)
    (ht : 0 < P.thr) {k : Nat} {a : ℝ} (h1 : (4 : ℝ) ^ k * P.thr ≤ a) (h2 : a < (4 : ℝ) ^ (k + 1) * P.thr) (h3 : P.thr < a) :
    ebQuant realR.toDOps P.base P.logBase P.thr a = ((4 : ℝ) ^ k * P.thr, (k : Int)) := by
  have hs := ebQuant_spec P.base (by omega) P.thr a ht
  rw [← hlb] at hs
  obtain ⟨h0, -, h, -⟩ := hs
  obtain ⟨e1, e2, e3⟩ := h h3
  have hid : (ebQuant realD P.base P.logBase P.thr a).2 = k := by
    rw [e1] at e2 e3
    rw [show (P.base : ℝ) = 4 by rw [hb]; norm_num] at e2 e3
    generalize (ebQuant realD P.base P.logBase P.thr a).2 = id at *
    obtain ⟨id, rfl⟩ := Int.eq_ofNat_of_zero_le h0
    rw [zpow_natCast] at e2 e3
    have l1 : (4 : ℝ) ^ id < (4 : ℝ) ^ (k + 1) := lt_of_mul_lt_mul_right (e2.trans_lt h2) ht.le
    have l2 : (4 : ℝ) ^ k < (4 : ℝ) ^ (id + 1) := by
      refine lt_of_mul_lt_mul_right (h1.trans_lt e3 |>.trans_eq ?_) ht.le
      ring
    have := (pow_lt_pow_iff_right₀ (by norm_num : (1 : ℝ) < 4)).1 l1
    have := (pow_lt_pow_iff_right₀ (by norm_num : (1 : ℝ) < 4)).1 l2
    omega
  refine Prod.ext ?_ hid
  refine e1.trans ?_
  rw [hid, hb, zpow_natCast]
  norm_num

theorem parOnline_quarter : ebQuant realR.toDOps parOnline.base parOnline.logBase parOnline.thr (1 / 4) = (1 / 4, 25) := by
  obtain ⟨-, p2, p3⟩ := parOnline_ok
  have e : (4 : ℝ) ^ 25 * parOnline.thr = 1 / 4 := by norm_num [parOnline]
  rw [ebQuant_pow rfl p2 p3 (k := 25) e.le (by rw [pow_succ]; linarith) (by norm_num [parOnline]), e]
  rfl

theorem checkCP_false_flat {p0 p1 p2 : ℝ × ℝ} (h1 : p1.2 = p0.2) (h2 : p2.2 = p0.2) :
    checkCP p0 p1 p2 = false := by
  rw [Bool.eq_false_iff, Ne, checkCP_iff, Regular, h1, h2]
  simp

/-- No critical point if the first component is positive wherever the second vanishes. -/
theorem checkCP_false_side {p0 p1 p2 : ℝ × ℝ} 
    (g0 : 0 < p0.1 + 16 * p0.2) (g1 : 0 < p1.1 + 16 * p1.2) (g2 : 0 < p2.1 + 16 * p2.2) :
    checkCP p0 p1 p2 = false := by
  rw [Bool.eq_false_iff, Ne, checkCP_iff]
  rintro ⟨-, a, b, c, ha, hb, hc, hs, hu, hv⟩
  have : 0 = a * (p0.1 + 16 * p0.2) + b * (p1.1 + 16 * p1.2) + c * (p2.1 + 16 * p2.2) := by
    linear_combination -hu - 16 * hv
  rcases ha.lt_or_eq with h | h
  · nlinarith [mul_pos h g0, mul_nonneg hb g1.le, mul_nonneg hc g2.le]
  · rcases hb.lt_or_eq with h' | h'
    · nlinarith [mul_nonneg ha g0.le, mul_pos h' g1, mul_nonneg hc g2.le]
    · have : c = 1 := by linarith
      subst this
      rw [← h, ← h'] at *
      linarith

theorem tentative_near' {P : Par ℝ} {r2 p : Nat} {f : Nat → ℝ} {e pred x : ℝ} (he : 0 < e) {n : ℤ}
    (hp : lorenzo realOps r2 f p = pred) (hx : pred + 2 * n * e = x)
    (h : |f p - x| < e) (hc : |f p - pred| < (P.capacity - 1) * e) :
    tentative realR P r2 f p e = some (n + P.radius, x) := by
  rw [tentative_near he (n := n) (by rw [hp, show ∀ a b : ℝ, a - pred - b = a - (pred + b) from fun a b => by ring, hx]; exact h) (by rw [hp]; exact hc), hp, hx]

/-- A field on a 2 by 2 grid. -/
def fld {T : Type} (z a b c d a' b' c' d' : T) : Field T :=
  ⟨fun q => [a, b, c, d].getD q z, fun q => [a', b', c', d'].getD q z⟩

variable (z a b c d a' b' c' d' x y : T)
theorem fld_set0 : (fld z a b c d a' b' c' d').set 0 x y = fld z x b c d y b' c' d' := by
  simp only [Field.set, fld, Field.mk.injEq]
  constructor <;> funext q <;> rcases q with _ | _ | _ | _ | q <;> rfl
theorem fld_set1 : (fld z a b c d a' b' c' d').set 1 x y = fld z a x c d a' y c' d' := by
  simp only [Field.set, fld, Field.mk.injEq]
  constructor <;> funext q <;> rcases q with _ | _ | _ | _ | q <;> rfl
theorem fld_set2 : (fld z a b c d a' b' c' d').set 2 x y = fld z a b x d a' b' y d' := by
  simp only [Field.set, fld, Field.mk.injEq]
  constructor <;> funext q <;> rcases q with _ | _ | _ | _ | q <;> rfl
theorem fld_set3 : (fld z a b c d a' b' c' d').set 3 x y = fld z a b c x a' b' c' y := by
  simp only [Field.set, fld, Field.mk.injEq]
  constructor <;> funext q <;> rcases q with _ | _ | _ | _ | q <;> rfl

variable {z a b c d a' b' c' d' x y}
theorem fld_verified0 {chk : Test T} : verified chk 2 2 (fld z a b c d a' b' c' d') 0 x y [0, 1, 2, 3, 4, 5] =
    some (!chk (c, c') (d, d') (x, y) && !chk (d, d') (b, b') (x, y)) := by
  show (if chk (c, c') (d, d') (x, y) then some false else if chk (d, d') (b, b') (x, y) then some false else some true) = _
  cases chk (c, c') (d, d') (x, y) <;> cases chk (d, d') (b, b') (x, y) <;> rfl
theorem fld_verified1 {chk : Test T} : verified chk 2 2 (fld z a b c d a' b' c' d') 1 x y [0, 1, 2, 3, 4, 5] =
    some (!chk (a, a') (d, d') (x, y)) := by
  show (if chk (a, a') (d, d') (x, y) then some false else some true) = _
  cases chk (a, a') (d, d') (x, y) <;> rfl
theorem fld_verified2 {chk : Test T} : verified chk 2 2 (fld z a b c d a' b' c' d') 2 x y [0, 1, 2, 3, 4, 5] =
    some (!chk (d, d') (a, a') (x, y)) := by
  show (if chk (d, d') (a, a') (x, y) then some false else some true) = _
  cases chk (d, d') (a, a') (x, y) <;> rfl
theorem fld_verified3 {chk : Test T} : verified chk 2 2 (fld z a b c d a' b' c' d') 3 x y [0, 1, 2, 3, 4, 5] =
    some (!chk (b, b') (a, a') (x, y) && !chk (a, a') (c, c') (x, y)) := by
  show (if chk (b, b') (a, a') (x, y) then some false else if chk (a, a') (c, c') (x, y) then some false else some true) = _
  cases chk (b, b') (a, a') (x, y) <;> cases chk (a, a') (c, c') (x, y) <;> rfl

theorem incident_none : ∀ p, p < 4 → incidentCP 2 2 (fun _ => false) p [0, 1, 2, 3, 4, 5] = some false := by
  decide

theorem parOnline_capacity : (parOnline.capacity : ℝ) = 65536 := by norm_num [parOnline]

theorem truncR_int (n : ℤ) : truncR (n : ℝ) = n := by
  rcases le_total 0 n with h | h
  · rw [truncR_nonneg (by exact_mod_cast h), Int.floor_intCast]
  · rw [show (n : ℝ) = -((-n : ℤ) : ℝ) by push_cast; ring, truncR_neg,
      truncR_nonneg (by exact_mod_cast neg_nonneg.2 h), Int.floor_intCast]
    omega

theorem tentative_rounded {rT rD lg : ℝ → ℝ} {P : Par ℝ} {r2 p : Nat} {f : Nat → ℝ}
    {e pred diff qd : ℝ} (he : e ≠ 0)
    (hp : lorenzo (roundedOps rT rD lg) r2 f p = pred) (hd : rT (f p - pred) = diff)
    (ha : rT (rD (rD (|diff| / e) + 1)) = qd) :
    tentative (roundedR rT rD lg) P r2 f p e =
      (if qd < P.capacity then
        let n := truncR (rT ((if 0 < diff then qd else -qd) / 2))
        some (n + P.radius, rT (rD (pred + rD (rD ((2 * n : ℤ) : ℝ) * e))))
      else none) := by
  unfold tentative
  simp only
  rw [show lorenzo (roundedR rT rD lg).toOps r2 f p = pred from hp]
  rw [show (roundedR rT rD lg).subT (f p) pred = diff from hd]
  simp only [roundedR, he, if_false, ha, decide_eq_true_eq, linOffset, roundedOps, id]
  split
  · simp only [add_sub_cancel_right]
  · rfl

end CpSZ.Online2D.Relax
