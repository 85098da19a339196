import Verif.ThreeD.Bound
import Verif.Offline2D.Bound
/-
Error bound of the 3D offline log mode over ℝ
(`max_eb_to_keep_position_and_type_3d_offline`, src/sz_compress_cp_preserve_3d.cpp L257-351) and
its effect on simultaneous relative perturbations of all four vertices.
-/

namespace CpSZ.Offline3D
open ThreeD Offline2D

/-! ### Model -/

/-- `max_eb_to_keep_sign_3d_offline` (include/sz_cp_preserve_utils.hpp L121-125) with an exact
cube root for `acbrt1`.  In the code `acbrt1(0)` is a tiny positive number, so that two zeros give
0; here `0 / 0 = 0`. -/
noncomputable def keep3 (positive negative : ℝ) : ℝ :=
  |root 3 positive - root 3 negative| / (root 3 positive + root 3 negative)

/-- The terms accumulated for `M0`, …, `M3` (src/sz_compress_cp_preserve_3d.cpp L289-325). -/
def terms0 (_a b c d : V3) : List ℝ :=
  [-(d.u * b.v * c.w), d.u * c.v * b.w, b.u * d.v * c.w, -(c.u * d.v * b.w), -(b.u * c.v * d.w),
    c.u * b.v * d.w]
/-- The terms for `M1` (src/sz_compress_cp_preserve_3d.cpp L299-305). -/
def terms1 (a _b c d : V3) : List ℝ :=
  [-(d.u * c.v * a.w), d.u * a.v * c.w, c.u * d.v * a.w, -(a.u * d.v * c.w), a.u * c.v * d.w,
    -(c.u * a.v * d.w)]
/-- The terms for `M2` (src/sz_compress_cp_preserve_3d.cpp L309-315). -/
def terms2 (a b _c d : V3) : List ℝ :=
  [-(d.u * a.v * b.w), d.u * b.v * a.w, a.u * d.v * b.w, -(b.u * d.v * a.w), -(a.u * b.v * d.w),
    b.u * a.v * d.w]
/-- The terms for `M3` (src/sz_compress_cp_preserve_3d.cpp L319-325). -/
def terms3 (a b c _d : V3) : List ℝ :=
  [a.u * b.v * c.w, -(a.u * c.v * b.w), b.u * c.v * a.w, -(b.u * a.v * c.w), c.u * a.v * b.w,
    -(c.u * b.v * a.w)]

open Classical in
/-- `max_eb_to_keep_position_and_type_3d_offline` (src/sz_compress_cp_preserve_3d.cpp L257-351),
corners in the order of the arguments `0, 1, 2, 3`.  The conversions to `float` are not modelled.
-/
noncomputable def offlineEb3 (a b c d : V3) : ℝ :=
  let u3_0 := -(d.u * b.v * c.w) + d.u * c.v * b.w
  let u3_1 := -(d.u * c.v * a.w) + d.u * a.v * c.w
  let u3_2 := -(d.u * a.v * b.w) + d.u * b.v * a.w
  let v3_0 := b.u * d.v * c.w - c.u * d.v * b.w
  let v3_1 := c.u * d.v * a.w - a.u * d.v * c.w
  let v3_2 := a.u * d.v * b.w - b.u * d.v * a.w
  let w3_0 := -(b.u * c.v * d.w) + c.u * b.v * d.w
  let w3_1 := a.u * c.v * d.w - c.u * a.v * d.w
  let w3_2 := -(a.u * b.v * d.w) + b.u * a.v * d.w
  let c_4 := a.u * b.v * c.w - a.u * c.v * b.w + b.u * c.v * a.w - b.u * a.v * c.w +
    c.u * a.v * b.w - c.u * b.v * a.w
  let M0 := u3_0 + v3_0 + w3_0
  let M1 := u3_1 + v3_1 + w3_1
  let M2 := u3_2 + v3_2 + w3_2
  let M3 := c_4
  let M := M0 + M1 + M2 + M3
  if M = 0 then 0
  else
    let f0 := M0 = 0 ∨ 1 < M / M0
    let f1 := M1 = 0 ∨ 1 < M / M1
    let f2 := M2 = 0 ∨ 1 < M / M2
    let f3 := M3 = 0 ∨ 1 < M / M3
    if f0 ∧ f1 ∧ f2 ∧ f3 then
      if sameDirection a.u b.u c.u d.u || sameDirection a.v b.v c.v d.v ||
        sameDirection a.w b.w c.w d.w then 1 else 0
    else
      let p0 := posSum (terms0 a b c d)
      let n0 := negSum (terms0 a b c d)
      let p1 := posSum (terms1 a b c d)
      let n1 := negSum (terms1 a b c d)
      let p2 := posSum (terms2 a b c d)
      let n2 := negSum (terms2 a b c d)
      let p3 := posSum (terms3 a b c d)
      let n3 := negSum (terms3 a b c d)
      let eb := 0
      let eb := if ¬ f0 then maxf eb (minf (keep3 p0 n0) (keep3 (p1 + p2 + p3) (n1 + n2 + n3))) else eb
      let eb := if ¬ f1 then maxf eb (minf (keep3 p1 n1) (keep3 (p0 + p2 + p3) (n0 + n2 + n3))) else eb
      let eb := if ¬ f2 then maxf eb (minf (keep3 p2 n2) (keep3 (p0 + p1 + p3) (n0 + n1 + n3))) else eb
      let eb := if ¬ f3 then maxf eb (minf (keep3 p3 n3) (keep3 (p0 + p1 + p2) (n0 + n1 + n2))) else eb
      eb

/-! ### One sum -/

theorem root_nonneg (d : ℕ) {x : ℝ} (h : 0 ≤ x) : 0 ≤ root d x := Real.rpow_nonneg h _

theorem keep3_nonneg {p n : ℝ} (hp : 0 ≤ p) (hn : 0 ≤ n) : 0 ≤ keep3 p n :=
  div_nonneg (abs_nonneg _) (add_nonneg (root_nonneg 3 hp) (root_nonneg 3 hn))

theorem keep3_le_one {p n : ℝ} (hp : 0 ≤ p) (hn : 0 ≤ n) : keep3 p n ≤ 1 := by
  have a := root_nonneg 3 hp
  have b := root_nonneg 3 hn
  refine div_le_one_of_le₀ ?_ (add_nonneg a b)
  rw [abs_le]
  constructor <;> linarith

theorem keep3_le (l : List ℝ) : keep3 (posSum l) (negSum l) ≤ keepSgn 3 l := by
  unfold keepSgn
  split
  · exact keep3_le_one (posSum_nonneg l) (negSum_nonneg l)
  · exact le_rfl

theorem posSum_append (l l' : List ℝ) : posSum (l ++ l') = posSum l + posSum l' := by
  simp [posSum]

theorem negSum_append (l l' : List ℝ) : negSum (l ++ l') = negSum l + negSum l' := by
  simp [negSum]

theorem keep3_spec {e : ℝ} {l l' : List ℝ} (he : 0 ≤ e) (h : e < keep3 (posSum l) (negSum l))
    (hs : Scaled 3 e l l') : SignType.sign l'.sum = SignType.sign l.sum ∧ l.sum ≠ 0 := by
  refine ⟨(keepSgn_spec (by norm_num) he (h.trans_le (keep3_le l)) hs).1, fun h0 => ?_⟩
  rw [sum_eq, sub_eq_zero] at h0
  rw [h0] at h
  unfold keep3 at h
  rw [sub_self, abs_zero, zero_div] at h
  linarith

/-- The value of the bound on a sum that vanishes. -/
theorem keep3_zero {l : List ℝ} (h : l.sum = 0) : keep3 (posSum l) (negSum l) = 0 := by
  rw [sum_eq, sub_eq_zero] at h
  unfold keep3
  rw [h, sub_self, abs_zero, zero_div]

theorem sum0 (a b c d : V3) : (terms0 a b c d).sum = minor0 a b c d := by
  simp only [terms0, minor0, List.sum_cons, List.sum_nil]; ring
theorem sum1 (a b c d : V3) : (terms1 a b c d).sum = minor1 a b c d := by
  simp only [terms1, minor1, List.sum_cons, List.sum_nil]; ring
theorem sum2 (a b c d : V3) : (terms2 a b c d).sum = minor2 a b c d := by
  simp only [terms2, minor2, List.sum_cons, List.sum_nil]; ring
theorem sum3 (a b c d : V3) : (terms3 a b c d).sum = minor3 a b c d := by
  simp only [terms3, minor3, List.sum_cons, List.sum_nil]; ring

/-! ### Perturbed terms -/

/-- Componentwise perturbation of a vector. -/
structure PertV (e : ℝ) (a a' : V3) : Prop where
  u : Pert e a.u a'.u
  v : Pert e a.v a'.v
  w : Pert e a.w a'.w

theorem sc3 {e x x' y y' z z' : ℝ} (he0 : 0 ≤ e) (he : e < 1) (h : Pert e x x') (h' : Pert e y y')
    (h'' : Pert e z z') (k : ℝ) {t t' : ℝ} (ht : t = k * (x * y * z)) (ht' : t' = k * (x' * y' * z')) :
    ∃ f, t' = t * f ∧ (1 - e) ^ 3 ≤ f ∧ f ≤ (1 + e) ^ 3 := by
  obtain ⟨f, rfl, h2, h3⟩ := h
  obtain ⟨g, rfl, k2, k3⟩ := h'
  obtain ⟨i, rfl, i2, i3⟩ := h''
  have p : (0 : ℝ) ≤ 1 - e := by linarith
  refine ⟨f * g * i, by rw [ht, ht']; ring, ?_, ?_⟩
  · rw [show (1 - e) ^ 3 = (1 - e) * (1 - e) * (1 - e) by ring]
    exact mul_le_mul (mul_le_mul h2 k2 p (by linarith)) i2 p
      (mul_nonneg (by linarith) (by linarith))
  · rw [show (1 + e) ^ 3 = (1 + e) * (1 + e) * (1 + e) by ring]
    exact mul_le_mul (mul_le_mul h3 k3 (by linarith) (by linarith)) i3 (by linarith)
      (mul_nonneg (by linarith) (by linarith))

section
variable {e : ℝ} {a b c d a' b' c' d' : V3}

theorem scaled0 (he0 : 0 ≤ e) (he : e < 1) (hb : PertV e b b') (hc : PertV e c c')
    (hd : PertV e d d') : Scaled 3 e (terms0 a b c d) (terms0 a' b' c' d') := by
  unfold Scaled terms0
  refine .cons (sc3 he0 he hd.u hb.v hc.w (-1) ?_ ?_) (.cons (sc3 he0 he hd.u hc.v hb.w 1 ?_ ?_)
    (.cons (sc3 he0 he hb.u hd.v hc.w 1 ?_ ?_) (.cons (sc3 he0 he hc.u hd.v hb.w (-1) ?_ ?_)
    (.cons (sc3 he0 he hb.u hc.v hd.w (-1) ?_ ?_) (.cons (sc3 he0 he hc.u hb.v hd.w 1 ?_ ?_)
    .nil))))) <;> ring

theorem scaled1 (he0 : 0 ≤ e) (he : e < 1) (ha : PertV e a a') (hc : PertV e c c')
    (hd : PertV e d d') : Scaled 3 e (terms1 a b c d) (terms1 a' b' c' d') := by
  unfold Scaled terms1
  refine .cons (sc3 he0 he hd.u hc.v ha.w (-1) ?_ ?_) (.cons (sc3 he0 he hd.u ha.v hc.w 1 ?_ ?_)
    (.cons (sc3 he0 he hc.u hd.v ha.w 1 ?_ ?_) (.cons (sc3 he0 he ha.u hd.v hc.w (-1) ?_ ?_)
    (.cons (sc3 he0 he ha.u hc.v hd.w 1 ?_ ?_) (.cons (sc3 he0 he hc.u ha.v hd.w (-1) ?_ ?_)
    .nil))))) <;> ring

theorem scaled2 (he0 : 0 ≤ e) (he : e < 1) (ha : PertV e a a') (hb : PertV e b b')
    (hd : PertV e d d') : Scaled 3 e (terms2 a b c d) (terms2 a' b' c' d') := by
  unfold Scaled terms2
  refine .cons (sc3 he0 he hd.u ha.v hb.w (-1) ?_ ?_) (.cons (sc3 he0 he hd.u hb.v ha.w 1 ?_ ?_)
    (.cons (sc3 he0 he ha.u hd.v hb.w 1 ?_ ?_) (.cons (sc3 he0 he hb.u hd.v ha.w (-1) ?_ ?_)
    (.cons (sc3 he0 he ha.u hb.v hd.w (-1) ?_ ?_) (.cons (sc3 he0 he hb.u ha.v hd.w 1 ?_ ?_)
    .nil))))) <;> ring

theorem scaled3 (he0 : 0 ≤ e) (he : e < 1) (ha : PertV e a a') (hb : PertV e b b')
    (hc : PertV e c c') : Scaled 3 e (terms3 a b c d) (terms3 a' b' c' d') := by
  unfold Scaled terms3
  refine .cons (sc3 he0 he ha.u hb.v hc.w 1 ?_ ?_) (.cons (sc3 he0 he ha.u hc.v hb.w (-1) ?_ ?_)
    (.cons (sc3 he0 he hb.u hc.v ha.w 1 ?_ ?_) (.cons (sc3 he0 he hb.u ha.v hc.w (-1) ?_ ?_)
    (.cons (sc3 he0 he hc.u ha.v hb.w 1 ?_ ?_) (.cons (sc3 he0 he hc.u hb.v ha.w (-1) ?_ ?_)
    .nil))))) <;> ring

end

theorem scaled_append {d : ℕ} {e : ℝ} {l1 l2 l1' l2' : List ℝ} (h1 : Scaled d e l1 l1')
    (h2 : Scaled d e l2 l2') : Scaled d e (l1 ++ l2) (l1' ++ l2') :=
  List.rel_append h1 h2

/-! ### Shape of the bound -/

/-- All flags set: the barycentric coordinates are in `[0, 1)`. -/
theorem cp_of_flags {a b c d : V3} (hM : minorSum a b c d ≠ 0)
    (h : ∀ m ∈ [minor0 a b c d, minor1 a b c d, minor2 a b c d, minor3 a b c d],
      m = 0 ∨ 1 < minorSum a b c d / m) : ThreeD.HasCP [a, b, c, d] := by
  have key : ∀ m, (m = 0 ∨ 1 < minorSum a b c d / m) → 0 ≤ m / minorSum a b c d := by
    rintro m (h | h)
    · rw [h, zero_div]
    · have h0 : 0 < minorSum a b c d / m := by linarith
      rw [← inv_div]
      exact inv_nonneg.2 h0.le
  obtain ⟨k1, k2, k3⟩ := minors_kernel a b c d
  rw [hasCP_four]
  refine ⟨minor0 a b c d / minorSum a b c d, minor1 a b c d / minorSum a b c d,
    minor2 a b c d / minorSum a b c d, minor3 a b c d / minorSum a b c d, key _ (h _ (by simp)),
    key _ (h _ (by simp)), key _ (h _ (by simp)), key _ (h _ (by simp)), ?_, ?_, ?_, ?_⟩
  · rw [← add_div, ← add_div, ← add_div]; exact div_self hM
  · field_simp; linarith
  · field_simp; linarith
  · field_simp; linarith

theorem flags_of_mem {P : ℝ → Prop} {m0 m1 m2 m3 : ℝ} (h0 : P m0) (h1 : P m1) (h2 : P m2)
    (h3 : P m3) : ∀ m ∈ [m0, m1, m2, m3], P m := by
  intro m hm
  simp only [List.mem_cons, List.not_mem_nil, or_false] at hm
  rcases hm with rfl | rfl | rfl | rfl <;> assumption

theorem offlineEb3_cases {a b c d : V3} {e : ℝ} (he : 0 ≤ e) (hlt : e < offlineEb3 a b c d) :
    (Opp a b c d (minor0 a b c d) ∧ e < keep3 (posSum (terms0 a b c d)) (negSum (terms0 a b c d)) ∧
      e < keep3 (posSum (terms1 a b c d ++ terms2 a b c d ++ terms3 a b c d))
        (negSum (terms1 a b c d ++ terms2 a b c d ++ terms3 a b c d))) ∨
    (Opp a b c d (minor1 a b c d) ∧ e < keep3 (posSum (terms1 a b c d)) (negSum (terms1 a b c d)) ∧
      e < keep3 (posSum (terms0 a b c d ++ terms2 a b c d ++ terms3 a b c d))
        (negSum (terms0 a b c d ++ terms2 a b c d ++ terms3 a b c d))) ∨
    (Opp a b c d (minor2 a b c d) ∧ e < keep3 (posSum (terms2 a b c d)) (negSum (terms2 a b c d)) ∧
      e < keep3 (posSum (terms0 a b c d ++ terms1 a b c d ++ terms3 a b c d))
        (negSum (terms0 a b c d ++ terms1 a b c d ++ terms3 a b c d))) ∨
    (Opp a b c d (minor3 a b c d) ∧ e < keep3 (posSum (terms3 a b c d)) (negSum (terms3 a b c d)) ∧
      e < keep3 (posSum (terms0 a b c d ++ terms1 a b c d ++ terms2 a b c d))
        (negSum (terms0 a b c d ++ terms1 a b c d ++ terms2 a b c d))) := by
  have e0 : -(d.u * b.v * c.w) + d.u * c.v * b.w + (b.u * d.v * c.w - c.u * d.v * b.w) +
      (-(b.u * c.v * d.w) + c.u * b.v * d.w) = minor0 a b c d := by unfold minor0; ring
  have e1 : -(d.u * c.v * a.w) + d.u * a.v * c.w + (c.u * d.v * a.w - a.u * d.v * c.w) +
      (a.u * c.v * d.w - c.u * a.v * d.w) = minor1 a b c d := by unfold minor1; ring
  have e2 : -(d.u * a.v * b.w) + d.u * b.v * a.w + (a.u * d.v * b.w - b.u * d.v * a.w) +
      (-(a.u * b.v * d.w) + b.u * a.v * d.w) = minor2 a b c d := by unfold minor2; ring
  have e3 : a.u * b.v * c.w - a.u * c.v * b.w + b.u * c.v * a.w - b.u * a.v * c.w +
    c.u * a.v * b.w - c.u * b.v * a.w = minor3 a b c d := rfl
  unfold offlineEb3 at hlt
  simp only [e0, e1, e2, e3] at hlt
  have eM : minor0 a b c d + minor1 a b c d + minor2 a b c d + minor3 a b c d =
    minorSum a b c d := rfl
  simp only [eM] at hlt
  split at hlt
  · linarith
  · rename_i hM
    split at hlt
    · rename_i hf
      have hcp := cp_of_flags hM (flags_of_mem hf.1 hf.2.1 hf.2.2.1 hf.2.2.2)
      split at hlt
      · rename_i hs
        simp only [Bool.or_eq_true] at hs
        exact absurd hcp (no_cp_same (by tauto))
      · linarith
    · simp only [posSum_append, negSum_append]
      have conv : ∀ m, ¬ (m = 0 ∨ 1 < minorSum a b c d / m) → Opp a b c d m := fun m h => not_flag h
      have step : ∀ {p : Prop} [Decidable p] {eb x : ℝ}, e < (if ¬ p then maxf eb x else eb) →
          e < eb ∨ (¬ p ∧ e < x) := by
        intro p _ eb x h
        split at h
        · rename_i hp
          rcases lt_maxf h with h | h
          · exact Or.inl h
          · exact Or.inr ⟨hp, h⟩
        · exact Or.inl h
      rcases step hlt with hlt | ⟨hf, hlt⟩
      · rcases step hlt with hlt | ⟨hf, hlt⟩
        · rcases step hlt with hlt | ⟨hf, hlt⟩
          · rcases step hlt with hlt | ⟨hf, hlt⟩
            · linarith
            · exact Or.inl ⟨conv _ hf, lt_minf hlt⟩
          · exact Or.inr (Or.inl ⟨conv _ hf, lt_minf hlt⟩)
        · exact Or.inr (Or.inr (Or.inl ⟨conv _ hf, lt_minf hlt⟩))
      · exact Or.inr (Or.inr (Or.inr ⟨conv _ hf, lt_minf hlt⟩))

/-- A minor and the sum of the others keep their signs: there is no critical point before or
after. -/
theorem both_none {a b c d a' b' c' d' : V3} {m m' : ℝ}
    (hm : m = minor0 a b c d ∨ m = minor1 a b c d ∨ m = minor2 a b c d ∨ m = minor3 a b c d)
    (hm' : m' = minor0 a' b' c' d' ∨ m' = minor1 a' b' c' d' ∨ m' = minor2 a' b' c' d' ∨
      m' = minor3 a' b' c' d') (hO : Opp a b c d m)
    (h1 : SignType.sign m' = SignType.sign m)
    (h2 : SignType.sign (minorSum a' b' c' d' - m') = SignType.sign (minorSum a b c d - m))
    (h3 : minorSum a b c d - m ≠ 0) :
    ¬ ThreeD.HasCP [a, b, c, d] ∧ ¬ ThreeD.HasCP [a', b', c', d'] := by
  have hneg : (minorSum a b c d - m) * m < 0 := lt_of_le_of_ne hO.2 (mul_ne_zero h3 hO.1)
  exact ⟨no_cp hm hneg, no_cp hm' (sign_lt_zero_iff h2 h1 hneg)⟩

/-- A cell with a positive bound has no critical point and gets none. -/
theorem offlineEb3_none {a b c d a' b' c' d' : V3} {e : ℝ} (he : 0 ≤ e)
    (hlt : e < offlineEb3 a b c d) (ha : PertV e a a') (hb : PertV e b b') (hc : PertV e c c')
    (hd : PertV e d d') : ¬ ThreeD.HasCP [a, b, c, d] ∧ ¬ ThreeD.HasCP [a', b', c', d'] := by
  have h1 : ∀ p n : ℝ, 0 ≤ p → 0 ≤ n → e < keep3 p n → e < 1 := fun p n hp hn h =>
    h.trans_le (keep3_le_one hp hn)
  have le1 : ∀ l, e < keep3 (posSum l) (negSum l) → e < 1 := fun l h =>
    h1 _ _ (posSum_nonneg l) (negSum_nonneg l) h
  rcases offlineEb3_cases he hlt with ⟨hO, k1, k2⟩ | ⟨hO, k1, k2⟩ | ⟨hO, k1, k2⟩ | ⟨hO, k1, k2⟩ <;>
  · have hl := le1 _ k1
    have s0 := scaled0 (a := a) (a' := a') he hl hb hc hd
    have s1 := scaled1 (b := b) (b' := b') he hl ha hc hd
    have s2 := scaled2 (c := c) (c' := c') he hl ha hb hd
    have s3 := scaled3 (d := d) (d' := d') he hl ha hb hc
    first
    | obtain ⟨x, -⟩ := keep3_spec he k1 s0
      obtain ⟨y, z⟩ := keep3_spec he k2 (scaled_append (scaled_append s1 s2) s3)
      simp only [List.sum_append, sum0, sum1, sum2, sum3] at x y z
      refine both_none (m' := minor0 a' b' c' d') (by tauto) (by tauto) hO x ?_ ?_
      · convert y using 2 <;> · unfold minorSum; ring
      · convert z using 1; unfold minorSum; ring
    | obtain ⟨x, -⟩ := keep3_spec he k1 s1
      obtain ⟨y, z⟩ := keep3_spec he k2 (scaled_append (scaled_append s0 s2) s3)
      simp only [List.sum_append, sum0, sum1, sum2, sum3] at x y z
      refine both_none (m' := minor1 a' b' c' d') (by tauto) (by tauto) hO x ?_ ?_
      · convert y using 2 <;> · unfold minorSum; ring
      · convert z using 1; unfold minorSum; ring
    | obtain ⟨x, -⟩ := keep3_spec he k1 s2
      obtain ⟨y, z⟩ := keep3_spec he k2 (scaled_append (scaled_append s0 s1) s3)
      simp only [List.sum_append, sum0, sum1, sum2, sum3] at x y z
      refine both_none (m' := minor2 a' b' c' d') (by tauto) (by tauto) hO x ?_ ?_
      · convert y using 2 <;> · unfold minorSum; ring
      · convert z using 1; unfold minorSum; ring
    | obtain ⟨x, -⟩ := keep3_spec he k1 s3
      obtain ⟨y, z⟩ := keep3_spec he k2 (scaled_append (scaled_append s0 s1) s2)
      simp only [List.sum_append, sum0, sum1, sum2, sum3] at x y z
      refine both_none (m' := minor3 a' b' c' d') (by tauto) (by tauto) hO x ?_ ?_
      · convert y using 2 <;> · unfold minorSum; ring
      · convert z using 1; unfold minorSum; ring

theorem pertV_refl (a : V3) : PertV 0 a a :=
  ⟨⟨1, by ring, by norm_num, by norm_num⟩, ⟨1, by ring, by norm_num, by norm_num⟩,
    ⟨1, by ring, by norm_num, by norm_num⟩⟩

/-- Cells with a critical point get no bound. -/
theorem offlineEb3_cp {a b c d : V3} (h : ThreeD.HasCP [a, b, c, d]) : offlineEb3 a b c d ≤ 0 := by
  by_contra hc
  exact (offlineEb3_none le_rfl (not_le.1 hc) (pertV_refl a) (pertV_refl b) (pertV_refl c)
    (pertV_refl d)).1 h

theorem offlineEb3_le_one (a b c d : V3) : offlineEb3 a b c d ≤ 1 := by
  by_contra hc
  have le1 : ∀ l, ¬ 1 < keep3 (posSum l) (negSum l) := fun l =>
    not_lt.2 (keep3_le_one (posSum_nonneg l) (negSum_nonneg l))
  rcases offlineEb3_cases zero_le_one (not_le.1 hc) with ⟨-, h, -⟩ | ⟨-, h, -⟩ | ⟨-, h, -⟩ |
    ⟨-, h, -⟩ <;> exact le1 _ h

/-- Componentwise closeness. -/
structure NearV (eb : ℝ) (a a' : V3) : Prop where
  u : Near eb a.u a'.u
  v : Near eb a.v a'.v
  w : Near eb a.w a'.w

theorem nearV_nonpos {eb : ℝ} {a a' : V3} (h : NearV eb a a') (hb : eb ≤ 0) : a' = a := by
  obtain ⟨au, av, aw⟩ := a
  obtain ⟨bu, bv, bw⟩ := a'
  obtain ⟨h1, h2, h3⟩ := h
  simp only [V3.mk.injEq]
  exact ⟨near_nonpos h1 hb, near_nonpos h2 hb, near_nonpos h3 hb⟩

/-- Simultaneous changes of the four corners below the bound neither create nor destroy a
critical point, and cells with a critical point are not changed at all. -/
theorem offlineEb3_kept {a b c d a' b' c' d' : V3} {eb : ℝ} (hle : eb ≤ offlineEb3 a b c d)
    (ha : NearV eb a a') (hb : NearV eb b b') (hc : NearV eb c c') (hd : NearV eb d d') :
    ThreeD.HasCP [a', b', c', d'] ↔ ThreeD.HasCP [a, b, c, d] := by
  rcases le_or_gt eb 0 with h0 | h0
  · rw [nearV_nonpos ha h0, nearV_nonpos hb h0, nearV_nonpos hc h0, nearV_nonpos hd h0]
  · obtain ⟨e, he, he1, hp⟩ := near_common (l := [(a.u, a'.u), (a.v, a'.v), (a.w, a'.w),
      (b.u, b'.u), (b.v, b'.v), (b.w, b'.w), (c.u, c'.u), (c.v, c'.v), (c.w, c'.w),
      (d.u, d'.u), (d.v, d'.v), (d.w, d'.w)]) (eb := eb) (by
        intro p hp
        simp only [List.mem_cons, List.not_mem_nil, or_false] at hp
        rcases hp with rfl | rfl | rfl | rfl | rfl | rfl | rfl | rfl | rfl | rfl | rfl | rfl
        · exact ha.u
        · exact ha.v
        · exact ha.w
        · exact hb.u
        · exact hb.v
        · exact hb.w
        · exact hc.u
        · exact hc.v
        · exact hc.w
        · exact hd.u
        · exact hd.v
        · exact hd.w) h0
    have := offlineEb3_none (a' := a') (b' := b') (c' := c') (d' := d') he (he1.trans_le hle)
      ⟨hp (a.u, a'.u) (by simp), hp (a.v, a'.v) (by simp), hp (a.w, a'.w) (by simp)⟩
      ⟨hp (b.u, b'.u) (by simp), hp (b.v, b'.v) (by simp), hp (b.w, b'.w) (by simp)⟩
      ⟨hp (c.u, c'.u) (by simp), hp (c.v, c'.v) (by simp), hp (c.w, c'.w) (by simp)⟩
      ⟨hp (d.u, d'.u) (by simp), hp (d.v, d'.v) (by simp), hp (d.w, d'.w) (by simp)⟩
    tauto

theorem offlineEb3_nonneg (a b c d : V3) : 0 ≤ offlineEb3 a b c d := by
  have k : ∀ p n : ℝ, 0 ≤ p → 0 ≤ n → 0 ≤ keep3 p n := fun p n hp hn => keep3_nonneg hp hn
  have step : ∀ {p : Prop} [Decidable p] {eb x : ℝ}, 0 ≤ eb → 0 ≤ x →
      0 ≤ (if ¬ p then maxf eb x else eb) := by
    intro p _ eb x h1 h2
    split
    · unfold maxf; split <;> assumption
    · exact h1
  have mn : ∀ {x y : ℝ}, 0 ≤ x → 0 ≤ y → 0 ≤ minf x y := by
    intro x y h1 h2
    unfold minf; split <;> assumption
  have p0 := posSum_nonneg (terms0 a b c d)
  have p1 := posSum_nonneg (terms1 a b c d)
  have p2 := posSum_nonneg (terms2 a b c d)
  have p3 := posSum_nonneg (terms3 a b c d)
  have n0 := negSum_nonneg (terms0 a b c d)
  have n1 := negSum_nonneg (terms1 a b c d)
  have n2 := negSum_nonneg (terms2 a b c d)
  have n3 := negSum_nonneg (terms3 a b c d)
  unfold offlineEb3
  simp only
  split
  · exact le_rfl
  · split
    · split <;> norm_num
    · refine step (step (step (step le_rfl ?_) ?_) ?_) ?_ <;>
      exact mn (k _ _ (by positivity) (by positivity)) (k _ _ (by positivity) (by positivity))

end CpSZ.Offline3D
