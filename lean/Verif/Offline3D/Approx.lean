import Verif.RootsNear
import Verif.FloatErr
import Verif.Offline3D.Real
/-
The bound of the 3D offline log mode as the code computes it: sums converted to `float`, the
approximate cube root `acbrt1`, and quotients in `float` arithmetic
(src/sz_compress_cp_preserve_3d.cpp L257-351, include/sz_cp_preserve_utils.hpp L108-125).
-/

namespace CpSZ.Offline3D
open ThreeD VMode Mesh3D Offline2D Roots

/-! ### Model -/

/-- `float` arithmetic away from overflow and from subnormal numbers: relative error `2^-24`, and
results between `2^-126` and `2^127` are values of bit patterns. -/
structure IsBinary32 (r : ℝ → ℝ) : Prop extends IsFloat r ((2 : ℝ) ^ (-24 : ℤ)) where
  rep : ∀ x, (2 : ℝ) ^ (-126 : ℤ) ≤ x → x ≤ (2 : ℝ) ^ (127 : ℤ) →
    ∃ ix : Nat, ix < 255 * 2 ^ 23 ∧ valF ix = r x

open Classical in
/-- The member `ix` of the union in `acbrt1` (include/sz_cp_preserve_utils.hpp L109): the bit
pattern of a nonnegative `float`. -/
noncomputable def pat (x : ℝ) : Nat :=
  if h : ∃ ix : Nat, ix < 255 * 2 ^ 23 ∧ valF ix = x then h.choose else 0

/-- `max_eb_to_keep_sign_3d_offline` (include/sz_cp_preserve_utils.hpp L121-125). -/
noncomputable def keepA (r : ℝ → ℝ) (positive negative : ℝ) : ℝ :=
  ratio r (acbrt1 r (pat positive)) (acbrt1 r (pat negative))

/-- `p_m1 + p_m2 + p_m3` in `float` arithmetic. -/
def addF (r : ℝ → ℝ) (x y z : ℝ) : ℝ := r (r (x + y) + z)

open Classical in
/-- `max_eb_to_keep_position_and_type_3d_offline` (src/sz_compress_cp_preserve_3d.cpp L257-351)
with the conversions to `float` at L327-328, `float` sums at L329, L334, L339, L344, and the
approximate roots.  The products, the minors `M0`, …, `M`, the flags and the sums of positive and
of negative terms are exact. -/
noncomputable def offlineEbA (r : ℝ → ℝ) (a b c d : V3) : ℝ :=
  let u3_0 := -(d.u * b.v * c.w) + d.u * c.v * b.w
  let u3_1 := -(d.u * c.v * a.w) + d.u * a.v * c.w
  let u3_2 := -(d.u * a.v * b.w) + d.u * b.v * a.w
  let v3_0 := b.u * d.v * c.w - c.u * d.v * b.w
  let v3_1 := c.u * d.v * a.w - a.u * d.v * c.w
  let v3_2 := a.u * d.v * b.w - b.u * d.v * a.w
  let w3_0 := -(b.u * c.v * d.w) + c.u * b.v * d.w
  let w3_1 := a.u * c.v * d.w - c.u * a.v * d.w
  let w3_2 := -(a.u * b.v * d.w) + b.u * a.v * d.w
  let c_4 := a.u * b.v * c.w - a.u * c.v * b.w + b.u * c.v * a.w - b.u * a.v * c.w +
    c.u * a.v * b.w - c.u * b.v * a.w
  let M0 := u3_0 + v3_0 + w3_0
  let M1 := u3_1 + v3_1 + w3_1
  let M2 := u3_2 + v3_2 + w3_2
  let M3 := c_4
  let M := M0 + M1 + M2 + M3
  if M = 0 then 0
  else
    let f0 := M0 = 0 ∨ 1 < M / M0
    let f1 := M1 = 0 ∨ 1 < M / M1
    let f2 := M2 = 0 ∨ 1 < M / M2
    let f3 := M3 = 0 ∨ 1 < M / M3
    if f0 ∧ f1 ∧ f2 ∧ f3 then
      if sameDirection a.u b.u c.u d.u || sameDirection a.v b.v c.v d.v ||
        sameDirection a.w b.w c.w d.w then 1 else 0
    else
      let p0 := r (posSum (terms0 a b c d))
      let n0 := r (negSum (terms0 a b c d))
      let p1 := r (posSum (terms1 a b c d))
      let n1 := r (negSum (terms1 a b c d))
      let p2 := r (posSum (terms2 a b c d))
      let n2 := r (negSum (terms2 a b c d))
      let p3 := r (posSum (terms3 a b c d))
      let n3 := r (negSum (terms3 a b c d))
      let eb := 0
      let eb := if ¬ f0 then maxf eb (minf (keepA r p0 n0) (keepA r (addF r p1 p2 p3) (addF r n1 n2 n3))) else eb
      let eb := if ¬ f1 then maxf eb (minf (keepA r p1 n1) (keepA r (addF r p0 p2 p3) (addF r n0 n2 n3))) else eb
      let eb := if ¬ f2 then maxf eb (minf (keepA r p2 n2) (keepA r (addF r p0 p1 p3) (addF r n0 n1 n3))) else eb
      let eb := if ¬ f3 then maxf eb (minf (keepA r p3 n3) (keepA r (addF r p0 p1 p2) (addF r n0 n1 n2))) else eb
      eb

/-! ### Rounding -/

theorem two24 : (2 : ℝ) ^ (-24 : ℤ) = 1 / 16777216 := by norm_num

section
variable {r : ℝ → ℝ}

theorem IsBinary32.zero (h : IsBinary32 r) : r 0 = 0 := by
  have := h.int 0 (by norm_num)
  exact_mod_cast this

theorem IsBinary32.bd (h : IsBinary32 r) {x : ℝ} (hx : 0 ≤ x) :
    (1 - 6 / 10 ^ 8) * x ≤ r x ∧ r x ≤ (1 + 6 / 10 ^ 8) * x := by
  have := h.rel x
  rw [abs_of_nonneg hx, two24, abs_le] at this
  constructor <;> linarith [this.1, this.2]

theorem IsBinary32.nonneg (h : IsBinary32 r) {x : ℝ} (hx : 0 ≤ x) : 0 ≤ r x := by
  have := (h.bd hx).1
  have : 0 ≤ (1 - 6 / 10 ^ 8 : ℝ) * x := mul_nonneg (by norm_num) hx
  linarith

theorem IsBinary32.fr (h : IsBinary32 r) : IsFloatRounding r := by
  intro x h1 _
  have hx : 0 ≤ x := le_trans (by positivity) h1
  have := h.rel x
  rwa [abs_of_nonneg hx] at this

theorem valF_pos {ix : Nat} (h : 0 < ix) : 0 < valF ix := by
  unfold valF
  split
  · have : (0 : ℝ) < ix := by exact_mod_cast h
    positivity
  · positivity

theorem pat_spec {x : ℝ} (h : ∃ ix : Nat, ix < 255 * 2 ^ 23 ∧ valF ix = x) :
    pat x < 255 * 2 ^ 23 ∧ valF (pat x) = x := by
  unfold pat
  rw [dif_pos h]
  exact h.choose_spec

theorem pat_zero : pat 0 = 0 := by
  by_contra hc
  have h := pat_spec (x := 0) ⟨0, by norm_num, by simp [valF]⟩
  exact (valF_pos (Nat.pos_of_ne_zero hc)).ne' h.2

/-- The cube root of a representable value. -/
theorem acbrt1_pat (h : IsBinary32 r) {x s : ℝ} (h1 : (2 : ℝ) ^ (-126 : ℤ) ≤ x)
    (hx : ∃ ix : Nat, ix < 255 * 2 ^ 23 ∧ valF ix = x) (hs : 0 < s) (he : s ^ 3 = x) :
    (1 - 4 / 10 ^ 7) * s ≤ acbrt1 r (pat x) ∧ acbrt1 r (pat x) ≤ (1 + 17 / 10 ^ 7) * s := by
  obtain ⟨g1, g2⟩ := pat_spec hx
  generalize pat x = ix at g1 g2 ⊢
  have e : ix = 2 ^ 23 * (ix / 2 ^ 23) + ix % 2 ^ 23 := by omega
  have hE : 1 ≤ ix / 2 ^ 23 := by
    by_contra hc
    have h0 : ix / 2 ^ 23 = 0 := by omega
    have hl : ix < 2 ^ 23 := by omega
    unfold valF at g2
    rw [if_pos h0] at g2
    have hl' : (ix : ℝ) < 2 ^ 23 := by exact_mod_cast hl
    rw [← g2] at h1
    have h3 : (ix : ℝ) * 2 ^ (-149 : ℤ) < 2 ^ 23 * 2 ^ (-149 : ℤ) :=
      mul_lt_mul_of_pos_right hl' (by positivity)
    have h4 : (2 : ℝ) ^ 23 * 2 ^ (-149 : ℤ) = 2 ^ (-126 : ℤ) := by norm_num
    rw [h4] at h3
    exact absurd h1 (not_le.2 h3)
  have := acbrt1_near h.fr (E := ix / 2 ^ 23) (m := ix % 2 ^ 23) hE (by omega) (by omega) hs
    (by rw [← e, g2, he])
  rwa [← e] at this

theorem acbrt1_zero_nonneg (h : IsBinary32 r) : 0 ≤ acbrt1 r 0 := by
  have step : ∀ x, 0 ≤ x → 0 ≤ cbrtStep r 0 x := by
    intro x hx
    unfold cbrtStep
    rw [zero_div, h.zero, add_zero]
    exact h.nonneg (mul_nonneg (by unfold third; norm_num)
      (h.nonneg (h.nonneg (by linarith))))
  have hz : valF 0 = 0 := by simp [valF]
  unfold acbrt1
  rw [hz]
  refine step _ (step _ ?_)
  unfold valF
  split <;> positivity

/-! ### The ratio -/

theorem ratio_le (h : IsBinary32 r) {P N k : ℝ} (hs : 0 < P + N) (hk : 0 ≤ k)
    (hd : |P - N| ≤ k * (P + N)) : ratio r P N ≤ (1 + 2 / 10 ^ 7) * k := by
  unfold ratio
  have a1 : |r (P - N)| ≤ (1 + 6 / 10 ^ 8) * |P - N| := by
    rcases le_total 0 (P - N) with h0 | h0
    · rw [abs_of_nonneg (h.nonneg h0), abs_of_nonneg h0]
      exact (h.bd h0).2
    · have e : r (P - N) = - r (-(P - N)) := by rw [h.odd, neg_neg]
      rw [e, abs_neg, abs_of_nonneg (h.nonneg (by linarith)), abs_of_nonpos h0]
      exact (h.bd (by linarith)).2
  have a2 := (h.bd hs.le).1
  have hp : 0 < r (P + N) := lt_of_lt_of_le (mul_pos (by norm_num) hs) a2
  have a3 : |r (P - N)| / r (P + N) ≤ (1 + 13 / 10 ^ 8) * k := by
    rw [div_le_iff₀ hp]
    have b1 : |r (P - N)| ≤ (1 + 6 / 10 ^ 8) * (k * (P + N)) :=
      a1.trans (mul_le_mul_of_nonneg_left hd (by norm_num))
    have b2 : (1 + 13 / 10 ^ 8) * k * ((1 - 6 / 10 ^ 8) * (P + N)) ≤ (1 + 13 / 10 ^ 8) * k * r (P + N) :=
      mul_le_mul_of_nonneg_left a2 (by positivity)
    have b3 : 0 ≤ k * (P + N) := mul_nonneg hk hs.le
    nlinarith
  have h0 : 0 ≤ |r (P - N)| / r (P + N) := div_nonneg (abs_nonneg _) hp.le
  refine (h.bd h0).2.trans ?_
  have : (1 + 6 / 10 ^ 8 : ℝ) * (|r (P - N)| / r (P + N)) ≤ (1 + 6 / 10 ^ 8) * ((1 + 13 / 10 ^ 8) * k) :=
    mul_le_mul_of_nonneg_left a3 (by norm_num)
  nlinarith

/-- Two roots known up to relative errors. -/
theorem diff_le {P N s t k : ℝ} (hP0 : 0 ≤ P) (ht : 0 < t) (hk0 : 0 ≤ k)
    (hk : s - t ≤ k * (s + t)) (hP : P ≤ (1 + 192 / 10 ^ 8) * s) (hN : (1 - 62 / 10 ^ 8) * t ≤ N) :
    P - N ≤ (k + 15 / 10 ^ 7) * (P + N) := by
  have hN0 : 0 < N := lt_of_lt_of_le (mul_pos (by norm_num) ht) hN
  have goal : P * (1 - k - 15 / 10 ^ 7) ≤ N * (1 + k + 15 / 10 ^ 7) := by
    rcases le_or_gt (1 - k - 15 / 10 ^ 7) 0 with h0 | h0
    · have : P * (1 - k - 15 / 10 ^ 7) ≤ 0 := mul_nonpos_of_nonneg_of_nonpos hP0 h0
      have : 0 ≤ N * (1 + k + 15 / 10 ^ 7) := by positivity
      linarith
    · have hk' : 0 < 1 - k := by linarith
      have c1 : P * (1 - k - 15 / 10 ^ 7) ≤ (1 + 192 / 10 ^ 8) * s * (1 - k - 15 / 10 ^ 7) :=
        mul_le_mul_of_nonneg_right hP h0.le
      have c2 : (1 - 62 / 10 ^ 8) * t * (1 + k + 15 / 10 ^ 7) ≤ N * (1 + k + 15 / 10 ^ 7) :=
        mul_le_mul_of_nonneg_right hN (by positivity)
      have c3 : s * (1 - k) ≤ t * (1 + k) := by linarith
      have c4 : (1 + 192 / 10 ^ 8) * (1 - k - 15 / 10 ^ 7) * (1 + k) ≤
          (1 - 62 / 10 ^ 8) * (1 + k + 15 / 10 ^ 7) * (1 - k) := by nlinarith [sq_nonneg k]
      have c5 : (1 + 192 / 10 ^ 8) * s * (1 - k - 15 / 10 ^ 7) ≤
          (1 - 62 / 10 ^ 8) * t * (1 + k + 15 / 10 ^ 7) := by
        have d1 : s * (1 - k) * ((1 + 192 / 10 ^ 8) * (1 - k - 15 / 10 ^ 7)) ≤
            t * (1 + k) * ((1 + 192 / 10 ^ 8) * (1 - k - 15 / 10 ^ 7)) :=
          mul_le_mul_of_nonneg_right c3 (by positivity)
        have d2 := mul_le_mul_of_nonneg_left c4 ht.le
        refine le_of_mul_le_mul_right ?_ hk'
        linarith
      linarith
  linarith

/-! ### A sum and its `float` -/

/-- Zero, or well inside the range of normal `float`s. -/
def InRange (x : ℝ) : Prop := x = 0 ∨ (2 : ℝ) ^ (-125 : ℤ) ≤ x ∧ x ≤ (2 : ℝ) ^ (120 : ℤ)

/-- `y` is a `float` near `x`. -/
structure Conv (x y : ℝ) : Prop where
  zero : x = 0 → y = 0
  rep : 0 < x → (2 : ℝ) ^ (-126 : ℤ) ≤ y ∧ ∃ ix : Nat, ix < 255 * 2 ^ 23 ∧ valF ix = y
  lo : (1 - 2 / 10 ^ 7) * x ≤ y
  hi : y ≤ (1 + 2 / 10 ^ 7) * x

theorem root_cube {x : ℝ} (h : 0 ≤ x) : root 3 x ^ 3 = x := by
  unfold root
  rw [← Real.rpow_natCast, ← Real.rpow_mul h]
  norm_num

theorem root_pos {x : ℝ} (h : 0 < x) : 0 < root 3 x := Real.rpow_pos_of_pos h _

theorem root_conv {x y : ℝ} (hx : 0 < x) (hy : 0 < y) (h1 : (1 - 2 / 10 ^ 7) * x ≤ y)
    (h2 : y ≤ (1 + 2 / 10 ^ 7) * x) :
    (1 - 2 / 10 ^ 7) * root 3 x ≤ root 3 y ∧ root 3 y ≤ (1 + 2 / 10 ^ 7) * root 3 x := by
  have a := root_pos hx
  have b := root_pos hy
  have ea := root_cube hx.le
  have eb := root_cube hy.le
  generalize root 3 x = s at *
  generalize root 3 y = t at *
  subst ea eb
  constructor
  · refine le_of_pow_le_pow_left₀ (n := 3) (by norm_num) b.le (le_trans ?_ h1)
    rw [mul_pow]
    exact mul_le_mul_of_nonneg_right (by norm_num) (by positivity)
  · refine le_of_pow_le_pow_left₀ (n := 3) (by norm_num) (by positivity) (h2.trans ?_)
    rw [mul_pow]
    exact mul_le_mul_of_nonneg_right (by norm_num) (by positivity)

theorem acbrt_conv (h : IsBinary32 r) {x y : ℝ} (hx : 0 < x) (c : Conv x y) :
    (1 - 62 / 10 ^ 8) * root 3 x ≤ acbrt1 r (pat y) ∧
    acbrt1 r (pat y) ≤ (1 + 192 / 10 ^ 8) * root 3 x := by
  obtain ⟨y1, y2⟩ := c.rep hx
  have hy : 0 < y := lt_of_lt_of_le (by positivity) y1
  obtain ⟨a1, a2⟩ := acbrt1_pat h y1 y2 (root_pos hy) (root_cube hy.le)
  clear y1
  obtain ⟨b1, b2⟩ := root_conv hx hy c.lo c.hi
  have hp := root_pos hx
  constructor <;> nlinarith

/-- The sign bound computed by the code exceeds the exact one by at most `2·10^-6`. -/
theorem keepA_le (h : IsBinary32 r) {p n p' n' : ℝ} (hp : 0 ≤ p) (hn : 0 ≤ n) (cp : Conv p p')
    (cn : Conv n n') : keepA r p' n' ≤ keep3 p n + 2 / 10 ^ 6 := by
  unfold keepA
  rcases hp.eq_or_lt with hp0 | hp0
  · rcases hn.eq_or_lt with hn0 | hn0
    · rw [cp.zero hp0.symm, cn.zero hn0.symm, pat_zero, ← hp0, ← hn0]
      unfold ratio
      rw [sub_self, h.zero, abs_zero, zero_div, h.zero]
      have := keep3_nonneg (le_refl (0 : ℝ)) (le_refl (0 : ℝ))
      linarith
    · rw [cp.zero hp0.symm, pat_zero, ← hp0]
      have hN := (acbrt_conv h hn0 cn).1
      have hr := root_pos hn0
      have hP := acbrt1_zero_nonneg h
      have hk : keep3 0 n = 1 := by
        unfold keep3
        have : root 3 (0 : ℝ) = 0 := Real.zero_rpow (by norm_num)
        rw [this, zero_sub, abs_neg, abs_of_pos hr, zero_add, div_self hr.ne']
      rw [hk]
      have hN0 : 0 < acbrt1 r (pat n') := lt_of_lt_of_le (mul_pos (by norm_num) hr) hN
      have := ratio_le h (P := acbrt1 r 0) (N := acbrt1 r (pat n')) (k := 1) (by linarith)
        (by norm_num) (by rw [abs_le]; constructor <;> linarith)
      linarith
  · rcases hn.eq_or_lt with hn0 | hn0
    · rw [cn.zero hn0.symm, pat_zero, ← hn0]
      have hP := (acbrt_conv h hp0 cp).1
      have hr := root_pos hp0
      have hN := acbrt1_zero_nonneg h
      have hk : keep3 p 0 = 1 := by
        unfold keep3
        have : root 3 (0 : ℝ) = 0 := Real.zero_rpow (by norm_num)
        rw [this, sub_zero, abs_of_pos hr, add_zero, div_self hr.ne']
      rw [hk]
      have hP0 : 0 < acbrt1 r (pat p') := lt_of_lt_of_le (mul_pos (by norm_num) hr) hP
      have := ratio_le h (P := acbrt1 r (pat p')) (N := acbrt1 r 0) (k := 1) (by linarith)
        (by norm_num) (by rw [abs_le]; constructor <;> linarith)
      linarith
    · obtain ⟨p1, p2⟩ := acbrt_conv h hp0 cp
      obtain ⟨n1, n2⟩ := acbrt_conv h hn0 cn
      have k0 := keep3_nonneg hp hn
      have k1 := keep3_le_one hp hn
      have rp := root_pos hp0
      have rn := root_pos hn0
      have kd : |root 3 p - root 3 n| = keep3 p n * (root 3 p + root 3 n) := by
        unfold keep3
        rw [div_mul_cancel₀ _ (by linarith)]
      have P0 : 0 < acbrt1 r (pat p') := lt_of_lt_of_le (mul_pos (by norm_num) rp) p1
      have N0 : 0 < acbrt1 r (pat n') := lt_of_lt_of_le (mul_pos (by norm_num) rn) n1
      have d1 := diff_le P0.le rn k0 ((le_abs_self _).trans kd.le) p2 n1
      have d2 := diff_le N0.le rp k0
        (by have := (neg_le_abs (root 3 p - root 3 n)).trans kd.le; linarith) n2 p1
      have := ratio_le h (P := acbrt1 r (pat p')) (N := acbrt1 r (pat n'))
        (k := keep3 p n + 15 / 10 ^ 7) (by linarith) (by positivity)
        (by rw [abs_le]; constructor <;> linarith)
      refine this.trans ?_
      linarith

theorem conv_one (h : IsBinary32 r) {x : ℝ} (hx : InRange x) : Conv x (r x) := by
  rcases hx with rfl | ⟨h1, h2⟩
  · rw [h.zero]
    exact ⟨fun _ => rfl, fun h => absurd h (lt_irrefl _), by simp, by simp⟩
  · have h0 : 0 < x := lt_of_lt_of_le (by positivity) h1
    have h1' : (2 : ℝ) ^ (-126 : ℤ) ≤ x :=
      (zpow_le_zpow_right₀ (by norm_num) (by norm_num)).trans h1
    refine ⟨fun e => absurd e h0.ne', fun _ => ⟨?_, h.rep x h1'
      (h2.trans (zpow_le_zpow_right₀ (by norm_num) (by norm_num)))⟩, ?_, ?_⟩
    · have := h.mono h1'
      rwa [h.pow2all] at this
    · clear h1 h2 h1'
      have := (h.bd h0.le).1
      linarith
    · clear h1 h2 h1'
      have := (h.bd h0.le).2
      linarith

theorem inRange_nonneg {x : ℝ} (h : InRange x) : 0 ≤ x := by
  rcases h with rfl | ⟨h, -⟩
  · exact le_rfl
  · exact le_trans (by positivity) h

theorem inRange_le {x : ℝ} (h : InRange x) : x ≤ (2 : ℝ) ^ (120 : ℤ) := by
  rcases h with rfl | ⟨-, h⟩
  · positivity
  · exact h

theorem inRange_ge {x : ℝ} (h : InRange x) (h0 : 0 < x) : (2 : ℝ) ^ (-125 : ℤ) ≤ x := by
  rcases h with rfl | ⟨h, -⟩
  · exact absurd h0 (lt_irrefl _)
  · exact h

theorem conv_three (h : IsBinary32 r) {x y z : ℝ} (hx : InRange x) (hy : InRange y)
    (hz : InRange z) : Conv (x + y + z) (addF r (r x) (r y) (r z)) := by
  have x0 := inRange_nonneg hx
  have y0 := inRange_nonneg hy
  have z0 := inRange_nonneg hz
  have rx := h.nonneg x0
  have ry := h.nonneg y0
  have rz := h.nonneg z0
  obtain ⟨x1, x2⟩ := h.bd x0
  obtain ⟨y1, y2⟩ := h.bd y0
  obtain ⟨z1, z2⟩ := h.bd z0
  have rs := h.nonneg (add_nonneg rx ry)
  obtain ⟨s1, s2⟩ := h.bd (add_nonneg rx ry)
  have rt := add_nonneg rs rz
  obtain ⟨t1, t2⟩ := h.bd rt
  have lo : (1 - 2 / 10 ^ 7) * (x + y + z) ≤ addF r (r x) (r y) (r z) := by
    unfold addF; linarith
  have hi : addF r (r x) (r y) (r z) ≤ (1 + 2 / 10 ^ 7) * (x + y + z) := by
    unfold addF; linarith
  refine ⟨fun e => ?_, fun h0 => ?_, lo, hi⟩
  · rw [e] at lo hi; linarith
  · have hsum : (2 : ℝ) ^ (-125 : ℤ) ≤ x + y + z := by
      rcases x0.eq_or_lt with e | e
      · rcases y0.eq_or_lt with e' | e'
        · have := inRange_ge hz (by linarith); linarith
        · have := inRange_ge hy e'; linarith
      · have := inRange_ge hx e; linarith
    have hup : x + y + z ≤ 3 * (2 : ℝ) ^ (120 : ℤ) := by
      linarith [inRange_le hx, inRange_le hy, inRange_le hz]
    have lo' : (1 - 14 / 10 ^ 8) * (x + y + z) ≤ r (r x + r y) + r z := by linarith
    have hi' : r (r x + r y) + r z ≤ 2 * (x + y + z) := by linarith
    have g1 : (2 : ℝ) ^ (-126 : ℤ) ≤ r (r x + r y) + r z := by
      have e : (2 : ℝ) ^ (-126 : ℤ) = 1 / 2 * (2 : ℝ) ^ (-125 : ℤ) := by norm_num
      rw [e]
      generalize (2 : ℝ) ^ (-125 : ℤ) = w at hsum
      linarith
    have g2 : r (r x + r y) + r z ≤ (2 : ℝ) ^ (127 : ℤ) := by
      have e : (2 : ℝ) ^ (127 : ℤ) = 128 * (2 : ℝ) ^ (120 : ℤ) := by norm_num
      have e' : (0 : ℝ) < (2 : ℝ) ^ (120 : ℤ) := by positivity
      rw [e]
      generalize (2 : ℝ) ^ (120 : ℤ) = w at hup e'
      linarith
    refine ⟨?_, h.rep _ g1 g2⟩
    have := h.mono g1
    rwa [h.pow2all] at this

/-! ### The bound -/

theorem step_le {P : Prop} [Decidable P] {x y x' y' u v δ : ℝ} (hx : x ≤ x' + δ) (hy : y ≤ y' + δ)
    (h : u ≤ v + δ) :
    (if P then maxf u (minf x y) else u) ≤ (if P then maxf v (minf x' y') else v) + δ := by
  unfold maxf minf
  split_ifs <;> linarith

theorem ite_le {P : Prop} [Decidable P] {a b a' b' δ : ℝ} (h1 : a ≤ a' + δ) (h2 : b ≤ b' + δ) :
    (if P then a else b) ≤ (if P then a' else b') + δ := by
  split <;> assumption

/-- Every sum of positive or of negative terms is zero or well inside the normal range. -/
def SumsInRange (a b c d : V3) : Prop :=
  ∀ l ∈ [terms0 a b c d, terms1 a b c d, terms2 a b c d, terms3 a b c d],
    InRange (posSum l) ∧ InRange (negSum l)

theorem offlineEbA_le (h : IsBinary32 r) {a b c d : V3} (hR : SumsInRange a b c d) :
    offlineEbA r a b c d ≤ offlineEb3 a b c d + 2 / 10 ^ 6 := by
  obtain ⟨p0, n0⟩ := hR (terms0 a b c d) (by simp)
  obtain ⟨p1, n1⟩ := hR (terms1 a b c d) (by simp)
  obtain ⟨p2, n2⟩ := hR (terms2 a b c d) (by simp)
  obtain ⟨p3, n3⟩ := hR (terms3 a b c d) (by simp)
  have one : ∀ {p n : ℝ}, InRange p → InRange n → keepA r (r p) (r n) ≤ keep3 p n + 2 / 10 ^ 6 :=
    fun hp hn => keepA_le h (inRange_nonneg hp) (inRange_nonneg hn) (conv_one h hp) (conv_one h hn)
  have three : ∀ {p p' p'' n n' n'' : ℝ}, InRange p → InRange p' → InRange p'' → InRange n →
      InRange n' → InRange n'' →
      keepA r (addF r (r p) (r p') (r p'')) (addF r (r n) (r n') (r n'')) ≤
        keep3 (p + p' + p'') (n + n' + n'') + 2 / 10 ^ 6 :=
    fun hp hp' hp'' hn hn' hn'' => keepA_le h
      (add_nonneg (add_nonneg (inRange_nonneg hp) (inRange_nonneg hp')) (inRange_nonneg hp''))
      (add_nonneg (add_nonneg (inRange_nonneg hn) (inRange_nonneg hn')) (inRange_nonneg hn''))
      (conv_three h hp hp' hp'') (conv_three h hn hn' hn'')
  have tr : ∀ x : ℝ, x ≤ x + 2 / 10 ^ 6 := fun x => by linarith
  unfold offlineEbA offlineEb3
  refine ite_le (tr _) (ite_le (tr _) ?_)
  exact step_le (one p3 n3) (three p0 p1 p2 n0 n1 n2)
    (step_le (one p2 n2) (three p0 p1 p3 n0 n1 n3)
      (step_le (one p1 n1) (three p0 p2 p3 n0 n2 n3)
        (step_le (one p0 n0) (three p1 p2 p3 n1 n2 n3) (tr 0))))

/-! ### Range of the bound -/

theorem ratio_le_one (h : IsBinary32 r) {P N : ℝ} (hP : 0 ≤ P) (hN : 0 ≤ N) : ratio r P N ≤ 1 := by
  unfold ratio
  have one : r 1 = 1 := by have := h.int 1 (by norm_num); exact_mod_cast this
  have h0 := h.nonneg (add_nonneg hP hN)
  have hle : |r (P - N)| ≤ r (P + N) := by
    rw [abs_le]
    refine ⟨?_, h.mono (by linarith)⟩
    rw [← h.odd]
    exact h.mono (by linarith)
  have := h.mono (div_le_one_of_le₀ hle h0)
  rwa [one] at this

theorem acbrt_nonneg (h : IsBinary32 r) (ix : Nat) : 0 ≤ acbrt1 r ix := by
  have v : ∀ i, 0 ≤ valF i := by
    intro i
    unfold valF
    split <;> positivity
  have step : ∀ x0 x, 0 ≤ x0 → 0 ≤ x → 0 ≤ cbrtStep r x0 x := by
    intro x0 x h0 hx
    unfold cbrtStep
    exact h.nonneg (mul_nonneg (by unfold third; norm_num) (h.nonneg (add_nonneg
      (h.nonneg (by linarith)) (h.nonneg (div_nonneg h0 (h.nonneg (mul_nonneg hx hx)))))))
  unfold acbrt1
  exact step _ _ (v _) (step _ _ (v _) (v _))

theorem keepA_le_one (h : IsBinary32 r) (p n : ℝ) : keepA r p n ≤ 1 :=
  ratio_le_one h (acbrt_nonneg h _) (acbrt_nonneg h _)

theorem offlineEbA_cases {a b c d : V3} {e : ℝ} (he : 0 ≤ e) (hlt : e < offlineEbA r a b c d) :
    (Opp a b c d (minor0 a b c d) ∧
      e < keepA r (r (posSum (terms0 a b c d))) (r (negSum (terms0 a b c d))) ∧
      e < keepA r (addF r (r (posSum (terms1 a b c d))) (r (posSum (terms2 a b c d)))
          (r (posSum (terms3 a b c d))))
        (addF r (r (negSum (terms1 a b c d))) (r (negSum (terms2 a b c d)))
          (r (negSum (terms3 a b c d))))) ∨
    (Opp a b c d (minor1 a b c d) ∧
      e < keepA r (r (posSum (terms1 a b c d))) (r (negSum (terms1 a b c d))) ∧
      e < keepA r (addF r (r (posSum (terms0 a b c d))) (r (posSum (terms2 a b c d)))
          (r (posSum (terms3 a b c d))))
        (addF r (r (negSum (terms0 a b c d))) (r (negSum (terms2 a b c d)))
          (r (negSum (terms3 a b c d))))) ∨
    (Opp a b c d (minor2 a b c d) ∧
      e < keepA r (r (posSum (terms2 a b c d))) (r (negSum (terms2 a b c d))) ∧
      e < keepA r (addF r (r (posSum (terms0 a b c d))) (r (posSum (terms1 a b c d)))
          (r (posSum (terms3 a b c d))))
        (addF r (r (negSum (terms0 a b c d))) (r (negSum (terms1 a b c d)))
          (r (negSum (terms3 a b c d))))) ∨
    (Opp a b c d (minor3 a b c d) ∧
      e < keepA r (r (posSum (terms3 a b c d))) (r (negSum (terms3 a b c d))) ∧
      e < keepA r (addF r (r (posSum (terms0 a b c d))) (r (posSum (terms1 a b c d)))
          (r (posSum (terms2 a b c d))))
        (addF r (r (negSum (terms0 a b c d))) (r (negSum (terms1 a b c d)))
          (r (negSum (terms2 a b c d))))) := by
  have e0 : -(d.u * b.v * c.w) + d.u * c.v * b.w + (b.u * d.v * c.w - c.u * d.v * b.w) +
      (-(b.u * c.v * d.w) + c.u * b.v * d.w) = minor0 a b c d := by unfold minor0; ring
  have e1 : -(d.u * c.v * a.w) + d.u * a.v * c.w + (c.u * d.v * a.w - a.u * d.v * c.w) +
      (a.u * c.v * d.w - c.u * a.v * d.w) = minor1 a b c d := by unfold minor1; ring
  have e2 : -(d.u * a.v * b.w) + d.u * b.v * a.w + (a.u * d.v * b.w - b.u * d.v * a.w) +
      (-(a.u * b.v * d.w) + b.u * a.v * d.w) = minor2 a b c d := by unfold minor2; ring
  have e3 : a.u * b.v * c.w - a.u * c.v * b.w + b.u * c.v * a.w - b.u * a.v * c.w +
    c.u * a.v * b.w - c.u * b.v * a.w = minor3 a b c d := rfl
  unfold offlineEbA at hlt
  simp only [e0, e1, e2, e3] at hlt
  have eM : minor0 a b c d + minor1 a b c d + minor2 a b c d + minor3 a b c d =
    minorSum a b c d := rfl
  simp only [eM] at hlt
  split at hlt
  · linarith
  · rename_i hM
    split at hlt
    · rename_i hf
      have hcp := cp_of_flags hM (flags_of_mem hf.1 hf.2.1 hf.2.2.1 hf.2.2.2)
      split at hlt
      · rename_i hs
        simp only [Bool.or_eq_true] at hs
        exact absurd hcp (no_cp_same (by tauto))
      · linarith
    · have conv : ∀ m, ¬ (m = 0 ∨ 1 < minorSum a b c d / m) → Opp a b c d m := fun m h => not_flag h
      have step : ∀ {p : Prop} [Decidable p] {eb x : ℝ}, e < (if ¬ p then maxf eb x else eb) →
          e < eb ∨ (¬ p ∧ e < x) := by
        intro p _ eb x h
        split at h
        · rename_i hp
          rcases lt_maxf h with h | h
          · exact Or.inl h
          · exact Or.inr ⟨hp, h⟩
        · exact Or.inl h
      rcases step hlt with hlt | ⟨hf, hlt⟩
      · rcases step hlt with hlt | ⟨hf, hlt⟩
        · rcases step hlt with hlt | ⟨hf, hlt⟩
          · rcases step hlt with hlt | ⟨hf, hlt⟩
            · linarith
            · exact Or.inl ⟨conv _ hf, lt_minf hlt⟩
          · exact Or.inr (Or.inl ⟨conv _ hf, lt_minf hlt⟩)
        · exact Or.inr (Or.inr (Or.inl ⟨conv _ hf, lt_minf hlt⟩))
      · exact Or.inr (Or.inr (Or.inr ⟨conv _ hf, lt_minf hlt⟩))

theorem offlineEbA_le_one (h : IsBinary32 r) (a b c d : V3) : offlineEbA r a b c d ≤ 1 := by
  by_contra hc
  rcases offlineEbA_cases zero_le_one (not_le.1 hc) with ⟨-, h1, -⟩ | ⟨-, h1, -⟩ | ⟨-, h1, -⟩ |
    ⟨-, h1, -⟩ <;> exact absurd (keepA_le_one h _ _) (not_le.2 h1)

theorem three_minors {M m x y z : ℝ} (h : M - m = 0) (hx : 0 ≤ (M - x) * x) (hy : 0 ≤ (M - y) * y)
    (hz : 0 ≤ (M - z) * z) (hs : x + y + z = M - m) : x = 0 ∧ y = 0 ∧ z = 0 := by
  have : M * (x + y + z) = 0 := by rw [hs, h, mul_zero]
  refine ⟨?_, ?_, ?_⟩ <;> refine pow_eq_zero_iff (two_ne_zero) |>.1 ?_ <;>
    nlinarith [sq_nonneg x, sq_nonneg y, sq_nonneg z]

theorem keepA_zeros (h : IsBinary32 r) : keepA r (addF r (r 0) (r 0) (r 0)) (addF r (r 0) (r 0) (r 0)) = 0 := by
  unfold keepA ratio
  rw [sub_self, h.zero, abs_zero, zero_div, h.zero]

/-- Cells with a critical point get no bound. -/
theorem offlineEbA_cp (hr : IsBinary32 r) {a b c d : V3} (h : ThreeD.HasCP [a, b, c, d]) :
    offlineEbA r a b c d ≤ 0 := by
  by_contra hc
  have k0 := not_lt.1 fun g => no_cp (m := minor0 a b c d) (Or.inl rfl) g h
  have k1 := not_lt.1 fun g => no_cp (m := minor1 a b c d) (Or.inr (Or.inl rfl)) g h
  have k2 := not_lt.1 fun g => no_cp (m := minor2 a b c d) (Or.inr (Or.inr (Or.inl rfl))) g h
  have k3 := not_lt.1 fun g => no_cp (m := minor3 a b c d) (Or.inr (Or.inr (Or.inr rfl))) g h
  have hM : minorSum a b c d = minor0 a b c d + minor1 a b c d + minor2 a b c d + minor3 a b c d :=
    rfl
  obtain ⟨g1, g2, g3⟩ := minors_kernel a b c d
  have zero : ∀ {m : ℝ}, Opp a b c d m → 0 ≤ (minorSum a b c d - m) * m →
      minorSum a b c d - m = 0 := by
    intro m hO h0
    rcases mul_eq_zero.1 (le_antisymm hO.2 h0) with g | g
    · exact g
    · exact absurd g hO.1
  have cancel : ∀ {m x : ℝ}, Opp a b c d m → m * x = 0 → x = 0 := by
    intro m x hO g
    rcases mul_eq_zero.1 g with g | g
    · exact absurd g hO.1
    · exact g
  rcases offlineEbA_cases le_rfl (not_le.1 hc) with ⟨hO, -, hk⟩ | ⟨hO, -, hk⟩ | ⟨hO, -, hk⟩ |
    ⟨hO, -, hk⟩
  · obtain ⟨z1, z2, z3⟩ := three_minors (zero hO k0) k1 k2 k3 (by linarith)
    rw [z1, z2, z3] at g1 g2 g3
    have u := cancel (x := a.u) hO (by linarith)
    have v := cancel (x := a.v) hO (by linarith)
    have w := cancel (x := a.w) hO (by linarith)
    simp [terms1, terms2, terms3, u, v, w, posSum, negSum, keepA_zeros hr] at hk
  · obtain ⟨z1, z2, z3⟩ := three_minors (zero hO k1) k0 k2 k3 (by linarith)
    rw [z1, z2, z3] at g1 g2 g3
    have u := cancel (x := b.u) hO (by linarith)
    have v := cancel (x := b.v) hO (by linarith)
    have w := cancel (x := b.w) hO (by linarith)
    simp [terms0, terms2, terms3, u, v, w, posSum, negSum, keepA_zeros hr] at hk
  · obtain ⟨z1, z2, z3⟩ := three_minors (zero hO k2) k0 k1 k3 (by linarith)
    rw [z1, z2, z3] at g1 g2 g3
    have u := cancel (x := c.u) hO (by linarith)
    have v := cancel (x := c.v) hO (by linarith)
    have w := cancel (x := c.w) hO (by linarith)
    simp [terms0, terms1, terms3, u, v, w, posSum, negSum, keepA_zeros hr] at hk
  · obtain ⟨z1, z2, z3⟩ := three_minors (zero hO k3) k0 k1 k2 (by linarith)
    rw [z1, z2, z3] at g1 g2 g3
    have u := cancel (x := d.u) hO (by linarith)
    have v := cancel (x := d.v) hO (by linarith)
    have w := cancel (x := d.w) hO (by linarith)
    simp [terms0, terms1, terms2, u, v, w, posSum, negSum, keepA_zeros hr] at hk

/-! ### Grids -/

/-- The sweep with any bound per cell. -/
theorem ebSweep3_le {G : V3 → V3 → V3 → V3 → ℝ} {r1 r2 r3 : Nat} {maxEb : ℝ} {f : Arr ℝ}
    {eb : Nat → ℝ} (h : ebSweep3 realD (onCols G) r1 r2 r3 maxEb f = some eb) :
    (∀ p, eb p ≤ maxEb) ∧
    ∀ t : Tet, t.inGrid r1 r2 r3 → ∃ q0 q1 q2 q3, (t.verts r2 r3).Perm [q0, q1, q2, q3] ∧
      ∀ q ∈ t.verts r2 r3, eb q ≤ G (vec f q0) (vec f q1) (vec f q2) (vec f q3) := by
  have h' := foldlM_eq _ (stepOf realD (onCols G) r2 r3 f) (cells r1 r2 r3)
    (fun _ hx eb => cellStep_eq realD (onCols G) f eb hx) (fun _ => maxEb)
  unfold ebSweep3 at h
  rw [h'] at h
  cases h
  refine ⟨fun p => foldl_le _ p (fun eb x => lower_le _ _ _ _) _ (fun _ => maxEb),
    fun t ht => ?_⟩
  have hx : (t.a, t.b, t.c, t.s) ∈ cells r1 r2 r3 := mem_cells.2 ht
  refine ⟨_, _, _, _, verts_perm hx, fun q hq => ?_⟩
  have hq' := (verts_perm hx).mem_iff.1 hq
  have hq2 : q ∈ [origin r2 r3 (t.a, t.b, t.c, t.s), corner r2 r3 (t.a, t.b, t.c, t.s) 0,
      corner r2 r3 (t.a, t.b, t.c, t.s) 1, corner r2 r3 (t.a, t.b, t.c, t.s) 2] := by
    simp only [List.mem_cons, List.not_mem_nil] at hq' ⊢; tauto
  exact foldl_mem_le (stepOf realD (onCols G) r2 r3 f) q _
    (fun eb x => lower_le _ _ _ _) _ _ hx (fun eb => lower_mem _ _ _ _ hq2) _

/-- A component: zero, or of a magnitude whose threefold products are far from the ends of the
range of `float`. -/
def Moderate (x : ℝ) : Prop := x = 0 ∨ (2 : ℝ) ^ (-41 : ℤ) ≤ |x| ∧ |x| ≤ (2 : ℝ) ^ (39 : ℤ)

/-- Term of a sum. -/
def TermOK (x : ℝ) : Prop := x = 0 ∨ (2 : ℝ) ^ (-125 : ℤ) ≤ |x| ∧ |x| ≤ (2 : ℝ) ^ (117 : ℤ)

theorem termOK_neg {x : ℝ} (h : TermOK x) : TermOK (-x) := by
  unfold TermOK at *
  rw [neg_eq_zero, abs_neg]; exact h

theorem termOK_mul {x y z : ℝ} (hx : Moderate x) (hy : Moderate y) (hz : Moderate z) :
    TermOK (x * y * z) := by
  rcases hx with rfl | ⟨x1, x2⟩
  · exact Or.inl (by ring)
  rcases hy with rfl | ⟨y1, y2⟩
  · exact Or.inl (by ring)
  rcases hz with rfl | ⟨z1, z2⟩
  · exact Or.inl (by ring)
  refine Or.inr ?_
  rw [abs_mul, abs_mul]
  constructor
  · refine le_trans ?_ (mul_le_mul (mul_le_mul x1 y1 (by positivity) (by positivity)) z1
      (by positivity) (by positivity))
    norm_num
  · refine (mul_le_mul (mul_le_mul x2 y2 (by positivity) (by positivity)) z2
      (by positivity) (by positivity)).trans ?_
    norm_num

theorem sums_range : ∀ (l : List ℝ), (∀ x ∈ l, TermOK x) →
    (posSum l = 0 ∨ (2 : ℝ) ^ (-125 : ℤ) ≤ posSum l) ∧ posSum l ≤ l.length * (2 : ℝ) ^ (117 : ℤ) ∧
    (negSum l = 0 ∨ (2 : ℝ) ^ (-125 : ℤ) ≤ negSum l) ∧ negSum l ≤ l.length * (2 : ℝ) ^ (117 : ℤ)
  | [], _ => by simp [posSum, negSum]
  | x :: l, h => by
    obtain ⟨a1, a2, a3, a4⟩ := sums_range l fun y hy => h y (List.mem_cons_of_mem _ hy)
    have ep : posSum (x :: l) = (if 0 ≤ x then x else 0) + posSum l := by simp [posSum]
    have en : negSum (x :: l) = (if 0 ≤ x then 0 else -x) + negSum l := by simp [negSum]
    have p0 := posSum_nonneg l
    have n0 := negSum_nonneg l
    have w : (0 : ℝ) < (2 : ℝ) ^ (117 : ℤ) := by positivity
    have v : (0 : ℝ) < (2 : ℝ) ^ (-125 : ℤ) := by positivity
    have hx := h x (by simp)
    rw [ep, en, List.length_cons]
    push_cast
    unfold TermOK at hx
    generalize (2 : ℝ) ^ (117 : ℤ) = W at *
    generalize (2 : ℝ) ^ (-125 : ℤ) = V at *
    split
    · rename_i hx0
      rw [abs_of_nonneg hx0] at hx
      refine ⟨?_, ?_, ?_, ?_⟩
      · rcases hx with rfl | ⟨b1, b2⟩
        · simpa using a1
        · exact Or.inr (by linarith)
      · rcases hx with rfl | ⟨b1, b2⟩ <;> linarith
      · simpa using a3
      · linarith
    · rename_i hx0
      rw [abs_of_neg (not_le.1 hx0)] at hx
      refine ⟨?_, ?_, ?_, ?_⟩
      · simpa using a1
      · linarith
      · rcases hx with rfl | ⟨b1, b2⟩
        · exact absurd le_rfl hx0
        · exact Or.inr (by linarith)
      · rcases hx with rfl | ⟨b1, b2⟩ <;> linarith

/-- The three components. -/
structure ModV (a : V3) : Prop where
  u : Moderate a.u
  v : Moderate a.v
  w : Moderate a.w

theorem inRange_sums {l : List ℝ} (hl : l.length = 6) (h : ∀ x ∈ l, TermOK x) :
    InRange (posSum l) ∧ InRange (negSum l) := by
  obtain ⟨a1, a2, a3, a4⟩ := sums_range l h
  rw [hl] at a2 a4
  have w : ((6 : ℕ) : ℝ) * (2 : ℝ) ^ (117 : ℤ) ≤ (2 : ℝ) ^ (120 : ℤ) := by norm_num
  constructor
  · rcases a1 with a1 | a1
    · exact Or.inl a1
    · exact Or.inr ⟨a1, a2.trans w⟩
  · rcases a3 with a3 | a3
    · exact Or.inl a3
    · exact Or.inr ⟨a3, a4.trans w⟩

theorem sumsInRange {a b c d : V3} (ha : ModV a) (hb : ModV b) (hc : ModV c) (hd : ModV d) :
    SumsInRange a b c d := by
  have key : ∀ {x y z : V3}, ModV x → ModV y → ModV z →
      TermOK (x.u * y.v * z.w) ∧ TermOK (-(x.u * y.v * z.w)) := fun hx hy hz =>
    ⟨termOK_mul hx.u hy.v hz.w, termOK_neg (termOK_mul hx.u hy.v hz.w)⟩
  intro l hl
  simp only [List.mem_cons, List.not_mem_nil, or_false] at hl
  rcases hl with rfl | rfl | rfl | rfl <;> refine inRange_sums rfl ?_ <;> intro x hx <;>
    simp only [terms0, terms1, terms2, terms3, List.mem_cons, List.not_mem_nil, or_false] at hx <;>
    rcases hx with rfl | rfl | rfl | rfl | rfl | rfl <;>
    first
    | exact (key (by assumption) (by assumption) (by assumption)).1
    | exact (key (by assumption) (by assumption) (by assumption)).2

theorem modV {f : Arr ℝ} {n q : Nat} (hf : ∀ c q, c < 3 → q < n → Moderate (f c q)) (hq : q < n) :
    ModV (vec f q) :=
  ⟨hf 0 q (by omega) hq, hf 1 q (by omega) hq, hf 2 q (by omega) hq⟩

/-- A cell keeps its status under changes below bounds that stay `2·10^-6` below the bound the code
computes for that cell. -/
theorem cell_keptA (h : IsBinary32 r) {r1 r2 r3 : Nat} {f f' : Arr ℝ} {eb : Nat → ℝ}
    (hf : ∀ c q, c < 3 → q < r1 * r2 * r3 → Moderate (f c q))
    (hn : NearField3 (r1 * r2 * r3) eb f f') (t : Tet) (ht : t.inGrid r1 r2 r3)
    {q0 q1 q2 q3 : Nat} (hp : (t.verts r2 r3).Perm [q0, q1, q2, q3])
    (hle : ∀ q ∈ t.verts r2 r3,
      eb q ≤ offlineEbA r (vec f q0) (vec f q1) (vec f q2) (vec f q3) - 2 / 10 ^ 6) :
    cellCP f' (t.verts r2 r3) ↔ cellCP f (t.verts r2 r3) := by
  have hmem : ∀ q, q ∈ [q0, q1, q2, q3] → q ∈ t.verts r2 r3 := fun q hq => hp.mem_iff.2 hq
  have hmod : ∀ q, q ∈ [q0, q1, q2, q3] → ModV (vec f q) := fun q hq =>
    modV hf (tet_lt ht (hmem q hq))
  have hA := offlineEbA_le h (sumsInRange (hmod q0 (by simp)) (hmod q1 (by simp))
    (hmod q2 (by simp)) (hmod q3 (by simp)))
  have hv : ∀ q, q ∈ [q0, q1, q2, q3] →
      NearV (offlineEb3 (vec f q0) (vec f q1) (vec f q2) (vec f q3)) (vec f q) (vec f' q) :=
    fun q hq => nearV_of hn (tet_lt ht (hmem q hq)) (by have := hle q (hmem q hq); linarith)
  have c1 : cellCP f (t.verts r2 r3) ↔ ThreeD.HasCP [vec f q0, vec f q1, vec f q2, vec f q3] :=
    hasCP_perm (hp.map (vec f))
  have c2 : cellCP f' (t.verts r2 r3) ↔ ThreeD.HasCP [vec f' q0, vec f' q1, vec f' q2, vec f' q3] :=
    hasCP_perm (hp.map (vec f'))
  rw [c1, c2]
  exact offlineEb3_kept le_rfl (hv q0 (by simp)) (hv q1 (by simp)) (hv q2 (by simp))
    (hv q3 (by simp))

/-- The offline pass of `sz_compress_cp_preserve_3d_offline_log` with the bounds as the code
computes them; otherwise as `compressOff3`. -/
noncomputable def compressOffA (r : ℝ → ℝ) (r1 r2 r3 : Nat) (maxEb : ℝ) (data : Arr ℝ) :
    Option (State ℝ × Streams ℝ) :=
  match ebSweep3 realD (onCols (offlineEbA r)) r1 r2 r3 maxEb data with
  | none => none
  | some eb => compress (realLog3 (lorenzo3 realOps r2 r3)) (planOff realL 24 eb) (r1 * r2 * r3) data

theorem compressOffA_defined (r : ℝ → ℝ) (r1 r2 r3 : Nat) (maxEb : ℝ) (data : Arr ℝ) :
    ∃ s' str, compressOffA r r1 r2 r3 maxEb data = some (s', str) := by
  obtain ⟨eb, heb⟩ := ebSweep3_defined realD (onCols (offlineEbA r)) r1 r2 r3 maxEb data
  unfold compressOffA
  rw [heb]
  exact compress_defined _ _ _ _ fun _ _ _ => rfl

/-- Bounds are at most 1. -/
theorem ebA_le_one (h : IsBinary32 r) {r1 r2 r3 : Nat} {maxEb : ℝ} {f : Arr ℝ} {eb : Nat → ℝ}
    (he : ebSweep3 realD (onCols (offlineEbA r)) r1 r2 r3 maxEb f = some eb)
    (hs : maxEb ≤ 1 ∨ (2 ≤ r1 ∧ 2 ≤ r2 ∧ 2 ≤ r3)) (p : Nat) (hp : p < r1 * r2 * r3) : eb p ≤ 1 := by
  obtain ⟨h1, h3⟩ := ebSweep3_le he
  rcases hs with hs | ⟨g1, g2, g3⟩
  · exact (h1 p).trans hs
  · obtain ⟨t, ht, hm⟩ := cell_exists hp g1 g2 g3
    obtain ⟨q0, q1, q2, q3, -, hle⟩ := h3 t ht
    exact (hle p hm).trans (offlineEbA_le_one h ..)

end

end CpSZ.Offline3D
