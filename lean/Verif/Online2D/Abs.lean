import Verif.Online2D.Real
/-
The 2D online mode with an absolute error bound in exact arithmetic
(src/sz_compress_cp_preserve_2d.cpp L724-771 and L989-1242).  The loop is that of the relative
mode except for the bound and `abs_eb = required_eb` (L1082-1083); the stream is the same.
-/

namespace CpSZ

/-- `max_eb_to_keep_sign_2d_online_abs` (src/sz_compress_cp_preserve_2d.cpp L725-728); a division
by zero (infinity or NaN) is `none`.  It is proved below that it does not happen. -/
noncomputable def keepAbs (A B C : ℝ) : Option ℝ :=
  if |A| + |B| = 0 then none else some (|C| / (|A| + |B|))

/-- `MINF`, where `none` marks an undefined quotient (include/sz_def.hpp L149-152). -/
noncomputable def optMinf (a b : Option ℝ) : Option ℝ :=
  match a, b with
  | some a, some b => some (minf a b)
  | _, _ => none

/-- `MAX`, where `none` marks an undefined quotient (include/sz_def.hpp L147). -/
noncomputable def optMaxf (a b : Option ℝ) : Option ℝ :=
  match a, b with
  | some a, some b => some (maxf a b)
  | _, _ => none

open Classical in
/-- `derive_cp_eb_for_positions_online_abs` (src/sz_compress_cp_preserve_2d.cpp L732-771). -/
noncomputable def deriveAbs (u0 u1 u2 v0 v1 v2 : ℝ) : Option ℝ :=
  let M0 := u2 * v0 - u0 * v2
  let M1 := u1 * v2 - u2 * v1
  let M2 := u0 * v1 - u1 * v0
  let M := M0 + M1 + M2
  if M = 0 then some 0
  else
    let f1 := M0 = 0 ∨ 1 ≤ M / M0
    let f2 := M1 = 0 ∨ 1 ≤ M / M1
    let f3 := M2 = 0 ∨ 1 ≤ M / M2
    if f1 ∧ f2 ∧ f3 then some 0
    else
      let eb := some 0
      let eb := if ¬ f1 then optMaxf eb (optMinf (keepAbs v0 (-u0) (u2 * v0 - u0 * v2))
        (keepAbs (-v1) u1 (u1 * v2 - u2 * v1 + u0 * v1 - u1 * v0))) else eb
      let eb := if ¬ f2 then optMaxf eb (optMinf (keepAbs (-v1) u1 (u1 * v2 - u2 * v1))
        (keepAbs v0 (-u0) (u2 * v0 - u0 * v2 + u0 * v1 - u1 * v0))) else eb
      let eb := if ¬ f3 then optMaxf eb
        (keepAbs (v0 - v1) (u1 - u0) (u2 * v0 - u0 * v2 + u1 * v2 - u2 * v1)) else eb
      eb

theorem keepAbs_some {A B C : ℝ} (h : ¬ (A = 0 ∧ B = 0)) :
    keepAbs A B C = some (|C| / (|A| + |B|)) ∧ 0 < |A| + |B| := by
  have hne : |A| + |B| ≠ 0 := by
    intro h0
    have h1 := abs_nonneg A
    have h2 := abs_nonneg B
    exact h ⟨abs_eq_zero.1 (by linarith), abs_eq_zero.1 (by linarith)⟩
  exact ⟨by unfold keepAbs; rw [if_neg hne], lt_of_le_of_ne (by positivity) (Ne.symm hne)⟩

theorem keepAbs_spec {A B C x y e : ℝ} (h : 0 < |A| + |B|) (hle : e ≤ |C| / (|A| + |B|))
    (hx : |x| < e) (hy : |y| < e) : 0 < C * (C + (A * x + B * y)) := by
  rw [le_div_iff₀ h] at hle
  have h1 := abs_lin_lt (p := A) (q := B) hx hy h.ne'
  have h2 : |A * x + B * y| < |C| := by linarith
  rcases lt_or_ge C 0 with hC | hC
  · rw [abs_of_neg hC, abs_lt] at h2
    exact mul_pos_of_neg_of_neg hC (by linarith)
  · rw [abs_of_nonneg hC, abs_lt] at h2
    have : 0 < C := by
      rcases eq_or_lt_of_le hC with h0 | h0
      · rw [← h0] at h2; linarith
      · exact h0
    exact mul_pos this (by linarith)

section step
variable {u0 u1 u2 v0 v1 v2 : ℝ}

/-- The four combinations of flags and the value of the bound. -/
theorem deriveAbs_cases :
    ∃ E, deriveAbs u0 u1 u2 v0 v1 v2 = some E ∧ ∀ e, 0 < e → e ≤ E →
      ¬ HasCP (u0, v0) (u1, v1) (u2, v2) ∧
      ∀ u2' v2', |u2' - u2| < e → |v2' - v2| < e → ¬ HasCP (u0, v0) (u1, v1) (u2', v2') := by
  by_cases hM : (u2 * v0 - u0 * v2) + (u1 * v2 - u2 * v1) + (u0 * v1 - u1 * v0) = 0
  · refine ⟨0, by unfold deriveAbs; simp only; rw [if_pos hM], fun e h1 h2 => ?_⟩
    linarith
  by_cases hcp : HasCP (u0, v0) (u1, v1) (u2, v2)
  · refine ⟨0, ?_, fun e h1 h2 => by linarith⟩
    unfold deriveAbs; simp only
    rw [if_neg hM, if_pos ((flags_hasCP hM).1 hcp)]
  have hf := fun h => hcp ((flags_hasCP hM).2 h)
  unfold deriveAbs; simp only
  rw [if_neg hM, if_neg hf]
  -- each branch: defined, and excludes critical points
  have b1 : ¬ (u2 * v0 - u0 * v2 = 0 ∨ 1 ≤ ((u2 * v0 - u0 * v2) + (u1 * v2 - u2 * v1) +
      (u0 * v1 - u1 * v0)) / (u2 * v0 - u0 * v2)) →
      ∃ E, optMinf (keepAbs v0 (-u0) (u2 * v0 - u0 * v2))
        (keepAbs (-v1) u1 (u1 * v2 - u2 * v1 + u0 * v1 - u1 * v0)) = some E ∧
      ∀ e, e ≤ E → ∀ u2' v2', |u2' - u2| < e → |v2' - v2| < e →
        ¬ HasCP (u0, v0) (u1, v1) (u2', v2') := by
    intro hfl
    rw [flag_iff hM] at hfl
    push Not at hfl
    obtain ⟨k1, p1⟩ := keepAbs_some (A := v0) (B := -u0) (C := u2 * v0 - u0 * v2) (by
      rintro ⟨h1, h2⟩
      have : u0 = 0 := by linarith
      rw [h1, this] at hfl; simp at hfl)
    obtain ⟨k2, p2⟩ := keepAbs_some (A := -v1) (B := u1)
      (C := u1 * v2 - u2 * v1 + u0 * v1 - u1 * v0) (by
      rintro ⟨h1, h2⟩
      have : v1 = 0 := by linarith
      rw [h2, this] at hfl; simp at hfl)
    rw [k1, k2]
    refine ⟨_, rfl, fun e he u2' v2' hu hv => ?_⟩
    have s1 := keepAbs_spec p1 (he.trans (minf_le_left _ _)) hu hv
    have s2 := keepAbs_spec p2 (he.trans (minf_le_right _ _)) hu hv
    apply not_hasCP_of_opp rfl rfl rfl rfl
    left
    rw [show u2 * v0 - u0 * v2 + (v0 * (u2' - u2) + -u0 * (v2' - v2)) = u2' * v0 - u0 * v2' by
      ring] at s1
    rw [show u1 * v2 - u2 * v1 + u0 * v1 - u1 * v0 + (-v1 * (u2' - u2) + u1 * (v2' - v2)) =
      u2' * v0 - u0 * v2' + (u1 * v2' - u2' * v1) + (u0 * v1 - u1 * v0) -
        (u2' * v0 - u0 * v2') by ring] at s2
    generalize u2' * v0 - u0 * v2' + (u1 * v2' - u2' * v1) + (u0 * v1 - u1 * v0) -
        (u2' * v0 - u0 * v2') = Z at *
    generalize u2' * v0 - u0 * v2' = Y at *
    rcases pos_cases s1 with ⟨a, b⟩ | ⟨a, b⟩ <;> rcases pos_cases s2 with ⟨c, d⟩ | ⟨c, d⟩ <;>
      nlinarith
  have b2 : ¬ (u1 * v2 - u2 * v1 = 0 ∨ 1 ≤ ((u2 * v0 - u0 * v2) + (u1 * v2 - u2 * v1) +
      (u0 * v1 - u1 * v0)) / (u1 * v2 - u2 * v1)) →
      ∃ E, optMinf (keepAbs (-v1) u1 (u1 * v2 - u2 * v1))
        (keepAbs v0 (-u0) (u2 * v0 - u0 * v2 + u0 * v1 - u1 * v0)) = some E ∧
      ∀ e, e ≤ E → ∀ u2' v2', |u2' - u2| < e → |v2' - v2| < e →
        ¬ HasCP (u0, v0) (u1, v1) (u2', v2') := by
    intro hfl
    rw [flag_iff hM] at hfl
    push Not at hfl
    obtain ⟨k1, p1⟩ := keepAbs_some (A := -v1) (B := u1) (C := u1 * v2 - u2 * v1) (by
      rintro ⟨h1, h2⟩
      have : v1 = 0 := by linarith
      rw [h2, this] at hfl; simp at hfl)
    obtain ⟨k2, p2⟩ := keepAbs_some (A := v0) (B := -u0)
      (C := u2 * v0 - u0 * v2 + u0 * v1 - u1 * v0) (by
      rintro ⟨h1, h2⟩
      have : u0 = 0 := by linarith
      rw [h1, this] at hfl; simp at hfl)
    rw [k1, k2]
    refine ⟨_, rfl, fun e he u2' v2' hu hv => ?_⟩
    have s1 := keepAbs_spec p1 (he.trans (minf_le_left _ _)) hu hv
    have s2 := keepAbs_spec p2 (he.trans (minf_le_right _ _)) hu hv
    apply not_hasCP_of_opp rfl rfl rfl rfl
    right; left
    rw [show u1 * v2 - u2 * v1 + (-v1 * (u2' - u2) + u1 * (v2' - v2)) = u1 * v2' - u2' * v1 by
      ring] at s1
    rw [show u2 * v0 - u0 * v2 + u0 * v1 - u1 * v0 + (v0 * (u2' - u2) + -u0 * (v2' - v2)) =
      u2' * v0 - u0 * v2' + (u1 * v2' - u2' * v1) + (u0 * v1 - u1 * v0) -
        (u1 * v2' - u2' * v1) by ring] at s2
    generalize u2' * v0 - u0 * v2' + (u1 * v2' - u2' * v1) + (u0 * v1 - u1 * v0) -
        (u1 * v2' - u2' * v1) = Z at *
    generalize u1 * v2' - u2' * v1 = Y at *
    rcases pos_cases s1 with ⟨a, b⟩ | ⟨a, b⟩ <;> rcases pos_cases s2 with ⟨c, d⟩ | ⟨c, d⟩ <;>
      nlinarith
  have b3 : ¬ (u0 * v1 - u1 * v0 = 0 ∨ 1 ≤ ((u2 * v0 - u0 * v2) + (u1 * v2 - u2 * v1) +
      (u0 * v1 - u1 * v0)) / (u0 * v1 - u1 * v0)) →
      ∃ E, keepAbs (v0 - v1) (u1 - u0) (u2 * v0 - u0 * v2 + u1 * v2 - u2 * v1) = some E ∧
      ∀ e, e ≤ E → ∀ u2' v2', |u2' - u2| < e → |v2' - v2| < e →
        ¬ HasCP (u0, v0) (u1, v1) (u2', v2') := by
    intro hfl
    rw [flag_iff hM] at hfl
    push Not at hfl
    obtain ⟨k1, p1⟩ := keepAbs_some (A := v0 - v1) (B := u1 - u0)
      (C := u2 * v0 - u0 * v2 + u1 * v2 - u2 * v1) (by
      rintro ⟨h1, h2⟩
      have e1 : v0 = v1 := by linarith
      have e2 : u1 = u0 := by linarith
      rw [e1, e2] at hfl; simp at hfl)
    rw [k1]
    refine ⟨_, rfl, fun e he u2' v2' hu hv => ?_⟩
    have s1 := keepAbs_spec p1 he hu hv
    apply not_hasCP_of_opp rfl rfl rfl rfl
    right; right
    have hfl' : (u0 * v1 - u1 * v0) * (u2 * v0 - u0 * v2 + u1 * v2 - u2 * v1) < 0 := by
      calc _ = _ := by ring
        _ < 0 := hfl
    rw [show u2 * v0 - u0 * v2 + u1 * v2 - u2 * v1 +
      ((v0 - v1) * (u2' - u2) + (u1 - u0) * (v2' - v2)) =
      u2' * v0 - u0 * v2' + (u1 * v2' - u2' * v1) + (u0 * v1 - u1 * v0) -
        (u0 * v1 - u1 * v0) by ring] at s1
    generalize u2' * v0 - u0 * v2' + (u1 * v2' - u2' * v1) + (u0 * v1 - u1 * v0) -
        (u0 * v1 - u1 * v0) = Z at *
    generalize u0 * v1 - u1 * v0 = Y at *
    rcases pos_cases s1 with ⟨a, b⟩ | ⟨a, b⟩ <;> nlinarith
  -- accumulate the maximum
  set P : ℝ → Prop := fun E => ∀ e, 0 < e → e ≤ E → ¬ HasCP (u0, v0) (u1, v1) (u2, v2) ∧
      ∀ u2' v2', |u2' - u2| < e → |v2' - v2| < e → ¬ HasCP (u0, v0) (u1, v1) (u2', v2') with hP
  have hmax : ∀ a b : Option ℝ, (∃ E, a = some E ∧ P E) → (∃ E, b = some E ∧ ∀ e, e ≤ E →
      ∀ u2' v2', |u2' - u2| < e → |v2' - v2| < e → ¬ HasCP (u0, v0) (u1, v1) (u2', v2')) →
      ∃ E, optMaxf a b = some E ∧ P E := by
    rintro a b ⟨E, rfl, hE⟩ ⟨E', rfl, hE'⟩
    refine ⟨_, rfl, fun e h1 h2 => ?_⟩
    rcases le_maxf_iff _ _ _ h2 with h | h
    · exact hE e h1 h
    · exact ⟨hcp, hE' e h⟩
  have h0 : ∃ E, (some 0 : Option ℝ) = some E ∧ P E :=
    ⟨0, rfl, fun e h1 h2 => by linarith⟩
  have h1 : ∀ (c : Prop) [Decidable c] (a b : Option ℝ), (∃ E, a = some E ∧ P E) →
      (c → ∃ E, b = some E ∧ ∀ e, e ≤ E →
        ∀ u2' v2', |u2' - u2| < e → |v2' - v2| < e → ¬ HasCP (u0, v0) (u1, v1) (u2', v2')) →
      ∃ E, (if c then optMaxf a b else a) = some E ∧ P E := by
    intro c _ a b ha hb
    split
    · rename_i hc; exact hmax a b ha (hb hc)
    · exact ha
  exact h1 _ _ _ (h1 _ _ _ (h1 _ _ _ h0 b1) b2) b3

end step

namespace Online2D
open Mesh2D

/-- `required_eb` in absolute mode (src/sz_compress_cp_preserve_2d.cpp L1053-1074). -/
noncomputable def boundAbs (r1 r2 : Nat) (maxEb : ℝ) (m : Field ℝ) (p : Nat) : Option ℝ :=
  if m.u p = 0 ∨ m.v p = 0 then some 0
  else (requiredEb r1 r2 (some maxEb) minfX (fun _ => deriveAbs) m p).map (·.getD 0)

/-- The 2D online compressor with absolute bound in exact arithmetic.
(src/sz_compress_cp_preserve_2d.cpp L989-1242.) -/
noncomputable def compressAbs (r1 r2 : Nat) (maxEb : ℝ) (m : Field ℝ) :
    Option (Field ℝ × Streams ℝ) :=
  compress realOps parOnline r1 r2 (fun req _ => req) (boundAbs r1 r2 maxEb) m

theorem step_abs {r1 r2 : Nat} {maxEb : ℝ} {f : Field ℝ} {p : Nat} {x y : ℝ} (hp : p < r1 * r2)
    (h : Step realOps parOnline r2 (fun req _ => req) (boundAbs r1 r2 maxEb) f p x y) :
    ∃ req, 0 < req ∧ req ≤ maxEb ∧ |x - f.u p| < req ∧ |y - f.v p| < req ∧
      ∀ k, k < 6 → inMesh r1 r2 (p / r2) (p % r2) k = true → ∃ E,
        deriveAbs (f.u (nbr r2 p k)) (f.u (nbr r2 p (k + 1))) (f.u p)
          (f.v (nbr r2 p k)) (f.v (nbr r2 p (k + 1))) (f.v p) = some E ∧ req ≤ E := by
  obtain ⟨req, e0, q0, e1, q1, hb, hlt, h0, h1⟩ := h
  obtain ⟨p1, p2, p3⟩ := parOnline_ok
  have hpos : 0 < req := by
    have : (realOps.ofInt 0 : ℝ) < req := of_decide_eq_true hlt
    simpa [realOps, realD] using this
  have hr2 : 0 < r2 := by
    rcases Nat.eq_zero_or_pos r2 with h0 | h0
    · subst h0; omega
    · exact h0
  have hi : p / r2 < r1 := by rw [Nat.div_lt_iff_lt_mul hr2]; exact hp
  have hj : p % r2 < r2 := Nat.mod_lt _ hr2
  have hpe : p / r2 * r2 + p % r2 = p := by
    have := Nat.div_add_mod p r2
    rw [Nat.mul_comm] at this; exact this
  unfold boundAbs at hb
  split at hb
  · simp only [Option.some.injEq] at hb; linarith
  · have hks : ∀ k ∈ [0, 1, 2, 3, 4, 5], k < 6 := by simp
    obtain ⟨E, hE, hle, hall⟩ := requiredLoop_le r1 r2 (fun _ => deriveAbs) f (p / r2) (p % r2)
      hi hj [0, 1, 2, 3, 4, 5] hks maxEb (fun k hk _ => by
        obtain ⟨E, hE, -⟩ := deriveAbs_cases (u0 := f.u (nbr r2 (p / r2 * r2 + p % r2) k))
          (u1 := f.u (nbr r2 (p / r2 * r2 + p % r2) (k + 1))) (u2 := f.u (p / r2 * r2 + p % r2))
          (v0 := f.v (nbr r2 (p / r2 * r2 + p % r2) k))
          (v1 := f.v (nbr r2 (p / r2 * r2 + p % r2) (k + 1))) (v2 := f.v (p / r2 * r2 + p % r2))
        rw [hE]; simp)
    rw [hpe] at hE hall
    unfold requiredEb at hb
    rw [hE] at hb
    simp only [Option.map_some, Option.getD_some, Option.some.injEq] at hb
    subst hb
    refine ⟨E, hpos, hle, encComp_real p1 p2 p3 h0, encComp_real p1 p2 p3 h1,
      fun k hk hm => hall k ?_ hm⟩
    simp; omega

/-- A vertex update that keeps every incident triangle's critical point status keeps that of
every triangle. -/
theorem set_hasCP {r1 r2 : Nat} {f : Field ℝ} {p : Nat} {x y : ℝ} (hp : p < r1 * r2)
    (h : ∀ k, k < 6 → inMesh r1 r2 (p / r2) (p % r2) k = true →
      (HasCP (f.u (nbr r2 p k), f.v (nbr r2 p k)) (f.u (nbr r2 p (k + 1)), f.v (nbr r2 p (k + 1)))
        (f.u p, f.v p) ↔
      HasCP (f.u (nbr r2 p k), f.v (nbr r2 p k)) (f.u (nbr r2 p (k + 1)), f.v (nbr r2 p (k + 1)))
        (x, y))) (t : Tri) (ht : t.inGrid r1 r2) :
    t.hasCP r2 f ↔ t.hasCP r2 (f.set p x y) := by
  have hr2 : 0 < r2 := by
    rcases Nat.eq_zero_or_pos r2 with h0 | h0
    · subst h0; omega
    · exact h0
  have hi : p / r2 < r1 := by rw [Nat.div_lt_iff_lt_mul hr2]; exact hp
  have hj : p % r2 < r2 := Nat.mod_lt _ hr2
  have hpe : p / r2 * r2 + p % r2 = p := by
    have := Nat.div_add_mod p r2
    rw [Nat.mul_comm] at this; exact this
  rcases tri_cases r1 r2 (p / r2) (p % r2) hi hj t ht with ⟨k, hk, hm, rfl⟩ | hsame
  · obtain ⟨-, -, hn0, hn1, hcp, -⟩ := tri_flat r1 r2 (p / r2) (p % r2) k hi hj hk hm
    rw [hpe] at hn0 hn1 hcp
    have hcp' := hcp (f.set p x y)
    rw [show (f.set p x y).u (nbr r2 p k) = f.u (nbr r2 p k) from setAt_ne _ _ _ _ hn0,
      show (f.set p x y).u (nbr r2 p (k + 1)) = f.u (nbr r2 p (k + 1)) from setAt_ne _ _ _ _ hn1,
      show (f.set p x y).v (nbr r2 p k) = f.v (nbr r2 p k) from setAt_ne _ _ _ _ hn0,
      show (f.set p x y).v (nbr r2 p (k + 1)) = f.v (nbr r2 p (k + 1)) from setAt_ne _ _ _ _ hn1,
      show (f.set p x y).u p = x from setAt_same _ _ _,
      show (f.set p x y).v p = y from setAt_same _ _ _] at hcp'
    rw [hcp f, hcp']
    exact h k hk hm
  · exact (hsame f (f.set p x y) (fun q hq => by
      rw [hpe] at hq
      exact ⟨(setAt_ne _ _ _ _ hq).symm, (setAt_ne _ _ _ _ hq).symm⟩)).1

/-- Invariant of the absolute mode. -/
structure AbsInv (r1 r2 : Nat) (maxEb : ℝ) (m : Field ℝ) (p : Nat) (f : Field ℝ) : Prop where
  later : ∀ q, p ≤ q → f.u q = m.u q ∧ f.v q = m.v q
  close : ∀ q, (f.u q = m.u q ∨ |f.u q - m.u q| < maxEb) ∧ (f.v q = m.v q ∨ |f.v q - m.v q| < maxEb)
  cp : ∀ t : Tri, t.inGrid r1 r2 → (t.hasCP r2 m ↔ t.hasCP r2 f)
  exact : ∀ t : Tri, t.inGrid r1 r2 → t.hasCP r2 m → ∀ P ∈ t.verts,
    f.u (P.1 * r2 + P.2) = m.u (P.1 * r2 + P.2) ∧ f.v (P.1 * r2 + P.2) = m.v (P.1 * r2 + P.2)

theorem absInv_step {r1 r2 : Nat} {maxEb : ℝ} {m f : Field ℝ} {p : Nat} {x y : ℝ}
    (hp : p < r1 * r2) (hI : AbsInv r1 r2 maxEb m p f)
    (h : Step realOps parOnline r2 (fun req _ => req) (boundAbs r1 r2 maxEb) f p x y) :
    AbsInv r1 r2 maxEb m (p + 1) (f.set p x y) := by
  obtain ⟨req, hpos, hle, hx, hy, hall⟩ := step_abs hp h
  obtain ⟨eu, ev⟩ := hI.later p (le_refl p)
  have hno : ∀ k, k < 6 → inMesh r1 r2 (p / r2) (p % r2) k = true →
      ¬ HasCP (f.u (nbr r2 p k), f.v (nbr r2 p k))
        (f.u (nbr r2 p (k + 1)), f.v (nbr r2 p (k + 1))) (f.u p, f.v p) ∧
      ¬ HasCP (f.u (nbr r2 p k), f.v (nbr r2 p k))
        (f.u (nbr r2 p (k + 1)), f.v (nbr r2 p (k + 1))) (x, y) := by
    intro k hk hm
    obtain ⟨E, hE, hEle⟩ := hall k hk hm
    obtain ⟨E', hE', hs⟩ := deriveAbs_cases (u0 := f.u (nbr r2 p k))
      (u1 := f.u (nbr r2 p (k + 1))) (u2 := f.u p) (v0 := f.v (nbr r2 p k))
      (v1 := f.v (nbr r2 p (k + 1))) (v2 := f.v p)
    rw [hE] at hE'
    cases hE'
    obtain ⟨s1, s2⟩ := hs req hpos hEle
    exact ⟨s1, s2 x y hx hy⟩
  have hr2 : 0 < r2 := by
    rcases Nat.eq_zero_or_pos r2 with h0 | h0
    · subst h0; omega
    · exact h0
  have hi : p / r2 < r1 := by rw [Nat.div_lt_iff_lt_mul hr2]; exact hp
  have hj : p % r2 < r2 := Nat.mod_lt _ hr2
  have hpe : p / r2 * r2 + p % r2 = p := by
    have := Nat.div_add_mod p r2
    rw [Nat.mul_comm] at this; exact this
  refine ⟨fun q hq => ?_, fun q => ?_, fun t ht => ?_, fun t ht hc P hP => ?_⟩
  · have hqp : q ≠ p := by omega
    have := hI.later q (by omega)
    simp only [Field.set, setAt, hqp, if_false]
    exact this
  · by_cases hqp : q = p
    · subst hqp
      simp only [Field.set, setAt, if_true]
      rw [eu] at hx
      rw [ev] at hy
      exact ⟨Or.inr (lt_of_lt_of_le hx hle), Or.inr (lt_of_lt_of_le hy hle)⟩
    · simp only [Field.set, setAt, hqp, if_false]
      exact hI.close q
  · rw [hI.cp t ht]
    exact set_hasCP hp (fun k hk hm =>
      ⟨fun h => absurd h (hno k hk hm).1, fun h => absurd h (hno k hk hm).2⟩) t ht
  · by_cases hPp : P.1 * r2 + P.2 = p
    · exfalso
      have hcol : P.2 < r2 := by
        unfold Tri.inGrid at ht
        unfold Tri.verts at hP
        split at hP <;> simp only [List.mem_cons, List.not_mem_nil, or_false] at hP <;>
          rcases hP with rfl | rfl | rfl <;> simp only <;> omega
      obtain ⟨e1, e2⟩ := flat_inj hcol hj (hPp.trans hpe.symm)
      have hv : (p / r2, p % r2) ∈ t.verts := by rw [← e1, ← e2]; exact hP
      obtain ⟨k, hk, hm, htk, -⟩ := incident_unique r1 r2 _ _ t hi hj ht hv
      obtain ⟨-, -, -, -, hcp, -⟩ := tri_flat r1 r2 (p / r2) (p % r2) k hi hj hk hm
      rw [hpe, htk] at hcp
      exact (hno k hk hm).1 ((hcp f).1 ((hI.cp t ht).1 hc))
    · have := hI.exact t ht hc P hP
      simp only [Field.set, setAt, hPp, if_false]
      exact this

end Online2D
end CpSZ
