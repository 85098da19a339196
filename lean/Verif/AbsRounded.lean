import Verif.Online2D.Abs
import Verif.RoundedRun
/-
The error bound formulas of the 2D online absolute mode in rounded arithmetic
(src/sz_compress_cp_preserve_2d.cpp L724-771): `rT` rounds to the element type, `rD` to `double`.
`fabs` of an element is an element or a `double`, depending on which overload the compiler selects,
so sums and quotients of such values are rounded by a third function `rF`.

Products and sums are rounded one by one (no fused operations); there is no overflow and no
underflow.
-/

namespace CpSZ
open CpSZ.Mesh2D

/-- `max_eb_to_keep_sign_2d_online_abs` (src/sz_compress_cp_preserve_2d.cpp L725-728); a division
by zero (infinity or NaN) is `none`.  It is proved below that it does not happen. -/
noncomputable def keepAbsR (rF : ℝ → ℝ) (A B C : ℝ) : Option ℝ :=
  if rF (|A| + |B|) = 0 then none else some (rF (|C| / rF (|A| + |B|)))

open Classical in
/-- `derive_cp_eb_for_positions_online_abs` (src/sz_compress_cp_preserve_2d.cpp L732-771).  The
minors are computed in the element type and then converted to `double`. -/
noncomputable def deriveAbsR (rT rF rD : ℝ → ℝ) (u0 u1 u2 v0 v1 v2 : ℝ) : Option ℝ :=
  let M0 := rT (rT (u2 * v0) - rT (u0 * v2))
  let M1 := rT (rT (u1 * v2) - rT (u2 * v1))
  let M2 := rT (rT (u0 * v1) - rT (u1 * v0))
  let M := rD (rD (M0 + M1) + M2)
  if M = 0 then some 0
  else
    let f1 := M0 = 0 ∨ 1 ≤ rD (M / M0)
    let f2 := M1 = 0 ∨ 1 ≤ rD (M / M1)
    let f3 := M2 = 0 ∨ 1 ≤ rD (M / M2)
    if f1 ∧ f2 ∧ f3 then some 0
    else
      let eb := some 0
      let eb := if ¬ f1 then optMaxf eb (optMinf
        (keepAbsR rF v0 (-u0) (rT (rT (u2 * v0) - rT (u0 * v2))))
        (keepAbsR rF (-v1) u1
          (rT (rT (rT (rT (u1 * v2) - rT (u2 * v1)) + rT (u0 * v1)) - rT (u1 * v0))))) else eb
      let eb := if ¬ f2 then optMaxf eb (optMinf
        (keepAbsR rF (-v1) u1 (rT (rT (u1 * v2) - rT (u2 * v1))))
        (keepAbsR rF v0 (-u0)
          (rT (rT (rT (rT (u2 * v0) - rT (u0 * v2)) + rT (u0 * v1)) - rT (u1 * v0))))) else eb
      let eb := if ¬ f3 then optMaxf eb
        (keepAbsR rF (rT (v0 - v1)) (rT (u1 - u0))
          (rT (rT (rT (rT (u2 * v0) - rT (u0 * v2)) + rT (u1 * v2)) - rT (u2 * v1)))) else eb
      eb

theorem deriveAbsR_id (u0 u1 u2 v0 v1 v2 : ℝ) :
    deriveAbsR id id id u0 u1 u2 v0 v1 v2 = deriveAbs u0 u1 u2 v0 v1 v2 := rfl

/-- What the theorems about the flags need of the arithmetic: roundings are monotone, keep zero,
nothing else becomes zero, one is a `double` and so is every element. -/
structure MonoRounding (rT rF rD : ℝ → ℝ) : Prop where
  monoT : Monotone rT
  zeroT : ∀ x, rT x = 0 ↔ x = 0
  zeroF : ∀ x, rF x = 0 ↔ x = 0
  monoD : Monotone rD
  zeroD : rD 0 = 0
  oneD : rD 1 = 1
  sub : ∀ x, rD (rT x) = rT x

section
variable {rT rF rD : ℝ → ℝ} (H : MonoRounding rT rF rD) {u0 u1 u2 v0 v1 v2 : ℝ}
include H

/-- A computed difference of products has the sign of the exact one, or is zero. -/
theorem MonoRounding.minor_nonneg {a b : ℝ} (h : 0 ≤ a - b) : 0 ≤ rT (rT a - rT b) := by
  have h1 := H.monoT (show b ≤ a by linarith)
  have h2 := H.monoT (show 0 ≤ rT a - rT b by linarith)
  rwa [(H.zeroT 0).2 rfl] at h2

theorem MonoRounding.minor_nonpos {a b : ℝ} (h : a - b ≤ 0) : rT (rT a - rT b) ≤ 0 := by
  have h1 := H.monoT (show a ≤ b by linarith)
  have h2 := H.monoT (show rT a - rT b ≤ 0 by linarith)
  rwa [(H.zeroT 0).2 rfl] at h2

/-- Minors of one sign pass the three tests. -/
theorem MonoRounding.flags {a b c : ℝ} (ha : rD a = a) (hb : rD b = b) (hc : rD c = c)
    (h : (0 ≤ a ∧ 0 ≤ b ∧ 0 ≤ c) ∨ (a ≤ 0 ∧ b ≤ 0 ∧ c ≤ 0)) :
    (a = 0 ∨ 1 ≤ rD (rD (rD (a + b) + c) / a)) ∧ (b = 0 ∨ 1 ≤ rD (rD (rD (a + b) + c) / b)) ∧
      (c = 0 ∨ 1 ≤ rD (rD (rD (a + b) + c) / c)) := by
  have key : ∀ x, (0 < x → x ≤ rD (rD (a + b) + c)) → (x < 0 → rD (rD (a + b) + c) ≤ x) →
      x = 0 ∨ 1 ≤ rD (rD (rD (a + b) + c) / x) := by
    intro x h1 h2
    rcases lt_trichotomy x 0 with hx | hx | hx
    · right
      have := H.monoD (show 1 ≤ rD (rD (a + b) + c) / x by
        rw [le_div_iff_of_neg hx]; linarith [h2 hx])
      rwa [H.oneD] at this
    · exact Or.inl hx
    · right
      have := H.monoD (show 1 ≤ rD (rD (a + b) + c) / x by
        rw [le_div_iff₀ hx]; linarith [h1 hx])
      rwa [H.oneD] at this
  rcases h with ⟨p0, p1, p2⟩ | ⟨p0, p1, p2⟩
  · have e0 := H.monoD (show a ≤ a + b by linarith)
    have e1 := H.monoD (show b ≤ a + b by linarith)
    have e2 := H.monoD (show 0 ≤ a + b by linarith)
    rw [ha] at e0
    rw [hb] at e1
    rw [H.zeroD] at e2
    have k0 := H.monoD (show a ≤ rD (a + b) + c by linarith)
    have k1 := H.monoD (show b ≤ rD (a + b) + c by linarith)
    have k2 := H.monoD (show c ≤ rD (a + b) + c by linarith)
    rw [ha] at k0
    rw [hb] at k1
    rw [hc] at k2
    exact ⟨key a (fun _ => k0) (fun h => by linarith), key b (fun _ => k1) (fun h => by linarith),
      key c (fun _ => k2) (fun h => by linarith)⟩
  · have e0 := H.monoD (show a + b ≤ a by linarith)
    have e1 := H.monoD (show a + b ≤ b by linarith)
    have e2 := H.monoD (show a + b ≤ 0 by linarith)
    rw [ha] at e0
    rw [hb] at e1
    rw [H.zeroD] at e2
    have k0 := H.monoD (show rD (a + b) + c ≤ a by linarith)
    have k1 := H.monoD (show rD (a + b) + c ≤ b by linarith)
    have k2 := H.monoD (show rD (a + b) + c ≤ c by linarith)
    rw [ha] at k0
    rw [hb] at k1
    rw [hc] at k2
    exact ⟨key a (fun h => by linarith) (fun _ => k0), key b (fun h => by linarith) (fun _ => k1),
      key c (fun h => by linarith) (fun _ => k2)⟩

/-- The computed bound of a triangle with a critical point is zero. -/
theorem MonoRounding.deriveAbsR_cp (h : HasCP (u0, v0) (u1, v1) (u2, v2)) :
    deriveAbsR rT rF rD u0 u1 u2 v0 v1 v2 = some 0 := by
  obtain ⟨a, b, c, ha, hb, hc, hs, e1, e2⟩ := h
  simp only at e1 e2
  set M := (u2 * v0 - u0 * v2) + (u1 * v2 - u2 * v1) + (u0 * v1 - u1 * v0) with hM
  have hc' : c = 1 - a - b := by linarith
  have k0 : u2 * v0 - u0 * v2 = b * M := by
    rw [hM]; subst hc'
    linear_combination (-(v2 - v0)) * e1 + (u2 - u0) * e2
  have k1 : u1 * v2 - u2 * v1 = a * M := by
    rw [hM]; subst hc'
    linear_combination (v2 - v1) * e1 - (u2 - u1) * e2
  have k2 : u0 * v1 - u1 * v0 = c * M := by
    rw [hM] at k0 k1 ⊢; subst hc'
    linear_combination (-1 : ℝ) * k0 - k1
  have hsig : (0 ≤ rT (rT (u2 * v0) - rT (u0 * v2)) ∧ 0 ≤ rT (rT (u1 * v2) - rT (u2 * v1)) ∧
      0 ≤ rT (rT (u0 * v1) - rT (u1 * v0))) ∨ (rT (rT (u2 * v0) - rT (u0 * v2)) ≤ 0 ∧
      rT (rT (u1 * v2) - rT (u2 * v1)) ≤ 0 ∧ rT (rT (u0 * v1) - rT (u1 * v0)) ≤ 0) := by
    rcases le_total 0 M with h | h
    · left
      exact ⟨H.minor_nonneg (by rw [k0]; exact mul_nonneg hb h),
        H.minor_nonneg (by rw [k1]; exact mul_nonneg ha h),
        H.minor_nonneg (by rw [k2]; exact mul_nonneg hc h)⟩
    · right
      exact ⟨H.minor_nonpos (by rw [k0]; exact mul_nonpos_of_nonneg_of_nonpos hb h),
        H.minor_nonpos (by rw [k1]; exact mul_nonpos_of_nonneg_of_nonpos ha h),
        H.minor_nonpos (by rw [k2]; exact mul_nonpos_of_nonneg_of_nonpos hc h)⟩
  have hf := H.flags (H.sub _) (H.sub _) (H.sub _) hsig
  unfold deriveAbsR
  simp only
  split
  · rfl
  · first | rw [if_pos hf] | rfl

theorem MonoRounding.keepAbsR_some {A B : ℝ} (C : ℝ) (h : ¬ (A = 0 ∧ B = 0)) :
    ∃ x, keepAbsR rF A B C = some x := by
  unfold keepAbsR
  rw [if_neg]
  · exact ⟨_, rfl⟩
  · rw [H.zeroF]
    intro h0
    have h1 := abs_nonneg A
    have h2 := abs_nonneg B
    exact h ⟨abs_eq_zero.1 (by linarith), abs_eq_zero.1 (by linarith)⟩

/-- The computed bound is a number. -/
theorem MonoRounding.deriveAbsR_defined : ∃ x, deriveAbsR rT rF rD u0 u1 u2 v0 v1 v2 = some x := by
  have z : rT 0 = 0 := (H.zeroT 0).2 rfl
  have hmin : ∀ a b : Option ℝ, (∃ x, a = some x) → (∃ x, b = some x) →
      ∃ x, optMinf a b = some x := by
    rintro a b ⟨x, rfl⟩ ⟨y, rfl⟩; exact ⟨_, rfl⟩
  have hmax : ∀ (c : Prop) [Decidable c] (a b : Option ℝ), (∃ x, a = some x) →
      (c → ∃ x, b = some x) → ∃ x, (if c then optMaxf a b else a) = some x := by
    rintro c _ a b ⟨x, rfl⟩ hb
    split
    · rename_i hc; obtain ⟨y, rfl⟩ := hb hc; exact ⟨_, rfl⟩
    · exact ⟨x, rfl⟩
  unfold deriveAbsR
  simp only
  split
  · exact ⟨0, rfl⟩
  split
  · exact ⟨0, rfl⟩
  rename_i hM hf
  refine hmax _ _ _ (hmax _ _ _ (hmax _ _ _ ⟨0, rfl⟩ ?_) ?_) ?_
  · intro hf1
    refine hmin _ _ (H.keepAbsR_some _ ?_) (H.keepAbsR_some _ ?_)
    · rintro ⟨h1, h2⟩
      have h2' : u0 = 0 := by linarith
      exact hf1 (Or.inl (by rw [h1, h2', mul_zero, zero_mul, sub_self, z]))
    · rintro ⟨h1, h2⟩
      have h1' : v1 = 0 := by linarith
      rw [h1', h2] at hf1
      simp only [mul_zero, zero_mul, sub_self, z, add_zero, H.sub] at hf1
      by_cases h0 : rT (rT (u2 * v0) - rT (u0 * v2)) = 0
      · exact hf1 (Or.inl h0)
      · exact hf1 (Or.inr (by rw [div_self h0, H.oneD]))
  · intro hf1
    refine hmin _ _ (H.keepAbsR_some _ ?_) (H.keepAbsR_some _ ?_)
    · rintro ⟨h1, h2⟩
      have h1' : v1 = 0 := by linarith
      exact hf1 (Or.inl (by rw [h1', h2, mul_zero, zero_mul, sub_self, z]))
    · rintro ⟨h1, h2⟩
      have h2' : u0 = 0 := by linarith
      rw [h1, h2'] at hf1
      simp only [mul_zero, zero_mul, sub_self, z, add_zero, zero_add, H.sub] at hf1
      by_cases h0 : rT (rT (u1 * v2) - rT (u2 * v1)) = 0
      · exact hf1 (Or.inl h0)
      · exact hf1 (Or.inr (by rw [div_self h0, H.oneD]))
  · intro hf1
    refine H.keepAbsR_some _ ?_
    rintro ⟨h1, h2⟩
    rw [H.zeroT] at h1 h2
    have e1 : v0 = v1 := by linarith
    have e2 : u1 = u0 := by linarith
    exact hf1 (Or.inl (by rw [e1, e2, sub_self, z]))

end

namespace Online2D

/-- `required_eb` in absolute mode (src/sz_compress_cp_preserve_2d.cpp L1053-1074), rounded. -/
noncomputable def boundAbsR (rT rF rD : ℝ → ℝ) (r1 r2 : Nat) (maxEb : ℝ) (m : Field ℝ) (p : Nat) :
    Option ℝ :=
  if m.u p = 0 ∨ m.v p = 0 then some 0
  else (requiredEb r1 r2 (some maxEb) minfX (fun _ => deriveAbsR rT rF rD) m p).map (·.getD 0)

theorem boundAbsR_id (r1 r2 : Nat) (maxEb : ℝ) :
    boundAbsR id id id r1 r2 maxEb = boundAbs r1 r2 maxEb := rfl

/-- A vertex of a triangle with a critical point is not changed. -/
theorem boundAbsR_cp {rT rF rD : ℝ → ℝ} (H : MonoRounding rT rF rD) {r1 r2 : Nat} {maxEb : ℝ}
    {f : Field ℝ} {p : Nat} (hp : p < r1 * r2) {t : Tri} (ht : t.inGrid r1 r2)
    (hv : (p / r2, p % r2) ∈ t.verts) (hc : t.hasCP r2 f) {req : ℝ}
    (hb : boundAbsR rT rF rD r1 r2 maxEb f p = some req) : req ≤ 0 := by
  have hr2 : 0 < r2 := by
    rcases Nat.eq_zero_or_pos r2 with h0 | h0
    · subst h0; omega
    · exact h0
  have hi : p / r2 < r1 := by rw [Nat.div_lt_iff_lt_mul hr2]; exact hp
  have hj : p % r2 < r2 := Nat.mod_lt _ hr2
  have hpe : p / r2 * r2 + p % r2 = p := by
    have := Nat.div_add_mod p r2
    rw [Nat.mul_comm] at this; exact this
  unfold boundAbsR at hb
  split at hb
  · simp only [Option.some.injEq] at hb; exact hb.ge
  have hks : ∀ k ∈ [0, 1, 2, 3, 4, 5], k < 6 := by simp
  obtain ⟨E, hE, -, hall⟩ := requiredLoop_le r1 r2 (fun _ => deriveAbsR rT rF rD) f (p / r2)
    (p % r2) hi hj [0, 1, 2, 3, 4, 5] hks maxEb (fun k hk _ => by
      obtain ⟨x, hx⟩ := H.deriveAbsR_defined (u0 := f.u (nbr r2 (p / r2 * r2 + p % r2) k))
        (u1 := f.u (nbr r2 (p / r2 * r2 + p % r2) (k + 1))) (u2 := f.u (p / r2 * r2 + p % r2))
        (v0 := f.v (nbr r2 (p / r2 * r2 + p % r2) k))
        (v1 := f.v (nbr r2 (p / r2 * r2 + p % r2) (k + 1))) (v2 := f.v (p / r2 * r2 + p % r2))
      rw [hx]; simp)
  rw [hpe] at hE hall
  unfold requiredEb at hb
  rw [hE] at hb
  simp only [Option.map_some, Option.getD_some, Option.some.injEq] at hb
  subst hb
  obtain ⟨k, hk, hm, htk, -⟩ := incident_unique r1 r2 _ _ t hi hj ht hv
  obtain ⟨E', hE', hle⟩ := hall k (by simp; omega) hm
  obtain ⟨-, -, -, -, hcp, -⟩ := tri_flat r1 r2 (p / r2) (p % r2) k hi hj hk hm
  rw [hpe, htk] at hcp
  rw [H.deriveAbsR_cp ((hcp f).1 hc)] at hE'
  cases hE'
  exact hle

end Online2D
end CpSZ
