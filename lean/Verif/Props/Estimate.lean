import Verif.Estimate
import Mathlib.Tactic.Ring

/-!
# C38 and C45: interval estimation and sampling of the 3D block codec
-/

namespace CpSZ.Estimate

/-- C38, first half: for every argument from 1 to 2^31, `round_up_power_of_2` returns a power
of two which is at least the argument, and no smaller power of two is. -/
theorem C38_round_up (n : Nat) (h1 : 1 ≤ n) (h2 : n ≤ 2 ^ 31) :
    (∃ k, (roundUp (BitVec.ofNat 32 n)).toNat = 2 ^ k) ∧
    n ≤ (roundUp (BitVec.ofNat 32 n)).toNat ∧
    ∀ m, n ≤ 2 ^ m → (roundUp (BitVec.ofNat 32 n)).toNat ≤ 2 ^ m := by
  obtain ⟨k, _, h, hn, hm⟩ := roundUp_pow n h1 h2
  rw [h]
  refine ⟨⟨k, rfl⟩, hn, fun m hle => ?_⟩
  apply Nat.pow_le_pow_right (by omega)
  rcases hm with rfl | hm
  · omega
  · have : k - 1 < m := (Nat.pow_lt_pow_iff_right (by omega)).mp (lt_of_lt_of_le hm hle)
    omega

example : (roundUp (BitVec.ofNat 32 2147483647)).toNat = 2147483648 := by decide

/-- Outside that range the promise fails: the results for 0 and for 2^31+1 are 0. -/
theorem C38_round_up_out_of_range :
    roundUp 0#32 = 0#32 ∧ roundUp (BitVec.ofNat 32 (2 ^ 31 + 1)) = 0#32 := by decide

/-- C38, second half: for every histogram (of the 32768 intervals in the code, or any other
length up to 2^28) and every target, the capacity is a power of two of at least 32 and at most
four times the (rounded) histogram length.  Moreover it does what it is for: if the samples
exceed the target at all, those within the first quarter `capacity / 4` of the intervals do;
and a capacity above 32 is not wasteful, since the samples within `capacity / 8` intervals do
not exceed the target. -/
theorem C38_capacity (intervals : List Nat) (target : Nat) (h0 : intervals ≠ [])
    (hlen : intervals.length ≤ 2 ^ 28) :
    (∃ k, 5 ≤ k ∧ (estimate intervals target).toNat = 2 ^ k) ∧
    (∀ m, 5 ≤ m → 4 * intervals.length ≤ 2 ^ m → (estimate intervals target).toNat ≤ 2 ^ m) ∧
    (target < intervals.sum →
      target < (intervals.take ((estimate intervals target).toNat / 4)).sum) ∧
    (32 < (estimate intervals target).toNat →
      (intervals.take ((estimate intervals target).toNat / 8)).sum ≤ target) := by
  have hpos : 0 < intervals.length := List.length_pos_iff.mpr h0
  obtain ⟨_, b, c, d⟩ := accIndex_spec target intervals 0 0 (Nat.zero_le _)
  generalize hi : accIndex target intervals 0 0 = i at b c d
  simp only [Nat.zero_add, Nat.sub_zero] at b c d
  obtain ⟨i', hi', hle, hle', hlast⟩ : ∃ i', (if i = intervals.length then
      intervals.length - 1 else i) = i' ∧ i' ≤ i ∧ i' < intervals.length ∧
      (target < intervals.sum → i' = i) := by
    by_cases h : i = intervals.length
    · refine ⟨intervals.length - 1, by rw [if_pos h], by omega, by omega, fun ht => ?_⟩
      have := c i (le_refl _)
      rw [h, List.take_length] at this
      omega
    · exact ⟨i, by rw [if_neg h], le_refl _, by omega, fun _ => rfl⟩
  obtain ⟨k, hk, hr, hge, hmin⟩ := roundUp_pow (2 * (i' + 1)) (by omega) (by omega)
  have hk0 : 1 ≤ k := by
    rcases Nat.eq_zero_or_pos k with rfl | h
    · omega
    · exact h
  have hmin' : 2 ^ (k - 1) < 2 * (i' + 1) := by
    rcases hmin with h | h
    · omega
    · exact h
  have hk29 : k ≤ 29 := by
    have : 2 ^ (k - 1) < 2 ^ 29 := by omega
    have := (Nat.pow_lt_pow_iff_right (by omega : 1 < 2)).mp this
    omega
  have hpk : 2 ^ k = 2 * 2 ^ (k - 1) := by
    rw [← Nat.pow_succ']
    congr 1
    omega
  have hpk1 : 2 ^ (k + 1) = 2 * 2 ^ k := Nat.pow_succ'
  have hnum : (2#32 * roundUp (BitVec.ofNat 32 (2 * (i' + 1)))).toNat = 2 ^ (k + 1) := by
    rw [BitVec.toNat_mul, hr, hpk1]
    have : 2 ^ k ≤ 2 ^ 29 := Nat.pow_le_pow_right (by omega) hk29
    simp only [BitVec.toNat_ofNat]
    omega
  have hest : (estimate intervals target).toNat = if 2 ^ (k + 1) > 32 then 2 ^ (k + 1) else 32 := by
    simp only [estimate, hi, hi', hnum]
    split
    · exact hnum
    · rfl
  have mono : ∀ (l : List Nat) (a b : Nat), a ≤ b → (l.take a).sum ≤ (l.take b).sum := by
    intro l
    induction l with
    | nil => intro a b _; simp
    | cons x xs ih =>
      intro a b hab
      rcases a with _ | a
      · simp
      · rcases b with _ | b
        · omega
        · have := ih a b (by omega)
          simp only [List.take_succ_cons, List.sum_cons]
          omega
  rw [hest]
  refine ⟨?_, ?_, ?_, ?_⟩
  · split
    · next h =>
      refine ⟨k + 1, ?_, rfl⟩
      have : 2 ^ 5 < 2 ^ (k + 1) := h
      have := (Nat.pow_lt_pow_iff_right (by omega : 1 < 2)).mp this
      omega
    · exact ⟨5, le_refl _, rfl⟩
  · intro m hm hlm
    split
    · apply Nat.pow_le_pow_right (by omega)
      have : 2 ^ k < 2 ^ m := by omega
      have := (Nat.pow_lt_pow_iff_right (by omega : 1 < 2)).mp this
      omega
    · calc 32 = 2 ^ 5 := rfl
        _ ≤ 2 ^ m := Nat.pow_le_pow_right (by omega) hm
  · intro ht
    have e := hlast ht
    have hd := d (by omega)
    refine lt_of_lt_of_le hd (mono _ _ _ ?_)
    split <;> omega
  · intro h32
    split at h32
    · next hgt =>
      rw [if_pos hgt]
      have := c (2 ^ (k + 1) / 8) (by
        have h16 : 2 ^ 4 < 2 ^ k := by omega
        have := (Nat.pow_lt_pow_iff_right (by omega : 1 < 2)).mp h16
        have : 2 ^ (k - 1) = 2 * 2 ^ (k - 2) := by
          rw [← Nat.pow_succ']
          congr 1
          omega
        omega)
      omega
    · omega

example : (estimate [900, 50, 30, 10, 5, 5, 0, 0, 0, 1] 1000).toNat = 64 := by decide
example : [900, 50, 30, 10, 5, 5, 0, 0, 0, 1] ≠ [] ∧ 1000 < [900, 50, 30, 10, 5, 5, 0, 0, 0, 1].sum := by
  decide

/-! ## The sampling passes -/

theorem rough_pos (r2 r3 sd n : Nat) :
    (roughAt r2 r3 sd n).pos + 2 ≥ ((roughAt r2 r3 sd (n + 1)).pos - sd : Int) + 2 ∧
    (roughAt r2 r3 sd (n + 1)).pos ≥ (roughAt r2 r3 sd n).pos + sd - 2 := by
  simp only [roughAt, roughStep]
  repeat' split
  all_goals simp only
  all_goals omega

/-- C45, the pass computing the rough mean: on every grid with at least nine values it comes to
an end (`Nat.sqrt` is the integer part of the `sqrt` passed as the sample distance). -/
theorem C45_rough_mean_terminates_partial (r1 r2 r3 : Nat) (h : 9 ≤ r1 * r2 * r3) :
    ∃ n, ¬ running (r1 * r2 * r3) (roughAt r2 r3 (Nat.sqrt (r1 * r2 * r3)) n).pos := by
  have hs : 3 ≤ Nat.sqrt (r1 * r2 * r3) := Nat.le_sqrt.mpr (by omega)
  have hgrow : ∀ n : Nat, (n : Int) ≤ (roughAt r2 r3 (Nat.sqrt (r1 * r2 * r3)) n).pos := by
    intro n
    induction n with
    | zero => simp [roughAt]
    | succ n ih =>
      have := (rough_pos r2 r3 (Nat.sqrt (r1 * r2 * r3)) n).2
      push_cast
      omega
  refine ⟨r1 * r2 * r3, fun hr => ?_⟩
  have := hgrow (r1 * r2 * r3)
  have := hr.2
  omega

/-- C45 is false in full: on a grid of one by one by two values the pass computing the rough
mean never ends. -/
theorem C45_rough_mean_loops :
    ∀ n, running (1 * 1 * 2) (roughAt 1 2 (Nat.sqrt (1 * 1 * 2)) n).pos := by
  have hsq : Nat.sqrt (1 * 1 * 2) = 1 := by
    symm
    rw [Nat.eq_sqrt]
    decide
  rw [hsq]
  have key : ∀ n, roughAt 1 2 1 (2 * n) = ⟨0, 0, 0⟩ := by
    intro n
    induction n with
    | zero => rfl
    | succ n ih =>
      rw [show 2 * (n + 1) = 2 * n + 1 + 1 by ring]
      simp only [roughAt, ih]
      rfl
  intro n
  rcases Nat.even_or_odd' n with ⟨m, rfl | rfl⟩
  · rw [key]
    decide
  · simp only [roughAt, key]
    decide

/-- The cursor invariant of the second pass: the cursor is the start of row `n2` of plane `n1`
plus `offset_count` (which may exceed the row). -/
theorem samp_inv (r2 r3 n : Nat) :
    (sampAt r2 r3 n).pos = ((sampAt r2 r3 n).n1 * (r2 * r3) + (sampAt r2 r3 n).n2 * r3 +
      (sampAt r2 r3 n).oc : Nat) ∧
    1 ≤ (sampAt r2 r3 n).n1 ∧ 1 ≤ (sampAt r2 r3 n).n2 ∧ 1 ≤ (sampAt r2 r3 n).oc := by
  induction n with
  | zero =>
    simp only [sampAt, sampInit]
    refine ⟨?_, by omega, by omega, by omega⟩
    push_cast
    ring
  | succ n ih =>
    generalize hs : sampAt r2 r3 n = s at ih
    obtain ⟨pos, oc, n1, n2⟩ := s
    simp only at ih
    obtain ⟨h1, h2, h3, h4⟩ := ih
    simp only [sampAt, hs, sampStep]
    by_cases hw : oc + 100 ≥ r3
    · rw [if_pos hw]
      by_cases hr : n2 + 1 = r2
      · simp only [if_pos hr]
        have hm := Nat.mod_lt (n1 + 1 + 1) (show 0 < 100 by omega)
        generalize (n1 + 1 + 1) % 100 = m at hm
        have hne : ¬ (100 - m = 0) := by omega
        simp only [if_neg hne]
        refine ⟨?_, by omega, by omega, by omega⟩
        subst hr
        have hcast : ((100 - m : Nat) : Int) = 100 - m := by omega
        rw [h1, Nat.cast_add _ (100 - m), hcast]
        push_cast
        ring
      · simp only [if_neg hr]
        have hm := Nat.mod_lt (n1 + (n2 + 1)) (show 0 < 100 by omega)
        generalize (n1 + (n2 + 1)) % 100 = m at hm
        have hne : ¬ (100 - m = 0) := by omega
        simp only [if_neg hne]
        refine ⟨?_, by omega, by omega, by omega⟩
        have hcast : ((100 - m : Nat) : Int) = 100 - m := by omega
        rw [h1, Nat.cast_add _ (100 - m), hcast]
        push_cast
        ring
    · rw [if_neg hw]
      refine ⟨?_, h2, h3, show 1 ≤ oc + 100 by omega⟩
      simp only
      rw [h1]
      push_cast
      ring

/-- C45, second pass, memory safety: whatever the grid, every iteration reads only positions of
the data array. -/
theorem C45_sampling_in_bounds (r1 r2 r3 n : Nat)
    (hrun : running (r1 * r2 * r3) (sampAt r2 r3 n).pos) :
    ∀ p ∈ sampReads r2 r3 (sampAt r2 r3 n).pos, 0 ≤ p ∧ p < (r1 * r2 * r3 : Nat) := by
  obtain ⟨h1, h2, h3, h4⟩ := samp_inv r2 r3 n
  obtain ⟨_, hlt⟩ := hrun
  generalize (sampAt r2 r3 n).pos = pos at *
  have ha : r2 * r3 ≤ (sampAt r2 r3 n).n1 * (r2 * r3) := Nat.le_mul_of_pos_left _ h2
  have hb : r3 ≤ (sampAt r2 r3 n).n2 * r3 := Nat.le_mul_of_pos_left _ h3
  generalize (sampAt r2 r3 n).n1 * (r2 * r3) = a at *
  generalize (sampAt r2 r3 n).n2 * r3 = b at *
  intro p hp
  simp only [sampReads, List.mem_cons, List.not_mem_nil, or_false] at hp
  have hc : ((r2 * r3 : Nat) : Int) = (r2 : Int) * r3 := by push_cast; ring
  rw [← hc] at hp
  generalize r2 * r3 = c at *
  rcases hp with rfl | rfl | rfl | rfl | rfl | rfl | rfl | rfl <;> omega

/-- C45, second pass: it comes to an end on every grid. -/
theorem C45_sampling_terminates (r1 r2 r3 : Nat) (h3 : 0 < r3) :
    ∃ n, ¬ running (r1 * r2 * r3) (sampAt r2 r3 n).pos := by
  generalize hlen : r1 * r2 * r3 = len
  by_contra hno
  push Not at hno
  -- the quantity `rows * (len + 1) + offset` grows at each step and is bounded
  have key : ∀ n, n ≤ ((sampAt r2 r3 n).n1 * (r2 * r3) + (sampAt r2 r3 n).n2 * r3) * (len + 1) +
      (sampAt r2 r3 n).oc := by
    intro n
    induction n with
    | zero => omega
    | succ n ih =>
      obtain ⟨h1, _, _, h4⟩ := samp_inv r2 r3 n
      have hr := (hno n).2
      generalize hs : sampAt r2 r3 n = s at ih h1 h4 hr
      obtain ⟨pos, oc, n1, n2⟩ := s
      simp only at ih h1 h4 hr
      have hoc : oc < len := by omega
      simp only [sampAt, hs, sampStep]
      by_cases hw : oc + 100 ≥ r3
      · rw [if_pos hw]
        by_cases hr2 : n2 + 1 = r2
        · simp only [if_pos hr2]
          have : ((n1 + 1) * (r2 * r3) + 1 * r3) * (len + 1)
              = (n1 * (r2 * r3) + n2 * r3) * (len + 1) + 2 * (r3 * (len + 1)) := by
            subst hr2
            ring
          rw [this]
          have : len + 1 ≤ r3 * (len + 1) := Nat.le_mul_of_pos_left _ h3
          omega
        · simp only [if_neg hr2]
          have : (n1 * (r2 * r3) + (n2 + 1) * r3) * (len + 1)
              = (n1 * (r2 * r3) + n2 * r3) * (len + 1) + r3 * (len + 1) := by ring
          rw [this]
          have : len + 1 ≤ r3 * (len + 1) := Nat.le_mul_of_pos_left _ h3
          omega
      · rw [if_neg hw]
        simp only
        omega
  have hN := key (len * (len + 1) + len + 1)
  obtain ⟨h1, _, _, h4⟩ := samp_inv r2 r3 (len * (len + 1) + len + 1)
  have hr := (hno (len * (len + 1) + len + 1)).2
  rw [h1] at hr
  have hle : (sampAt r2 r3 (len * (len + 1) + len + 1)).n1 * (r2 * r3) +
      (sampAt r2 r3 (len * (len + 1) + len + 1)).n2 * r3 ≤ len := by omega
  have := Nat.mul_le_mul_right (len + 1) hle
  omega

example : running (3 * 3 * 200) (sampAt 3 200 0).pos ∧ running (3 * 3 * 200) (sampAt 3 200 3).pos := by
  decide

end CpSZ.Estimate
