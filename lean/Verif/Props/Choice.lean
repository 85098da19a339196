import Verif.Props.Fit
import Verif.Block.Optimize
import Mathlib.Algebra.BigOperators.Intervals
/-
C62: the choice between Lorenzo and regression prediction.
-/

namespace CpSZ.Block

open Finset Buf3

variable {T F D : Type}

/-! ### C62: what the choice depends on -/

/-- The choice for a block of the 2D codec, including the coefficients, depends on the data of
that block only, in any arithmetic; in particular no other data are read. -/
theorem C62_local_2d (A : FitOps T F D) (data data' : Nat → T) (d2 : Nat) (mean : Bool × T)
    (prec : D) (o sx sy sz : Nat) (hsy : sy ≤ d2)
    (h : ∀ x < sx, ∀ y < sy, data (o + x * d2 + y) = data' (o + x * d2 + y)) :
    choose2 A data d2 mean prec o sx sy sz = choose2 A data' d2 mean prec o sx sy sz := by
  unfold choose2
  rw [fit2_local A data data' o sx sy d2 hsy h]
  dsimp only
  rw [select2_local A data data' o sx sy d2 h]

/-- The same in 3D. -/
theorem C62_local_3d (A : FitOps T F D) (data data' : Nat → T) (d2 d3 : Nat) (mean : Bool × T)
    (prec : D) (o sx sy sz : Nat) (hsy : sy ≤ d2) (hsz : sz ≤ d3)
    (h : ∀ x < sx, ∀ y < sy, ∀ z < sz,
      data (o + x * (d2 * d3) + y * d3 + z) = data' (o + x * (d2 * d3) + y * d3 + z)) :
    choose3 A data d2 d3 mean prec o sx sy sz = choose3 A data' d2 d3 mean prec o sx sy sz := by
  unfold choose3
  rw [fit3_local A data data' o sx sy sz (d2 * d3) d3 hsz (Nat.mul_le_mul_right _ hsy) h]
  dsimp only
  rw [select3_local A data data' o sx sy sz (d2 * d3) d3 h]

/-- With independent blocks the result on a block that uses Lorenzo prediction depends on the
data of that block only, for the same mean and capacity: another field with the same values on
the block also uses Lorenzo prediction there, and gets the same values. -/
theorem C62_independent_blocks (A : FitOps T F D) (data data' : Nat → T) (prec : D)
    (r1 r2 r3 bs : Nat) (radius : Nat) (mean : Bool × T)
    (h1 : 0 < r1) (h2 : 0 < r2) (h3 : 0 < r3) (hb : 0 < bs) (out0 out0' : Nat → T)
    (i j k : Nat) (hi : i * bs < r1) (hj : j * bs < r2) (hk : k * bs < r3)
    (hs : choose3 A data r2 r3 mean prec (idx3 r2 r3 (i * bs) (j * bs) (k * bs))
      (min bs (r1 - i * bs)) (min bs (r2 - j * bs)) (min bs (r3 - k * bs)) = none)
    (hd : ∀ X < r1, ∀ Y < r2, ∀ Z < r3, X / bs = i → Y / bs = j → Z / bs = k →
      data (idx3 r2 r3 X Y Z) = data' (idx3 r2 r3 X Y Z)) :
    ∀ X < r1, ∀ Y < r2, ∀ Z < r3, X / bs = i → Y / bs = j → Z / bs = k →
      writes out0 (out3 A.toBOps data prec r1 r2 r3 bs true radius mean
        (choose3 A data r2 r3 mean prec)).recon (idx3 r2 r3 X Y Z) =
      writes out0' (out3 A.toBOps data' prec r1 r2 r3 bs true radius mean
        (choose3 A data' r2 r3 mean prec)).recon (idx3 r2 r3 X Y Z) := by
  refine C59_independent_blocks A.toBOps data data' prec r1 r2 r3 bs radius mean _ _ h1 h2 h3 hb
    out0 out0' i j k ?_ hd
  have hs' : choose3 A data' r2 r3 mean prec (idx3 r2 r3 (i * bs) (j * bs) (k * bs))
      (min bs (r1 - i * bs)) (min bs (r2 - j * bs)) (min bs (r3 - k * bs)) = none := by
    rw [← hs]
    symm
    have low : ∀ w x d, w * bs < d → x < min bs (d - w * bs) → (w * bs + x) / bs = w := by
      intro w x d _ hx
      rw [Nat.div_eq_iff hb]
      omega
    refine C62_local_3d A data data' r2 r3 mean prec _ _ _ _ (by omega) (by omega) ?_
    intro x hx y hy z hz
    have := hd (i * bs + x) (by omega) (j * bs + y) (by omega) (k * bs + z) (by omega)
      (low i x r1 hi hx) (low j y r2 hj hy) (low k z r3 hk hz)
    have e : idx3 r2 r3 (i * bs) (j * bs) (k * bs) + x * (r2 * r3) + y * r3 + z =
        idx3 r2 r3 (i * bs + x) (j * bs + y) (k * bs + z) := by
      unfold idx3; ring
    rw [e, this]
  intro X Y Z hX hY hZ
  unfold selAt
  rw [hX, hY, hZ]
  exact ⟨hs, hs'⟩

/-! ### C62: the rule -/

/-- Sum over the two diagonals of an `m` by `m` square, without the first row. -/
noncomputable def diag2 (m : Nat) (e : Nat → Nat → ℝ) : ℝ :=
  ∑ i ∈ Ico 1 m, (e i i + e i (m - i))

/-- Sum over the four diagonals of a cube, without the first layer. -/
noncomputable def diag3 (m : Nat) (e : Nat → Nat → Nat → ℝ) : ℝ :=
  ∑ i ∈ Ico 1 m, (e i i i + e i i (m - i) + e i (m - i) i + e i (m - i) (m - i))

/-- The cost of a value `v` in a Lorenzo block: distance to the prediction plus a surcharge, or
distance to the mean, whichever is smaller. -/
noncomputable def lorCost (mean : Bool × ℝ) (noise v pred : ℝ) : ℝ :=
  if mean.1 then min |v - mean.2| (|v - pred| + noise) else |v - pred| + noise

theorem lorErr_real (mean : Bool × ℝ) (v pred noise : ℝ) :
    lorErr realFit mean v pred noise = lorCost mean noise v pred := by
  unfold lorErr lorCost
  simp only [realFit, roundedFit, roundedB, roundedQ, roundedOps, id, decide_eq_true_eq]
  split
  · split
    · rename_i h; rw [min_eq_left h.le]
    · rename_i h; rw [min_eq_right (not_lt.1 h)]
  · rfl

theorem sum_shift (m : Nat) (g : Nat → ℝ) :
    ∑ i ∈ range (m - 1), g (i + 1) = ∑ i ∈ Ico 1 m, g i := by
  rw [sum_Ico_eq_sum_range]
  exact sum_congr rfl fun i _ => by rw [Nat.add_comm]

theorem select2_real (data : Nat → ℝ) (o off m : Nat) (a b e : ℝ)
    (mean : Bool × ℝ) (noise : ℝ) :
    select2 realFit data o off m [a, b, e] mean noise = true ↔
      diag2 m (fun x y => |data (o + x * off + y) - (a * x + b * y + e)|) <
      diag2 m (fun x y => lorCost mean noise (data (o + x * off + y))
        (data (o + x * off + (y - 1)) + data (o + (x - 1) * off + y) -
          data (o + (x - 1) * off + (y - 1)))) := by
  have hpt : ∀ (s : ℝ × ℝ) (x y : Nat), 0 < x → 0 < y →
      est2 realFit data o off [a, b, e] mean noise s x y =
        (s.1 + |data (o + x * off + y) - (a * x + b * y + e)|,
         s.2 + lorCost mean noise (data (o + x * off + y))
          (data (o + x * off + (y - 1)) + data (o + (x - 1) * off + y) -
            data (o + (x - 1) * off + (y - 1)))) := by
    intro s x y hx hy
    obtain ⟨x, rfl⟩ : ∃ w, x = w + 1 := ⟨x - 1, by omega⟩
    obtain ⟨y, rfl⟩ : ∃ w, y = w + 1 := ⟨y - 1, by omega⟩
    simp only [est2, lorErr_real, regT2, Nat.add_sub_cancel, Nat.succ_mul]
    have e1 : o + (x * off + off) + (y + 1) - 1 = o + (x * off + off) + y := by omega
    have e2 : o + (x * off + off) + (y + 1) - off = o + x * off + (y + 1) := by omega
    have e3 : o + x * off + (y + 1) - 1 = o + x * off + y := by omega
    rw [e1, e2, e3]
    simp only [realFit, roundedFit, roundedB, roundedQ, roundedOps, id]
  have key := foldl_range_inv (fun n (s : ℝ × ℝ) =>
      s.1 = ∑ i ∈ range n, (|data (o + (i + 1) * off + (i + 1)) -
          (a * (i + 1 : ℕ) + b * (i + 1 : ℕ) + e)| +
        |data (o + (i + 1) * off + (m - (i + 1))) -
          (a * (i + 1 : ℕ) + b * (m - (i + 1) : ℕ) + e)|) ∧
      s.2 = ∑ i ∈ range n, (lorCost mean noise (data (o + (i + 1) * off + (i + 1)))
          (data (o + (i + 1) * off + (i + 1 - 1)) + data (o + (i + 1 - 1) * off + (i + 1)) -
            data (o + (i + 1 - 1) * off + (i + 1 - 1))) +
        lorCost mean noise (data (o + (i + 1) * off + (m - (i + 1))))
          (data (o + (i + 1) * off + (m - (i + 1) - 1)) +
            data (o + (i + 1 - 1) * off + (m - (i + 1))) -
            data (o + (i + 1 - 1) * off + (m - (i + 1) - 1)))))
    (fun s i => est2 realFit data o off [a, b, e] mean noise
      (est2 realFit data o off [a, b, e] mean noise s (i + 1) (i + 1)) (i + 1) (m - (i + 1)))
    (m - 1) (0, 0) (by simp) (by
      rintro i hi s ⟨h1, h2⟩
      rw [hpt _ _ _ (by omega) (by omega), hpt _ _ _ (by omega) (by omega)]
      simp only [sum_range_succ, ← h1, ← h2]
      constructor <;> ring)
  obtain ⟨k1, k2⟩ := key
  unfold diag2
  rw [← sum_shift m, ← sum_shift m]
  dsimp only
  rw [← k1, ← k2]
  simp [select2, realFit, roundedFit, roundedB, roundedQ, roundedOps]

/-- In exact arithmetic the 2D codec uses regression for a block exactly when the block has at
least 8 rows and 8 columns and, over the two diagonals of its largest square, the fitted plane
costs less than Lorenzo prediction from the input with the surcharge of 0.81 times the
precision per value; the coefficients are then those of the fit. -/
theorem C62_choice_2d (data : Nat → ℝ) (d2 : Nat) (mean : Bool × ℝ) (prec : ℝ)
    (o sx sy sz : Nat) (c : List ℝ) :
    choose2 realFit data d2 mean prec o sx sy sz = some c ↔
      8 ≤ sx ∧ 8 ≤ sy ∧ c = fit2 realFit data o sx sy d2 ∧
      ∃ a b e, c = [a, b, e] ∧
        diag2 (min sx sy) (fun x y => |data (o + x * d2 + y) - (a * x + b * y + e)|) <
        diag2 (min sx sy) (fun x y => lorCost mean (prec * (81 / 100)) (data (o + x * d2 + y))
          (data (o + x * d2 + (y - 1)) + data (o + (x - 1) * d2 + y) -
            data (o + (x - 1) * d2 + (y - 1)))) := by
  unfold choose2
  have hn : realFit.noise2 prec = prec * (81 / 100) := rfl
  obtain ⟨a, b, e, hf⟩ : ∃ a b e, fit2 realFit data o sx sy d2 = [a, b, e] := ⟨_, _, _, rfl⟩
  split
  · rename_i h
    constructor
    · intro h'; cases h'
    · rintro ⟨h1, h2, _⟩; omega
  · rename_i h
    simp only [hf, hn]
    have key := select2_real data o d2 (min sx sy) a b e mean (prec * (81 / 100))
    constructor
    · intro h'
      split at h'
      · rename_i hs
        injection h' with h'
        exact ⟨by omega, by omega, h'.symm, a, b, e, h'.symm, key.1 hs⟩
      · cases h'
    · rintro ⟨-, -, rfl, a', b', e', he, hlt⟩
      simp only [List.cons.injEq, and_true] at he
      obtain ⟨rfl, rfl, rfl⟩ := he
      rw [if_pos (key.2 hlt)]

theorem select3_real (data : Nat → ℝ) (o off0 off1 m : Nat) (a b c e : ℝ)
    (mean : Bool × ℝ) (noise : ℝ) :
    select3 realFit data o off0 off1 m [a, b, c, e] mean noise = true ↔
      diag3 m (fun x y z => |data (o + x * off0 + y * off1 + z) - (a * x + b * y + c * z + e)|) <
      diag3 m (fun x y z => lorCost mean noise (data (o + x * off0 + y * off1 + z))
        (data (o + x * off0 + y * off1 + (z - 1)) + data (o + x * off0 + (y - 1) * off1 + z) +
          data (o + (x - 1) * off0 + y * off1 + z) -
          data (o + x * off0 + (y - 1) * off1 + (z - 1)) -
          data (o + (x - 1) * off0 + y * off1 + (z - 1)) -
          data (o + (x - 1) * off0 + (y - 1) * off1 + z) +
          data (o + (x - 1) * off0 + (y - 1) * off1 + (z - 1)))) := by
  obtain ⟨R, hR⟩ : ∃ R : Nat → Nat → Nat → ℝ, R = fun x y z =>
    |data (o + x * off0 + y * off1 + z) - (a * x + b * y + c * z + e)| := ⟨_, rfl⟩
  obtain ⟨L, hL⟩ : ∃ L : Nat → Nat → Nat → ℝ, L = fun x y z =>
    lorCost mean noise (data (o + x * off0 + y * off1 + z))
        (data (o + x * off0 + y * off1 + (z - 1)) + data (o + x * off0 + (y - 1) * off1 + z) +
          data (o + (x - 1) * off0 + y * off1 + z) -
          data (o + x * off0 + (y - 1) * off1 + (z - 1)) -
          data (o + (x - 1) * off0 + y * off1 + (z - 1)) -
          data (o + (x - 1) * off0 + (y - 1) * off1 + z) +
          data (o + (x - 1) * off0 + (y - 1) * off1 + (z - 1))) := ⟨_, rfl⟩
  rw [← hR, ← hL]
  have hpt : ∀ (s : ℝ × ℝ) (x y z : Nat), 0 < x → 0 < y → 0 < z →
      est3 realFit data o off0 off1 [a, b, c, e] mean noise s x y z =
        (s.1 + R x y z, s.2 + L x y z) := by
    intro s x y z hx hy hz
    subst hR hL
    obtain ⟨x, rfl⟩ : ∃ w, x = w + 1 := ⟨x - 1, by omega⟩
    obtain ⟨y, rfl⟩ : ∃ w, y = w + 1 := ⟨y - 1, by omega⟩
    obtain ⟨z, rfl⟩ : ∃ w, z = w + 1 := ⟨z - 1, by omega⟩
    simp only [est3, lorErr_real, regT3, Nat.add_sub_cancel, Nat.succ_mul]
    generalize x * off0 = X at *
    generalize y * off1 = Y at *
    have e0 : o + (X + off0) + (Y + off1) + (z + 1) - 1 = o + (X + off0) + (Y + off1) + z := by
      omega
    have e1 : o + (X + off0) + (Y + off1) + (z + 1) - off1 = o + (X + off0) + Y + (z + 1) := by
      omega
    have e2 : o + (X + off0) + (Y + off1) + (z + 1) - off0 = o + X + (Y + off1) + (z + 1) := by
      omega
    have e3 : o + (X + off0) + Y + (z + 1) - 1 = o + (X + off0) + Y + z := by omega
    have e4 : o + X + (Y + off1) + (z + 1) - 1 = o + X + (Y + off1) + z := by omega
    have e5 : o + X + (Y + off1) + (z + 1) - off1 = o + X + Y + (z + 1) := by omega
    have e6 : o + X + Y + (z + 1) - 1 = o + X + Y + z := by omega
    simp only [e0, e1, e2, e3, e4, e5, e6]
    simp only [realFit, roundedFit, roundedB, roundedQ, roundedOps, id]
  have key := foldl_range_inv (fun n (s : ℝ × ℝ) =>
      s.1 = ∑ i ∈ range n, (R (i + 1) (i + 1) (i + 1) + R (i + 1) (i + 1) (m - (i + 1)) +
        R (i + 1) (m - (i + 1)) (i + 1) + R (i + 1) (m - (i + 1)) (m - (i + 1))) ∧
      s.2 = ∑ i ∈ range n, (L (i + 1) (i + 1) (i + 1) + L (i + 1) (i + 1) (m - (i + 1)) +
        L (i + 1) (m - (i + 1)) (i + 1) + L (i + 1) (m - (i + 1)) (m - (i + 1))))
    (fun e' i =>
      let g := est3 realFit data o off0 off1 [a, b, c, e] mean noise
      let b := m - (i + 1)
      g (g (g (g e' (i + 1) (i + 1) (i + 1)) (i + 1) (i + 1) b) (i + 1) b (i + 1)) (i + 1) b b)
    (m - 1) (0, 0) (by simp) (by
      rintro i hi s ⟨h1, h2⟩
      dsimp only
      rw [hpt _ _ _ _ (by omega) (by omega) (by omega),
        hpt _ _ _ _ (by omega) (by omega) (by omega),
        hpt _ _ _ _ (by omega) (by omega) (by omega),
        hpt _ _ _ _ (by omega) (by omega) (by omega)]
      simp only [sum_range_succ, ← h1, ← h2]
      constructor <;> ring)
  obtain ⟨k1, k2⟩ := key
  unfold diag3
  rw [← sum_shift m, ← sum_shift m, ← k1, ← k2]
  simp [select3, realFit, roundedFit, roundedB, roundedQ, roundedOps]

/-- The same in 3D: blocks with at least 4 values in each direction, four diagonals, a surcharge
of 1.22 times the precision. -/
theorem C62_choice_3d (data : Nat → ℝ) (d2 d3 : Nat) (mean : Bool × ℝ) (prec : ℝ)
    (o sx sy sz : Nat) (c : List ℝ) :
    choose3 realFit data d2 d3 mean prec o sx sy sz = some c ↔
      4 ≤ sx ∧ 4 ≤ sy ∧ 4 ≤ sz ∧ c = fit3 realFit data o sx sy sz (d2 * d3) d3 ∧
      ∃ a b e f, c = [a, b, e, f] ∧
        diag3 (min (min sx sy) sz) (fun x y z =>
          |data (o + x * (d2 * d3) + y * d3 + z) - (a * x + b * y + e * z + f)|) <
        diag3 (min (min sx sy) sz) (fun x y z => lorCost mean (prec * (122 / 100))
          (data (o + x * (d2 * d3) + y * d3 + z))
          (data (o + x * (d2 * d3) + y * d3 + (z - 1)) +
          data (o + x * (d2 * d3) + (y - 1) * d3 + z) +
          data (o + (x - 1) * (d2 * d3) + y * d3 + z) -
          data (o + x * (d2 * d3) + (y - 1) * d3 + (z - 1)) -
          data (o + (x - 1) * (d2 * d3) + y * d3 + (z - 1)) -
          data (o + (x - 1) * (d2 * d3) + (y - 1) * d3 + z) +
          data (o + (x - 1) * (d2 * d3) + (y - 1) * d3 + (z - 1)))) := by
  unfold choose3
  have hn : realFit.noise3 prec = prec * (122 / 100) := rfl
  obtain ⟨a, b, e, f, hf⟩ : ∃ a b e f,
    fit3 realFit data o sx sy sz (d2 * d3) d3 = [a, b, e, f] := ⟨_, _, _, _, rfl⟩
  split
  · rename_i h
    constructor
    · intro h'; cases h'
    · rintro ⟨h1, h2, h3, _⟩; omega
  · rename_i h
    simp only [hf, hn]
    have key := select3_real data o (d2 * d3) d3 (min (min sx sy) sz) a b e f mean
      (prec * (122 / 100))
    constructor
    · intro h'
      split at h'
      · rename_i hs
        injection h' with h'
        exact ⟨by omega, by omega, by omega, h'.symm, a, b, e, f, h'.symm, key.1 hs⟩
      · cases h'
    · rintro ⟨-, -, -, rfl, a', b', e', f', he, hlt⟩
      simp only [List.cons.injEq, and_true] at he
      obtain ⟨rfl, rfl, rfl, rfl⟩ := he
      rw [if_pos (key.2 hlt)]

end CpSZ.Block
