import Verif.Props.Signs
import Verif.Props.FloatCP
import Mathlib.Tactic.IntervalCases
/-
C77: the order of the axes does not matter to the codecs with one bound per point.
-/

namespace CpSZ.Block
open Buf3

/-- **C77** The 2D codec in any symmetric arithmetic: the transposed grid decompresses to the
transposed values, although points are visited in another order and blocks are cut differently.
All that is used of the arithmetic is that the two neighbours in the prediction may be swapped. -/
theorem C77_transpose_2d {T F D : Type} (B : BOps T F D)
    (hcomm : ∀ a b c, B.lor2 a b c = B.lor2 b a c) (data data' : Nat → T) (prec prec' : Nat → D)
    (r1 r2 bs bs' : Nat) (h1 : 0 < r1) (h2 : 0 < r2) (hb : 0 < bs) (hb' : 0 < bs')
    (hd : ∀ i < r1, ∀ j < r2, data' (j * r1 + i) = data (i * r2 + j))
    (hp : ∀ i < r1, ∀ j < r2, prec' (j * r1 + i) = prec (i * r2 + j)) (out0 out0' : Nat → T) :
    ∀ i < r1, ∀ j < r2,
      writes out0' (outEb2 B data' prec' r2 r1 bs').recon (j * r1 + i) =
        writes out0 (outEb2 B data prec r1 r2 bs).recon (i * r2 + j) := by
  have key : ∀ (data : Nat → T) (prec : Nat → D) (r1 r2 bs : Nat) (out0 : Nat → T), 0 < r1 →
      0 < r2 → 0 < bs → ∀ i < r1, ∀ j < r2,
        writes out0 (outEb2 B data prec r1 r2 bs).recon (i * r2 + j) =
          if B.isZero (prec (i * r2 + j)) then data (i * r2 + j)
          else (quantize B.O (lorGrid2 B r2 (writes out0 (outEb2 B data prec r1 r2 bs).recon) i j)
            (data (i * r2 + j)) (prec (i * r2 + j)) 65536 32768).2.1 := by
    intro data prec r1 r2 bs out0 h1 h2 hb i hi j hj
    have hlt : i * r2 + j < r1 * r2 := by
      have : (i + 1) * r2 ≤ r1 * r2 := Nat.mul_le_mul_right _ hi
      rw [Nat.add_mul] at this
      omega
    have h := (plan_recon B r1 r2 bs h1 h2 hb (cfg2 B r2 bs (false, B.zeroT) 32768 prec true
      B.tenth (fun _ _ _ _ => none)) rfl rfl
      (regAt2_buf B) (fun _ _ _ _ => rfl) data
      (List.replicate 3 B.zeroF) out0).1 (i * r2 + j) hlt
    change writes out0 (outEb2 B data prec r1 r2 bs).recon (i * r2 + j) = (lorStep _ (lorGrid2 B r2
      (writes out0 (outEb2 B data prec r1 r2 bs).recon) _ _) _ _).2.2 at h
    rw [(grid_div hj).1, (grid_div hj).2] at h
    rw [h]
    unfold lorStep
    simp only [cfg2, Bool.true_and, Bool.false_eq_true, if_false]
    by_cases hz : B.isZero (prec (i * r2 + j)) = true
    · rw [if_pos hz, if_pos hz]
    · rw [if_neg hz, if_neg hz]
      rfl
  have k1 := key data prec r1 r2 bs out0 h1 h2 hb
  have k2 := key data' prec' r2 r1 bs' out0' h2 h1 hb'
  generalize writes out0 (outEb2 B data prec r1 r2 bs).recon = R at k1 ⊢
  generalize writes out0' (outEb2 B data' prec' r2 r1 bs').recon = R' at k2 ⊢
  have main : ∀ n, ∀ i < r1, ∀ j < r2, i + j = n → R' (j * r1 + i) = R (i * r2 + j) := by
    intro n
    induction n using Nat.strong_induction_on with
    | _ n ih =>
      intro i hi j hj hn
      rw [k1 i hi j hj, k2 j hj i hi, hd i hi j hj, hp i hi j hj]
      have hl : lorGrid2 B r1 R' j i = lorGrid2 B r2 R i j := by
        unfold lorGrid2
        rw [hcomm]
        congr 1
        · split
          · rfl
          · exact ih (i + (j - 1)) (by omega) i hi (j - 1) (by omega) rfl
        · split
          · rfl
          · exact ih (i - 1 + j) (by omega) (i - 1) (by omega) j hj rfl
        · by_cases h0 : i = 0 ∨ j = 0
          · rw [if_pos h0, if_pos (by omega)]
          · rw [if_neg h0, if_neg (by omega)]
            exact ih (i - 1 + (j - 1)) (by omega) (i - 1) (by omega) (j - 1) (by omega) rfl
      rw [hl]
  exact fun i hi j hj => main _ i hi j hj rfl

/-- The hypothesis holds in floating point, whatever the roundings are. -/
theorem lor2_comm (rT rF rD lg : ℝ → ℝ) (a b c : ℝ) :
    (roundedB rT rF rD lg).lor2 a b c = (roundedB rT rF rD lg).lor2 b a c := by
  simp only [roundedB]
  rw [add_comm]

example (data : Nat → ℝ) (prec : Nat → ℝ) (out0 : Nat → ℝ) : ∀ i < 20, ∀ j < 30,
    writes out0 (outEb2 (roundedB (fl nearest 24) (fl nearest 24) (fl nearest 53) (Real.logb 2))
      (fun p => data (p % 20 * 30 + p / 20)) (fun p => prec (p % 20 * 30 + p / 20)) 30 20 6).recon
        (j * 20 + i) =
    writes out0 (outEb2 (roundedB (fl nearest 24) (fl nearest 24) (fl nearest 53) (Real.logb 2))
      data prec 20 30 12).recon (i * 30 + j) := by
  have h : ∀ i < 20, ∀ j : Nat, (j * 20 + i) % 20 * 30 + (j * 20 + i) / 20 = i * 30 + j := by
    intro i hi j
    omega
  exact C77_transpose_2d _ (lor2_comm _ _ _ _) data _ prec _ 20 30 12 6 (by norm_num)
    (by norm_num) (by norm_num) (by norm_num) (fun i hi j _ => by simp only [h i hi j])
    (fun i hi j _ => by simp only [h i hi j]) out0 out0

/-- The recursion of the 3D codec. -/
theorem eb3_step {T F D : Type} (B : BOps T F D) (data : Nat → T) (prec : Nat → D)
    (r1 r2 r3 bs : Nat) (h1 : 0 < r1) (h2 : 0 < r2) (h3 : 0 < r3) (hb : 0 < bs) (out0 : Nat → T) :
    ∀ X < r1, ∀ Y < r2, ∀ Z < r3,
      writes out0 (outEb3 B data prec r1 r2 r3 bs).recon (idx3 r2 r3 X Y Z) =
        if B.isZero (prec (idx3 r2 r3 X Y Z)) then data (idx3 r2 r3 X Y Z)
        else (quantize B.O (lorGrid3 B r2 r3 (0, 0, 0)
          (writes out0 (outEb3 B data prec r1 r2 r3 bs).recon) X Y Z)
          (data (idx3 r2 r3 X Y Z)) (prec (idx3 r2 r3 X Y Z)) 32768 16384).2.1 := by
  intro X hX Y hY Z hZ
  have h := eb3_recon B data prec r1 r2 r3 bs h1 h2 h3 hb out0 X hX Y hY Z hZ rfl
  conv_lhs => rw [h]
  unfold lorStep
  simp only [cfgEb3, cfg3, Bool.true_and, Bool.false_eq_true, if_false]
  by_cases hz : B.isZero (prec (idx3 r2 r3 X Y Z)) = true
  · rw [if_pos hz, if_pos hz]
  · rw [if_neg hz, if_neg hz]
    rfl

/-- **C77** The 3D codec, exact arithmetic: the last two axes may be swapped. -/
theorem C77_swap23_partial (data data' : Nat → ℝ) (prec prec' : Nat → ℝ)
    (r1 r2 r3 bs bs' : Nat) (h1 : 0 < r1) (h2 : 0 < r2) (h3 : 0 < r3) (hb : 0 < bs) (hb' : 0 < bs')
    (hd : ∀ X < r1, ∀ Y < r2, ∀ Z < r3, data' (idx3 r3 r2 X Z Y) = data (idx3 r2 r3 X Y Z))
    (hp : ∀ X < r1, ∀ Y < r2, ∀ Z < r3, prec' (idx3 r3 r2 X Z Y) = prec (idx3 r2 r3 X Y Z))
    (out0 out0' : Nat → ℝ) :
    ∀ X < r1, ∀ Y < r2, ∀ Z < r3,
      writes out0' (outEb3 realB data' prec' r1 r3 r2 bs').recon (idx3 r3 r2 X Z Y) =
        writes out0 (outEb3 realB data prec r1 r2 r3 bs).recon (idx3 r2 r3 X Y Z) := by
  have k1 := eb3_step realB data prec r1 r2 r3 bs h1 h2 h3 hb out0
  have k2 := eb3_step realB data' prec' r1 r3 r2 bs' h1 h3 h2 hb' out0'
  generalize writes out0 (outEb3 realB data prec r1 r2 r3 bs).recon = R at k1 ⊢
  generalize writes out0' (outEb3 realB data' prec' r1 r3 r2 bs').recon = R' at k2 ⊢
  have main : ∀ n, ∀ X < r1, ∀ Y < r2, ∀ Z < r3, X + Y + Z = n →
      R' (idx3 r3 r2 X Z Y) = R (idx3 r2 r3 X Y Z) := by
    intro n
    induction n using Nat.strong_induction_on with
    | _ n ih =>
      intro X hX Y hY Z hZ hn
      rw [k1 X hX Y hY Z hZ, k2 X hX Z hZ Y hY, hd X hX Y hY Z hZ, hp X hX Y hY Z hZ]
      have key : ∀ a b c, a ≤ X + 1 → b ≤ Y + 1 → c ≤ Z + 1 → a + b + c < X + Y + Z + 3 →
          padAt realB.zeroT r3 r2 (0, 0, 0) R' a c b = padAt realB.zeroT r2 r3 (0, 0, 0) R a b c := by
        intro a b c ha hb hc hs
        unfold padAt
        simp only
        by_cases h0 : a ≤ 0 ∨ b ≤ 0 ∨ c ≤ 0
        · rw [if_pos h0, if_pos (by omega)]
        · rw [if_neg h0, if_neg (by omega)]
          exact ih (a - 1 + (b - 1) + (c - 1)) (by omega) _ (by omega) _ (by omega) _ (by omega) rfl
      have hl : lorGrid3 realB r3 r2 (0, 0, 0) R' X Z Y = lorGrid3 realB r2 r3 (0, 0, 0) R X Y Z := by
        unfold lorGrid3
        rw [key (X + 1) Y (Z + 1) (by omega) (by omega) (by omega) (by omega),
          key (X + 1) (Y + 1) Z (by omega) (by omega) (by omega) (by omega),
          key X (Y + 1) (Z + 1) (by omega) (by omega) (by omega) (by omega),
          key (X + 1) Y Z (by omega) (by omega) (by omega) (by omega),
          key X Y (Z + 1) (by omega) (by omega) (by omega) (by omega),
          key X (Y + 1) Z (by omega) (by omega) (by omega) (by omega),
          key X Y Z (by omega) (by omega) (by omega) (by omega)]
        simp only [realB, roundedB, id]
        ring
      rw [hl]
  exact fun X hX Y hY Z hZ => main _ X hX Y hY Z hZ rfl

/-- **C77** The 3D codec, exact arithmetic: the first two axes may be swapped.  Every order of the
axes arises from swaps of neighbours. -/
theorem C77_swap12_partial (data data' : Nat → ℝ) (prec prec' : Nat → ℝ)
    (r1 r2 r3 bs bs' : Nat) (h1 : 0 < r1) (h2 : 0 < r2) (h3 : 0 < r3) (hb : 0 < bs) (hb' : 0 < bs')
    (hd : ∀ X < r1, ∀ Y < r2, ∀ Z < r3, data' (idx3 r1 r3 Y X Z) = data (idx3 r2 r3 X Y Z))
    (hp : ∀ X < r1, ∀ Y < r2, ∀ Z < r3, prec' (idx3 r1 r3 Y X Z) = prec (idx3 r2 r3 X Y Z))
    (out0 out0' : Nat → ℝ) :
    ∀ X < r1, ∀ Y < r2, ∀ Z < r3,
      writes out0' (outEb3 realB data' prec' r2 r1 r3 bs').recon (idx3 r1 r3 Y X Z) =
        writes out0 (outEb3 realB data prec r1 r2 r3 bs).recon (idx3 r2 r3 X Y Z) := by
  have k1 := eb3_step realB data prec r1 r2 r3 bs h1 h2 h3 hb out0
  have k2 := eb3_step realB data' prec' r2 r1 r3 bs' h2 h1 h3 hb' out0'
  generalize writes out0 (outEb3 realB data prec r1 r2 r3 bs).recon = R at k1 ⊢
  generalize writes out0' (outEb3 realB data' prec' r2 r1 r3 bs').recon = R' at k2 ⊢
  have main : ∀ n, ∀ X < r1, ∀ Y < r2, ∀ Z < r3, X + Y + Z = n →
      R' (idx3 r1 r3 Y X Z) = R (idx3 r2 r3 X Y Z) := by
    intro n
    induction n using Nat.strong_induction_on with
    | _ n ih =>
      intro X hX Y hY Z hZ hn
      rw [k1 X hX Y hY Z hZ, k2 Y hY X hX Z hZ, hd X hX Y hY Z hZ, hp X hX Y hY Z hZ]
      have key : ∀ a b c, a ≤ X + 1 → b ≤ Y + 1 → c ≤ Z + 1 → a + b + c < X + Y + Z + 3 →
          padAt realB.zeroT r1 r3 (0, 0, 0) R' b a c = padAt realB.zeroT r2 r3 (0, 0, 0) R a b c := by
        intro a b c ha hb hc hs
        unfold padAt
        simp only
        by_cases h0 : a ≤ 0 ∨ b ≤ 0 ∨ c ≤ 0
        · rw [if_pos h0, if_pos (by omega)]
        · rw [if_neg h0, if_neg (by omega)]
          exact ih (a - 1 + (b - 1) + (c - 1)) (by omega) _ (by omega) _ (by omega) _ (by omega) rfl
      have hl : lorGrid3 realB r1 r3 (0, 0, 0) R' Y X Z = lorGrid3 realB r2 r3 (0, 0, 0) R X Y Z := by
        unfold lorGrid3
        rw [key (X + 1) (Y + 1) Z (by omega) (by omega) (by omega) (by omega),
          key X (Y + 1) (Z + 1) (by omega) (by omega) (by omega) (by omega),
          key (X + 1) Y (Z + 1) (by omega) (by omega) (by omega) (by omega),
          key X (Y + 1) Z (by omega) (by omega) (by omega) (by omega),
          key (X + 1) Y Z (by omega) (by omega) (by omega) (by omega),
          key X Y (Z + 1) (by omega) (by omega) (by omega) (by omega),
          key X Y Z (by omega) (by omega) (by omega) (by omega)]
        simp only [realB, roundedB, id]
        ring
      rw [hl]
  exact fun X hX Y hY Z hZ => main _ X hX Y hY Z hZ rfl

example (data prec out0 : Nat → ℝ) : ∀ X < 4, ∀ Y < 5, ∀ Z < 6,
    writes out0 (outEb3 realB (fun p => data (idx3 5 6 (p / 30) (p % 5) (p % 30 / 5)))
      (fun p => prec (idx3 5 6 (p / 30) (p % 5) (p % 30 / 5))) 4 6 5 2).recon (idx3 6 5 X Z Y) =
    writes out0 (outEb3 realB data prec 4 5 6 3).recon (idx3 5 6 X Y Z) := by
  have h : ∀ X < 4, ∀ Y < 5, ∀ Z < 6, idx3 5 6 (idx3 6 5 X Z Y / 30) (idx3 6 5 X Z Y % 5)
      (idx3 6 5 X Z Y % 30 / 5) = idx3 5 6 X Y Z := by
    intro X _ Y hY Z hZ
    unfold idx3
    omega
  exact C77_swap23_partial data _ prec _ 4 5 6 3 2 (by norm_num) (by norm_num) (by norm_num)
    (by norm_num) (by norm_num) (fun X hX Y hY Z hZ => by simp only [h X hX Y hY Z hZ])
    (fun X hX Y hY Z hZ => by simp only [h X hX Y hY Z hZ]) out0 out0

/-- Two cells of a grid of eight points: the last point gets the bound one. -/
noncomputable def exOrder (a e f : Nat) : Nat → ℝ := fun p =>
  if p = a then 2 ^ 26 else if p = e then 2 ^ 26 else if p = f then 1 else 0

noncomputable def exOrderPrec : Nat → ℝ := fun p => if p = 7 then 1 else 0

/-- **C77** In floating point the order of the axes of a 3D field matters: with `float` data the
last value of this field becomes one; with the last two axes swapped it stays zero.  The sum of
seven terms is rounded after each term. -/
theorem C77_order_matters_3d {rT rF rD lg : ℝ → ℝ} (hT : IsRounding rT) (hF : IsRounding rF)
    (hD : IsRounding rD) (h26 : rT (2 ^ 26 - 1) = 2 ^ 26) (out0 : Nat → ℝ) :
    writes out0 (outEb3 (roundedB rT rF rD lg) (exOrder 6 2 1) exOrderPrec 2 2 2 2).recon 7 = 1 ∧
    writes out0 (outEb3 (roundedB rT rF rD lg) (exOrder 5 1 2) exOrderPrec 2 2 2 2).recon 7 = 0 ∧
    ∀ X < 2, ∀ Y < 2, ∀ Z < 2,
      exOrder 5 1 2 (idx3 2 2 X Z Y) = exOrder 6 2 1 (idx3 2 2 X Y Z) ∧
      exOrderPrec (idx3 2 2 X Z Y) = exOrderPrec (idx3 2 2 X Y Z) := by
  have z : ∀ {r : ℝ → ℝ}, IsRounding r → r 0 = 0 := fun h => by simpa using h.int 0 (by norm_num)
  have o : ∀ {r : ℝ → ℝ}, IsRounding r → r 1 = 1 := fun h => by simpa using h.int 1 (by norm_num)
  have t : ∀ {r : ℝ → ℝ}, IsRounding r → r 2 = 2 := fun h => by simpa using h.int 2 (by norm_num)
  have p26 : rT (2 ^ 26) = 2 ^ 26 := by
    have := hT.pow2 26 (by norm_num) (by norm_num)
    exact_mod_cast this
  have n1 : ∀ {r : ℝ → ℝ}, IsRounding r → r (-1) = -1 := fun h => by rw [h.odd, o h]
  have c0 : rD 32768 = 32768 := by simpa using hD.int 32768 (by norm_num)
  refine ⟨?_, ?_, ?_⟩
  · have k := eb3_step (roundedB rT rF rD lg) (exOrder 6 2 1) exOrderPrec 2 2 2 2 (by norm_num)
      (by norm_num) (by norm_num) (by norm_num) out0
    generalize writes out0 (outEb3 (roundedB rT rF rD lg) (exOrder 6 2 1) exOrderPrec 2 2 2
      2).recon = R at k ⊢
    have v : ∀ X < 2, ∀ Y < 2, ∀ Z < 2, idx3 2 2 X Y Z ≠ 7 →
        R (idx3 2 2 X Y Z) = exOrder 6 2 1 (idx3 2 2 X Y Z) := by
      intro X hX Y hY Z hZ hne
      rw [k X hX Y hY Z hZ, if_pos]
      simp [roundedB, exOrderPrec, hne]
    have v0 := v 0 (by omega) 0 (by omega) 0 (by omega) (by decide)
    have v1 := v 0 (by omega) 0 (by omega) 1 (by omega) (by decide)
    have v2 := v 0 (by omega) 1 (by omega) 0 (by omega) (by decide)
    have v3 := v 0 (by omega) 1 (by omega) 1 (by omega) (by decide)
    have v4 := v 1 (by omega) 0 (by omega) 0 (by omega) (by decide)
    have v5 := v 1 (by omega) 0 (by omega) 1 (by omega) (by decide)
    have v6 := v 1 (by omega) 1 (by omega) 0 (by omega) (by decide)
    have k7 := k 1 (by omega) 1 (by omega) 1 (by omega)
    have hl : lorGrid3 (roundedB rT rF rD lg) 2 2 (0, 0, 0) R 1 1 1 = -1 := by
      unfold lorGrid3 padAt
      norm_num [idx3] at v0 v1 v2 v3 v4 v5 v6 p26 ⊢
      rw [v0, v1, v2, v3, v4, v5, v6]
      norm_num [exOrder, roundedB, z hT, p26, n1 hT, n1 hF]
    rw [hl, if_neg (by simp [roundedB, exOrderPrec, idx3])] at k7
    norm_num [idx3] at k7
    rw [k7]
    have tr : truncR 1 = 1 := by rw [truncR_nonneg (by norm_num)]; norm_num
    unfold quantize linQuant linOffset
    norm_num [exOrder, exOrderPrec, roundedB, roundedQ, roundedOps, o hT, o hD, t hD, z hD, c0, tr]
  · have k := eb3_step (roundedB rT rF rD lg) (exOrder 5 1 2) exOrderPrec 2 2 2 2 (by norm_num)
      (by norm_num) (by norm_num) (by norm_num) out0
    generalize writes out0 (outEb3 (roundedB rT rF rD lg) (exOrder 5 1 2) exOrderPrec 2 2 2
      2).recon = R at k ⊢
    have v : ∀ X < 2, ∀ Y < 2, ∀ Z < 2, idx3 2 2 X Y Z ≠ 7 →
        R (idx3 2 2 X Y Z) = exOrder 5 1 2 (idx3 2 2 X Y Z) := by
      intro X hX Y hY Z hZ hne
      rw [k X hX Y hY Z hZ, if_pos]
      simp [roundedB, exOrderPrec, hne]
    have v0 := v 0 (by omega) 0 (by omega) 0 (by omega) (by decide)
    have v1 := v 0 (by omega) 0 (by omega) 1 (by omega) (by decide)
    have v2 := v 0 (by omega) 1 (by omega) 0 (by omega) (by decide)
    have v3 := v 0 (by omega) 1 (by omega) 1 (by omega) (by decide)
    have v4 := v 1 (by omega) 0 (by omega) 0 (by omega) (by decide)
    have v5 := v 1 (by omega) 0 (by omega) 1 (by omega) (by decide)
    have v6 := v 1 (by omega) 1 (by omega) 0 (by omega) (by decide)
    have k7 := k 1 (by omega) 1 (by omega) 1 (by omega)
    have h26' : rT 67108863 = 67108864 := by norm_num at h26; exact h26
    have hl : lorGrid3 (roundedB rT rF rD lg) 2 2 (0, 0, 0) R 1 1 1 = 0 := by
      unfold lorGrid3 padAt
      norm_num [idx3] at v0 v1 v2 v3 v4 v5 v6 p26 ⊢
      rw [v0, v1, v2, v3, v4, v5, v6]
      norm_num [exOrder, roundedB, z hT, p26, h26', z hF]
    rw [hl, if_neg (by simp [roundedB, exOrderPrec, idx3])] at k7
    norm_num [idx3] at k7
    rw [k7]
    have hh : rD (1 / 2) = 1 / 2 := by
      have := hD.pow2 (-1) (by norm_num) (by norm_num)
      norm_num at this ⊢
      exact this
    have tr : truncR (-(1 / 2)) = 0 := by
      rw [truncR_neg, truncR_nonneg (by norm_num)]; norm_num
    have hh' : rD (-(1 / 2)) = -(1 / 2) := by rw [hD.odd, hh]
    unfold quantize linQuant linOffset
    norm_num [exOrder, exOrderPrec, roundedB, roundedQ, roundedOps, o hD, t hD, z hD, z hT, c0,
      hh', tr]
  · intro X hX Y hY Z hZ
    interval_cases X <;> interval_cases Y <;> interval_cases Z <;>
      simp [exOrder, exOrderPrec, idx3]

-- `float` data, rounding to nearest.
example (out0 : Nat → ℝ) :
    writes out0 (outEb3 (roundedB (fl nearest 24) (fl nearest 24) (fl nearest 53) (Real.logb 2))
      (exOrder 6 2 1) exOrderPrec 2 2 2 2).recon 7 = 1 := by
  have h24 := (fl_isFloat (p := 24) nearest_rounding (by norm_num)).toIsRounding
  have h53 := (fl_isFloat (p := 53) nearest_rounding (by norm_num)).toIsRounding
  refine (C77_order_matters_3d h24 h24 h53 ?_ out0).1
  have := Rounded.fl_near nearest_isNearest (2 ^ 26 - 1) (2 ^ 24) 2 (by norm_num) (by norm_num)
    (by norm_num)
  rw [this]
  norm_num

end CpSZ.Block
