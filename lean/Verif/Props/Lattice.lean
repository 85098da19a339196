import Verif.Props.Requant
/-
C73: fields of integers come back exactly with the bound one half.
-/

namespace CpSZ.Block

open Buf3

/-- On integers, with the bound one half, the quantiser returns the input value. -/
theorem quantize_int {rT rD lg : ℝ → ℝ} (hT : IsRounding rT) (hD : IsRounding rD)
    (pred cur : ℤ) (hp : |pred| ≤ 7 * 2 ^ 20) (hc : |cur| ≤ 2 ^ 21) {R : Int}
    (hR : R ≤ 2 ^ 15) :
    (quantize (roundedQ rT rD lg) pred cur (1 / 2) (2 * R) R).2.1 = cur := by
  unfold quantize
  split
  · rename_i q hq
    have hr := linQuant_range (rT := rT) hD _ (1 / 2) R (by norm_num) (by omega) q hq
    obtain ⟨k, rfl⟩ : ∃ k, q = k + R := ⟨q - R, by ring⟩
    have hk : |k| ≤ 2 ^ 15 := abs_le.2 ⟨by omega, by omega⟩
    have hk' := abs_le.1 hk
    have hp' := abs_le.1 hp
    have hc' := abs_le.1 hc
    have hoff : linOffset (roundedQ rT rD lg).toDOps (1 / 2) R (k + R) = k := by
      show rD (rD ((2 * (k + R - R) : ℤ) : ℝ) * (1 / 2)) = k
      rw [show 2 * (k + R - R) = 2 * k by ring, hD.int _ (abs_le.2 ⟨by omega, by omega⟩),
        show ((2 * k : ℤ) : ℝ) * (1 / 2) = (k : ℝ) by push_cast; ring]
      exact hD.int _ (by omega)
    have hdec : (roundedQ rT rD lg).addTo pred (linOffset (roundedQ rT rD lg).toDOps (1 / 2) R
        (k + R)) = ((pred + k : ℤ) : ℝ) := by
      rw [hoff]
      show rT (rD ((pred : ℝ) + k)) = _
      have hb : |pred + k| ≤ 2 ^ 24 := abs_le.2 ⟨by omega, by omega⟩
      rw [← Int.cast_add, hD.int _ hb, hT.int _ hb]
    simp only [hdec]
    split
    · rename_i hle
      have hle' : |rT (((pred + k : ℤ) : ℝ) - cur)| ≤ 1 / 2 := of_decide_eq_true hle
      rw [← Int.cast_sub, hT.int _ (abs_le.2 ⟨by omega, by omega⟩)] at hle'
      have h0 : |pred + k - cur| < 1 := by
        have : ((|pred + k - cur| : ℤ) : ℝ) < ((1 : ℤ) : ℝ) := by
          rw [Int.cast_abs]; push_cast at hle' ⊢; linarith
        exact_mod_cast this
      have : pred + k - cur = 0 := Int.abs_lt_one_iff.1 h0
      show ((pred + k : ℤ) : ℝ) = cur
      rw [show pred + k = cur by omega]
    · rfl
  · rfl

/-- The 2D prediction from integers is an integer. -/
theorem lor2_int {rT rF rD lg : ℝ → ℝ} (hT : IsRounding rT) (hF : IsRounding rF) (a b c : ℤ)
    (ha : |a| ≤ 2 ^ 21) (hb : |b| ≤ 2 ^ 21) (hc : |c| ≤ 2 ^ 21) :
    (roundedB rT rF rD lg).lor2 a b c = ((a + b - c : ℤ) : ℝ) := by
  have ha' := abs_le.1 ha
  have hb' := abs_le.1 hb
  have hc' := abs_le.1 hc
  show rF (rT (rT ((a : ℝ) + b) - c)) = _
  rw [← Int.cast_add, hT.int _ (abs_le.2 ⟨by omega, by omega⟩), ← Int.cast_sub,
    hT.int _ (abs_le.2 ⟨by omega, by omega⟩), hF.int _ (abs_le.2 ⟨by omega, by omega⟩)]

/-- The 3D prediction from integers is an integer. -/
theorem lor3_int {rT rF rD lg : ℝ → ℝ} (hT : IsRounding rT) (hF : IsRounding rF)
    (a b c d e f g : ℤ) (ha : |a| ≤ 2 ^ 20) (hb : |b| ≤ 2 ^ 20) (hc : |c| ≤ 2 ^ 20)
    (hd : |d| ≤ 2 ^ 20) (he : |e| ≤ 2 ^ 20) (hf : |f| ≤ 2 ^ 20) (hg : |g| ≤ 2 ^ 20) :
    (roundedB rT rF rD lg).lor3 a b c d e f g = ((a + b + c - d - e - f + g : ℤ) : ℝ) := by
  have ha' := abs_le.1 ha
  have hb' := abs_le.1 hb
  have hc' := abs_le.1 hc
  have hd' := abs_le.1 hd
  have he' := abs_le.1 he
  have hf' := abs_le.1 hf
  have hg' := abs_le.1 hg
  show rF (rT (rT (rT (rT (rT (rT ((a : ℝ) + b) + c) - d) - e) - f) + g)) = _
  rw [← Int.cast_add, hT.int _ (abs_le.2 ⟨by omega, by omega⟩),
    ← Int.cast_add, hT.int _ (abs_le.2 ⟨by omega, by omega⟩),
    ← Int.cast_sub, hT.int _ (abs_le.2 ⟨by omega, by omega⟩),
    ← Int.cast_sub, hT.int _ (abs_le.2 ⟨by omega, by omega⟩),
    ← Int.cast_sub, hT.int _ (abs_le.2 ⟨by omega, by omega⟩),
    ← Int.cast_add, hT.int _ (abs_le.2 ⟨by omega, by omega⟩),
    hF.int _ (abs_le.2 ⟨by omega, by omega⟩)]

/-- **C73** Fields of integers come back exactly from the 2D codec with one bound per point, when
every bound is one half (or zero): whatever the rounding, for all grids and block sizes and all
integers up to `2^21` in magnitude. -/
theorem C73_integers_2d {rT rF rD lg : ℝ → ℝ} (hT : IsRounding rT) (hF : IsRounding rF)
    (hD : IsRounding rD) (n : Nat → ℤ) (prec : Nat → ℝ) (r1 r2 bs : Nat) (h1 : 0 < r1)
    (h2 : 0 < r2) (hb : 0 < bs) (hn : ∀ p < r1 * r2, |n p| ≤ 2 ^ 21)
    (hp : ∀ p < r1 * r2, prec p = 1 / 2 ∨ prec p = 0) (out0 : Nat → ℝ) :
    ∀ p < r1 * r2, writes out0
      (outEb2 (roundedB rT rF rD lg) (fun p => (n p : ℝ)) prec r1 r2 bs).recon p = n p := by
  set B := roundedB rT rF rD lg with hB
  have hrec := (plan_recon B r1 r2 bs h1 h2 hb (cfg2 B r2 bs (false, B.zeroT) 32768 prec true
    B.tenth (fun _ _ _ _ => none)) rfl rfl (regAt2_buf B) (fun _ _ _ _ => rfl)
    (fun p => (n p : ℝ)) (List.replicate 3 B.zeroF) out0).1
  change IsRecon B _ r2 (r1 * r2) _ (writes out0 (outEb2 B (fun p => (n p : ℝ)) prec r1 r2
    bs).recon) at hrec
  generalize writes out0 (outEb2 B (fun p => (n p : ℝ)) prec r1 r2 bs).recon = R at hrec ⊢
  intro p
  induction p using Nat.strong_induction_on with
  | _ p ih =>
    intro hlt
    have hv := hrec p hlt
    unfold lorStep at hv
    simp only [cfg2, Bool.true_and, Bool.false_eq_true, if_false] at hv
    rcases hp p hlt with e | e
    swap
    · rw [if_pos (by rw [e, hB]; exact decide_eq_true rfl)] at hv
      exact hv
    rw [if_neg (by rw [e, hB]; exact fun h => by have := of_decide_eq_true h; norm_num at this)]
      at hv
    rw [e] at hv
    have hpe : p = (p / r2) * r2 + p % r2 := by
      rw [Nat.mul_comm]; exact (Nat.div_add_mod p r2).symm
    have hY := Nat.mod_lt p h2
    obtain ⟨m, hm, hmb⟩ : ∃ m : ℤ, lorGrid2 B r2 R (p / r2) (p % r2) = m ∧
        |m| ≤ 7 * 2 ^ 20 := by
      generalize p / r2 = X at *
      generalize p % r2 = Y at *
      have key : ∀ (c : Prop) [Decidable c] (q : Nat), (¬ c → q < p) → ∃ k : ℤ,
          (if c then B.zeroT else R q) = (k : ℝ) ∧ |k| ≤ 2 ^ 21 := by
        intro c _ q hq
        by_cases hc : c
        · exact ⟨0, by rw [if_pos hc]; simp [hB, roundedB], by norm_num⟩
        · exact ⟨n q, by rw [if_neg hc]; exact ih q (hq hc) (by have := hq hc; omega),
            hn q (by have := hq hc; omega)⟩
      have hrow : ∀ h : X ≠ 0, (X - 1) * r2 + r2 = X * r2 := by
        intro h
        obtain ⟨X, rfl⟩ : ∃ k, X = k + 1 := ⟨X - 1, by omega⟩
        rw [Nat.add_sub_cancel, Nat.add_mul, Nat.one_mul]
      obtain ⟨a, ea, ba⟩ := key (Y = 0) (X * r2 + (Y - 1)) (fun h => by omega)
      obtain ⟨b, eb, bb⟩ := key (X = 0) ((X - 1) * r2 + Y)
        (fun h => by have := hrow h; omega)
      obtain ⟨c, ec, bc⟩ := key (X = 0 ∨ Y = 0) ((X - 1) * r2 + (Y - 1))
        (fun h => by have := hrow (fun h' => h (Or.inl h')); omega)
      refine ⟨a + b - c, ?_, ?_⟩
      · unfold lorGrid2
        rw [ea, eb, ec, hB]
        exact lor2_int hT hF a b c ba bb bc
      · have := abs_le.1 ba
        have := abs_le.1 bb
        have := abs_le.1 bc
        exact abs_le.2 ⟨by omega, by omega⟩
    rw [hm] at hv
    rw [hv]
    exact quantize_int hT hD m (n p) hmb (hn p hlt) (R := 32768) (by norm_num)

/-- **C73** in 3D, for integers up to `2^20` in magnitude. -/
theorem C73_integers_3d {rT rF rD lg : ℝ → ℝ} (hT : IsRounding rT) (hF : IsRounding rF)
    (hD : IsRounding rD) (n : Nat → ℤ) (prec : Nat → ℝ) (r1 r2 r3 bs : Nat) (h1 : 0 < r1)
    (h2 : 0 < r2) (h3 : 0 < r3) (hb : 0 < bs) (hn : ∀ p < r1 * r2 * r3, |n p| ≤ 2 ^ 20)
    (hp : ∀ p < r1 * r2 * r3, prec p = 1 / 2 ∨ prec p = 0) (out0 : Nat → ℝ) :
    ∀ p < r1 * r2 * r3, writes out0
      (outEb3 (roundedB rT rF rD lg) (fun p => (n p : ℝ)) prec r1 r2 r3 bs).recon p = n p := by
  set B := roundedB rT rF rD lg with hB
  have hrec := eb3_recon B (fun p => (n p : ℝ)) prec r1 r2 r3 bs h1 h2 h3 hb out0
  generalize writes out0 (outEb3 B (fun p => (n p : ℝ)) prec r1 r2 r3 bs).recon = R at hrec ⊢
  have hidx : ∀ X < r1, ∀ Y < r2, ∀ Z < r3, idx3 r2 r3 X Y Z < r1 * r2 * r3 := by
    intro X hX Y hY Z hZ
    unfold idx3
    have a : (X + 1) * (r2 * r3) ≤ r1 * (r2 * r3) := Nat.mul_le_mul_right _ hX
    have b : (Y + 1) * r3 ≤ r2 * r3 := Nat.mul_le_mul_right _ hY
    nlinarith
  have main : ∀ s, ∀ X < r1, ∀ Y < r2, ∀ Z < r3, X + Y + Z = s →
      R (idx3 r2 r3 X Y Z) = n (idx3 r2 r3 X Y Z) := by
    intro s
    induction s using Nat.strong_induction_on with
    | _ s ih =>
      intro X hX Y hY Z hZ hs
      have hlt := hidx X hX Y hY Z hZ
      have hv := hrec X hX Y hY Z hZ rfl
      unfold lorStep at hv
      simp only [cfgEb3, cfg3, Bool.true_and, Bool.false_eq_true, if_false] at hv
      rcases hp _ hlt with e | e
      swap
      · rw [if_pos (by rw [e, hB]; exact decide_eq_true rfl)] at hv
        exact hv
      rw [if_neg (by rw [e, hB]; exact fun h => by have := of_decide_eq_true h; norm_num at this)]
        at hv
      rw [e] at hv
      obtain ⟨m, hm, hmb⟩ : ∃ m : ℤ,
          lorGrid3 B r2 r3 (org false bs X Y Z) R X Y Z = m ∧ |m| ≤ 7 * 2 ^ 20 := by
        have key : ∀ A' B' C', A' ≤ X + 1 → B' ≤ Y + 1 → C' ≤ Z + 1 → A' + B' + C' < X + Y + Z + 3 →
            ∃ k : ℤ, padAt B.zeroT r2 r3 (org false bs X Y Z) R A' B' C' = (k : ℝ) ∧
              |k| ≤ 2 ^ 20 := by
          intro A' B' C' ha hb hc hsum
          unfold padAt org
          simp only [Bool.false_eq_true, if_false]
          split
          · exact ⟨0, by simp [hB, roundedB], by norm_num⟩
          · exact ⟨n (idx3 r2 r3 (A' - 1) (B' - 1) (C' - 1)),
              ih (A' - 1 + (B' - 1) + (C' - 1)) (by omega) _ (by omega) _ (by omega) _ (by omega)
                rfl, hn _ (hidx _ (by omega) _ (by omega) _ (by omega))⟩
        obtain ⟨a, ea, ba⟩ := key (X + 1) (Y + 1) Z (by omega) (by omega) (by omega) (by omega)
        obtain ⟨b, eb, bb⟩ := key (X + 1) Y (Z + 1) (by omega) (by omega) (by omega) (by omega)
        obtain ⟨c, ec, bc⟩ := key X (Y + 1) (Z + 1) (by omega) (by omega) (by omega) (by omega)
        obtain ⟨d, ed, bd⟩ := key (X + 1) Y Z (by omega) (by omega) (by omega) (by omega)
        obtain ⟨e', ee, be⟩ := key X (Y + 1) Z (by omega) (by omega) (by omega) (by omega)
        obtain ⟨f, ef, bf⟩ := key X Y (Z + 1) (by omega) (by omega) (by omega) (by omega)
        obtain ⟨g, eg, bg⟩ := key X Y Z (by omega) (by omega) (by omega) (by omega)
        refine ⟨a + b + c - d - e' - f + g, ?_, ?_⟩
        · unfold lorGrid3
          rw [ea, eb, ec, ed, ee, ef, eg, hB]
          exact lor3_int hT hF a b c d e' f g ba bb bc bd be bf bg
        · have := abs_le.1 ba
          have := abs_le.1 bb
          have := abs_le.1 bc
          have := abs_le.1 bd
          have := abs_le.1 be
          have := abs_le.1 bf
          have := abs_le.1 bg
          exact abs_le.2 ⟨by omega, by omega⟩
      rw [hm] at hv
      rw [hv]
      exact quantize_int hT hD m _ hmb ((hn _ hlt).trans (by norm_num)) (R := 16384)
        (by norm_num)
  intro p hlt
  have hX : p / (r2 * r3) < r1 := by
    rw [Nat.div_lt_iff_lt_mul (Nat.mul_pos h2 h3)]; rwa [← Nat.mul_assoc]
  have hY : p % (r2 * r3) / r3 < r2 := by
    rw [Nat.div_lt_iff_lt_mul h3]; exact Nat.mod_lt _ (Nat.mul_pos h2 h3)
  have hZ : p % (r2 * r3) % r3 < r3 := Nat.mod_lt _ h3
  have hpe : idx3 r2 r3 (p / (r2 * r3)) (p % (r2 * r3) / r3) (p % (r2 * r3) % r3) = p := by
    unfold idx3
    have a := Nat.div_add_mod p (r2 * r3)
    have b := Nat.div_add_mod (p % (r2 * r3)) r3
    nlinarith
  have := main _ _ hX _ hY _ hZ rfl
  rwa [hpe] at this

/-- **C73** The bound one half cannot be replaced by one: the one-point field `1` becomes `2`. -/
theorem C73_bound_one_loses {rT rF rD lg : ℝ → ℝ} (hT : IsRounding rT) (hF : IsRounding rF)
    (hD : IsRounding rD) (out0 : Nat → ℝ) :
    writes out0 (outEb2 (roundedB rT rF rD lg) (fun _ => 1) (fun _ => 1) 1 1 1).recon 0 = 2 := by
  set B := roundedB rT rF rD lg with hB
  have hrec := (plan_recon B 1 1 1 (by norm_num) (by norm_num) (by norm_num)
    (cfg2 B 1 1 (false, B.zeroT) 32768 (fun _ => 1) true
    B.tenth (fun _ _ _ _ => none)) rfl rfl (regAt2_buf B) (fun _ _ _ _ => rfl)
    (fun _ => 1) (List.replicate 3 B.zeroF) out0).1 0 (by norm_num)
  change writes out0 (outEb2 B (fun _ => 1) (fun _ => 1) 1 1 1).recon 0 = _ at hrec
  rw [hrec]
  have hl : lorGrid2 B 1 (writes out0 (runEnc (cfg2 B 1 1 (false, B.zeroT) 32768 (fun _ => 1) true
      B.tenth fun _ _ _ _ => none) (fun _ => 1) (planC2 1 1 1)
      ⟨fun _ => B.zeroT, none, List.replicate 3 B.zeroF⟩).recon) (0 / 1) (0 % 1) = 0 := by
    unfold lorGrid2
    simp only [Nat.zero_div, Nat.zero_mod, if_true, true_or]
    have := lor2_int (rD := rD) (lg := lg) hT hF 0 0 0 (by norm_num) (by norm_num) (by norm_num)
    simpa [hB, roundedB] using this
  rw [hl]
  have t1 : rT 1 = 1 := by simpa using hT.int 1 (by norm_num)
  have t2 : rT 2 = 2 := by simpa using hT.int 2 (by norm_num)
  have d0 : rD 0 = 0 := by simpa using hD.int 0 (by norm_num)
  have d1 : rD 1 = 1 := by simpa using hD.int 1 (by norm_num)
  have d2 : rD 2 = 2 := by simpa using hD.int 2 (by norm_num)
  have d3 : rD 65536 = 65536 := by simpa using hD.int 65536 (by norm_num)
  have tr : truncR 1 = 1 := by rw [truncR_nonneg (by norm_num)]; norm_num
  unfold lorStep quantize linQuant linOffset
  norm_num [cfg2, hB, roundedB, roundedQ, roundedOps, t1, t2, d0, d1, d2, d3, tr]

-- `float` data, rounding to nearest, mixed bounds.
example (n : Nat → ℤ) (h : ∀ p, |n p| ≤ 2 ^ 21) (out0 : Nat → ℝ) : ∀ p < 100 * 500,
    writes out0 (outEb2 (roundedB (fl nearest 24) (fl nearest 24) (fl nearest 53) (Real.logb 2))
      (fun p => (n p : ℝ)) (fun p => if p % 3 = 0 then 0 else 1 / 2) 100 500 12).recon p = n p :=
  C73_integers_2d (fl_isFloat nearest_rounding (by norm_num)).toIsRounding
    (fl_isFloat nearest_rounding (by norm_num)).toIsRounding
    (fl_isFloat nearest_rounding (by norm_num)).toIsRounding n _ 100 500 12 (by norm_num)
    (by norm_num) (by norm_num) (fun p _ => h p)
    (fun p _ => by by_cases hp : p % 3 = 0 <;> simp [hp]) out0

example (n : Nat → ℤ) (h : ∀ p, |n p| ≤ 2 ^ 20) (out0 : Nat → ℝ) : ∀ p < 20 * 30 * 40,
    writes out0 (outEb3 (roundedB (fl nearest 24) (fl nearest 24) (fl nearest 53) (Real.logb 2))
      (fun p => (n p : ℝ)) (fun _ => 1 / 2) 20 30 40 6).recon p = n p :=
  C73_integers_3d (fl_isFloat nearest_rounding (by norm_num)).toIsRounding
    (fl_isFloat nearest_rounding (by norm_num)).toIsRounding
    (fl_isFloat nearest_rounding (by norm_num)).toIsRounding n _ 20 30 40 6 (by norm_num)
    (by norm_num) (by norm_num) (by norm_num) (fun p _ => h p) (fun _ _ => Or.inl rfl) out0

end CpSZ.Block
