import Verif.Block.Buffer
/-
The block codecs under rounding and in exact arithmetic.
-/

namespace CpSZ.Block

variable {T F D : Type}

/-- Block arithmetic with data rounded by `rT`, `float` values by `rF`, `double` values by
`rD`: include/sz_prediction.hpp, `rel_param_err` and `reg_precisions` of
src/sz_compress_3d.cpp L25-28, L333-336. -/
noncomputable def roundedB (rT rF rD lg : ℝ → ℝ) : BOps ℝ ℝ ℝ where
  O := roundedQ rT rD lg
  C := roundedQ rF rD lg
  isZero p := decide (p = 0)
  zeroT := 0
  zeroF := 0
  zeroD := 0
  tenth := rD (1 / 10)
  lor2 a b c := rF (rT (rT (a + b) - c))
  lor3 a b c d e f g := rF (rT (rT (rT (rT (rT (rT (a + b) + c) - d) - e) - f) + g))
  reg2 a b c x y := rF (rT (rF (rF (rF (a * x) + rF (b * y)) + c)))
  reg3 a b c d x y z := rF (rT (rF (rF (rF (rF (a * x) + rF (b * y)) + rF (c * z)) + d)))
  regPrec n p := rF (rD (rD (rD (1 / 10) * p) / n))
  divB p b := rF (p / b)

/-- Exact arithmetic. -/
noncomputable def realB : BOps ℝ ℝ ℝ := roundedB id id id (Real.logb 2)

theorem linQuant_shift (O : DOps D) (diff prec : D) (cap R R' : Int) :
    linQuant O diff prec cap R' = (linQuant O diff prec cap R).map (· + (R' - R)) := by
  unfold linQuant
  dsimp only
  split
  · simp only [Option.map_some, Option.some.injEq]; omega
  · rfl

/-- With a mean in use the capacity is smaller by two and code 1 does not occur. -/
theorem linQuant_mean {rT rD lg : ℝ → ℝ} (hr : IsRounding rD) (diff prec : ℝ) (R : Int)
    (hp : 0 < prec) (hR : 2 * R ≤ 2 ^ 24) (q : Int)
    (h : linQuant (roundedOps rT rD lg).toDOps diff prec (2 * R - 2) R = some q) :
    1 < q ∧ q < 2 * R - 1 := by
  rw [linQuant_shift _ _ _ _ (R - 1) R, show 2 * R - 2 = 2 * (R - 1) by omega] at h
  obtain ⟨q', h', rfl⟩ := Option.map_eq_some_iff.1 h
  have := linQuant_range hr diff prec (R - 1) hp (by omega) q' h'
  omega

theorem encPt_un (G : Cfg T F D) (pos : Nat → Prop) (hG : Good G pos) (data : Nat → T)
    (s : St T F) (p : Pt) (hp : pos p.pos) :
    (encPt G data s p).2.1.length = if (encPt G data s p).1 = 0 then 1 else 0 := by
  have hq : ∀ pred cap, (∀ diff q,
      linQuant G.O.toDOps diff (G.prec p.pos) cap G.radius = some q → 0 < q) →
      (quantize G.O pred (data p.pos) (G.prec p.pos) cap G.radius).2.2.length =
        if (quantize G.O pred (data p.pos) (G.prec p.pos) cap G.radius).1 = 0 then 1 else 0 := by
    intro pred cap hc
    rcases quantize_value G.O pred (data p.pos) (G.prec p.pos) cap G.radius with
      ⟨_, h1, h2⟩ | ⟨_, ⟨diff, h1⟩, h2⟩
    · rw [h1, h2]; rfl
    · have := hc diff _ h1
      rw [h2, if_neg (by omega)]
      rfl
  rcases encPt_cases G data s p with ⟨_, h⟩ | ⟨hz, ⟨c, hm, h⟩ | ⟨hm, m, hme, hlt, h⟩ | ⟨hm, h⟩⟩
  · rw [h]; rfl
  · rw [h]
    exact hq _ _ (fun d q h => (hG.reg p.pos hp hz d q h).1)
  · rw [h]; rfl
  · rw [h]
    exact hq _ _ (fun d q h => (hG.lor p.pos hp hz d q h).1)

theorem runEnc_un_count (G : Cfg T F D) (pos : Nat → Prop) (hG : Good G pos) (data : Nat → T)
    (es : List Ev) (hpos : ∀ p ∈ positions es, pos p) (s : St T F) :
    (runEnc G data es s).un.length = (runEnc G data es s).ty.count 0 := by
  induction es generalizing s with
  | nil => rfl
  | cons e es ih =>
    cases e with
    | start o sx sy sz =>
      cases hs : G.sel o sx sy sz <;>
        (simp only [runEnc, encEv, hs, Out.app, Out.nil, List.nil_append]; exact ih hpos _)
    | copy src len =>
      simp only [runEnc, encEv, Out.app, Out.nil, List.nil_append]
      exact ih hpos _
    | pt p =>
      have hp : pos p.pos := hpos p.pos (by simp [positions])
      simp only [runEnc, encEv, Out.app, Out.nil, List.cons_append, List.nil_append,
        List.length_append, ih (fun q hq => hpos q (by simp [positions, hq])),
        encPt_un G pos hG data s p hp, List.count_cons, beq_iff_eq]
      omega

theorem runEnc_sel_congr (G : Cfg T F D) (data : Nat → T) (es : List Ev) (s : St T F)
    (sel' : Nat → Nat → Nat → Nat → Option (List F))
    (h : ∀ o sx sy sz, Ev.start o sx sy sz ∈ es → G.sel o sx sy sz = sel' o sx sy sz) :
    runEnc G data es s = runEnc { G with sel := sel' } data es s := by
  induction es generalizing s with
  | nil => rfl
  | cons e es ih =>
    have he : encEv G data s e = encEv { G with sel := sel' } data s e := by
      cases e with
      | start o sx sy sz =>
        simp only [encEv, h o sx sy sz (by simp)]
      | copy => rfl
      | pt p => rfl
    simp only [runEnc, he]
    rw [ih _ (fun o sx sy sz hm => h o sx sy sz (by simp [hm]))]

theorem planC2_starts (r1 r2 bs : Nat) (o sx sy sz : Nat)
    (h : Ev.start o sx sy sz ∈ planC2 r1 r2 bs) : sx ≤ bs ∧ sy ≤ bs := by
  rw [planC2_closed] at h
  obtain ⟨i, -, h⟩ := List.mem_flatMap.1 h
  rcases List.mem_append.1 h with h | h
  · obtain ⟨j, -, h⟩ := List.mem_flatMap.1 h
    unfold blk2 at h
    rcases List.mem_cons.1 h with h | h
    · injection h with _ h1 h2
      rw [h1, h2, blkSize_eq, blkSize_eq]
      omega
    · obtain ⟨x, -, h⟩ := List.mem_flatMap.1 h
      obtain ⟨y, -, h⟩ := List.mem_flatMap.1 h
      rw [List.mem_singleton] at h
      cases h
  · rw [List.mem_singleton] at h
    cases h

/-! ### A field without any predictable value -/

/-- Checkerboard of height `M`. -/
noncomputable def chk (M : ℝ) (X Y : Nat) : ℝ := if (X + Y) % 2 = 0 then M else -M

theorem chk_succ_right (M : ℝ) (X Y : Nat) : chk M X (Y + 1) = - chk M X Y := by
  unfold chk
  rcases Nat.mod_two_eq_zero_or_one (X + Y) with h | h
  · rw [if_neg (by omega), if_pos h]
  · rw [if_pos (by omega), if_neg (by omega), neg_neg]

theorem chk_succ_left (M : ℝ) (X Y : Nat) : chk M (X + 1) Y = - chk M X Y := by
  unfold chk
  rcases Nat.mod_two_eq_zero_or_one (X + Y) with h | h
  · rw [if_neg (by omega), if_pos h]
  · rw [if_pos (by omega), if_neg (by omega), neg_neg]

theorem chk_abs (M : ℝ) (hM : 0 ≤ M) (X Y : Nat) : |chk M X Y| = M := by
  unfold chk
  split
  · exact abs_of_nonneg hM
  · rw [abs_neg, abs_of_nonneg hM]

theorem chk_lor (M : ℝ) (hM : 0 ≤ M) (d2 X Y : Nat) (hY : Y < d2) :
    M ≤ |chk M X Y - lorGrid2 realB d2 (fun p => chk M (p / d2) (p % d2)) X Y| := by
  have hv : ∀ X Y, Y < d2 → chk M ((X * d2 + Y) / d2) ((X * d2 + Y) % d2) = chk M X Y := by
    intro X Y hY
    rw [(grid_div hY).1, (grid_div hY).2]
  simp only [lorGrid2, realB, roundedB, id]
  cases X with
  | zero =>
    cases Y with
    | zero => simp [chk_abs M hM]
    | succ Y =>
      simp only [Nat.add_sub_cancel, hv 0 Y (by omega), Nat.succ_ne_zero, if_false, if_true,
        chk_succ_right, true_or]
      have := chk_abs M hM 0 Y
      rw [show - chk M 0 Y - (chk M 0 Y + 0 - 0) = -2 * chk M 0 Y by ring, abs_mul, this]
      norm_num
      linarith
  | succ X =>
    cases Y with
    | zero =>
      simp only [Nat.add_sub_cancel, hv X 0 (by omega), Nat.succ_ne_zero, if_false, if_true,
        chk_succ_left, or_true]
      have := chk_abs M hM X 0
      rw [show - chk M X 0 - (0 + chk M X 0 - 0) = -2 * chk M X 0 by ring, abs_mul, this]
      norm_num
      linarith
    | succ Y =>
      simp only [Nat.add_sub_cancel, hv X Y (by omega), hv X (Y + 1) (by omega),
        hv (X + 1) Y (by omega), Nat.succ_ne_zero, if_false, or_self,
        chk_succ_left, chk_succ_right]
      have := chk_abs M hM X Y
      rw [show - -chk M X Y - (-chk M X Y + -chk M X Y - chk M X Y) = 4 * chk M X Y by ring,
        abs_mul, this]
      norm_num
      linarith

theorem linQuant_none (d prec : ℝ) (hp : 0 < prec) (cap R : Int) (h : cap * prec ≤ |d|) :
    linQuant (roundedOps id id (Real.logb 2)).toDOps d prec cap R = none := by
  unfold linQuant
  simp only [roundedOps, id, decide_eq_true_eq]
  rw [if_neg]
  have : (cap : ℝ) ≤ |d| / prec := by rwa [le_div_iff₀ hp]
  push_cast
  linarith

end CpSZ.Block
