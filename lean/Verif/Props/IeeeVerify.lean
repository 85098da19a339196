import Verif.Props.Verify
import Verif.Props.Ieee
import Verif.Ieee.Block
/-
Property C97: what `verify` reports about arrays of IEEE-754 numbers.
-/

namespace CpSZ.Ieee
open CpSZ.Verify

/-- The operations of `verify` on bit patterns of the format `F`; `sq` and `lg` are `sqrt` and `log10`
(include/utils.hpp L51-106).  The `Type` valued quotients, products and differences are rounded to
`F` before they become `double`. -/
def bitsV (F : Fmt) (sq lg : Pat binary64 → Pat binary64) : VOps (Pat F) (Pat binary64) where
  dist x y := babs F (bsub F x y)
  ltT x y := Fp.lt (dec F x) (dec F y)
  big x := decide (dec F x ≠ .fin 0) && Fp.lt (.fin 1) (dec F (babs F x))
  rel e x := conv F binary64 (bdiv F e (babs F x))
  sq e := conv F binary64 (bmul F e e)
  toD := conv F binary64
  range x y := conv F binary64 (bsub F x y)
  relMax e x y := conv F binary64 (bdiv F e (bsub F x y))
  ofNat n := enc binary64 false (round binary64 n)
  add := badd binary64
  sub := bsub binary64
  mul := bmul binary64
  div := bdiv binary64
  sqrt := sq
  log10 := lg
  ltD x y := Fp.lt (dec binary64 x) (dec binary64 y)

theorem fp_lt_trans {a b c : Fp ℚ} (h1 : Fp.lt a b = true) (h2 : Fp.lt b c = true) :
    Fp.lt a c = true := by
  cases a <;> cases b <;> cases c <;> simp_all [Fp.lt]
  linarith

theorem fp_lt_irrefl (a : Fp ℚ) : Fp.lt a a = false := by
  cases a <;> simp [Fp.lt]

theorem fp_lt_not_nan {a b : Fp ℚ} (h : Fp.lt a b = true) : b ≠ .nan := by
  rintro rfl
  cases a <;> simp [Fp.lt] at h

/-- The running maximum of a loop that replaces `m` by `f i` if `m < f i`. -/
theorem fold_fp {A : Type} (v : A → Fp ℚ) (r : Fp ℚ → Fp ℚ → Bool)
    (tr : ∀ {a b c}, r a b = true → r b c = true → r a c = true) (ir : ∀ a, r a a = false)
    (f : Nat → A) (x0 : A) (n : Nat) :
    let m := (List.range n).foldl (fun m i => if r (v m) (v (f i)) = true then f i else m) x0
    r (v m) (v x0) = false ∧ (∀ i < n, r (v m) (v (f i)) = false) ∧
      (m = x0 ∨ ∃ i < n, m = f i ∧ ∃ x, r x (v m) = true) := by
  induction n with
  | zero => exact ⟨ir _, by omega, Or.inl rfl⟩
  | succ n ih =>
    simp only [List.range_succ, List.foldl_append, List.foldl_cons, List.foldl_nil]
    obtain ⟨h1, h2, h3⟩ := ih
    generalize (List.range n).foldl (fun m i => if r (v m) (v (f i)) = true then f i else m) x0 = m
      at *
    by_cases h : r (v m) (v (f n)) = true
    · rw [if_pos h]
      refine ⟨?_, fun i hi => ?_, Or.inr ⟨n, by omega, rfl, _, h⟩⟩
      · by_contra hc
        rw [Bool.not_eq_false] at hc
        rw [tr h hc] at h1
        cases h1
      · rcases Nat.lt_succ_iff_lt_or_eq.1 hi with hi | rfl
        · by_contra hc
          rw [Bool.not_eq_false] at hc
          have := h2 i hi
          rw [tr h hc] at this
          cases this
        · exact ir _
    · rw [if_neg h]
      refine ⟨h1, fun i hi => ?_, ?_⟩
      · rcases Nat.lt_succ_iff_lt_or_eq.1 hi with hi | rfl
        · exact h2 i hi
        · simpa using h
      · rcases h3 with h3 | ⟨i, hi, h3⟩
        · exact Or.inl h3
        · exact Or.inr ⟨i, by omega, h3⟩

/-- The loop for the largest relative error, for any operations. -/
theorem maxPw_eq {T D : Type} (O : VOps T D) (o d : Nat → T) (n : Nat) : (verify O o d n).maxPw =
    (List.range n).foldl (fun m i => if O.big (o i) then
        (if O.ltD m (O.rel (O.dist (d i) (o i)) (o i)) then O.rel (O.dist (d i) (o i)) (o i) else m)
      else m) (O.ofNat 0) := by
  unfold verify loops
  exact fold_proj (fun a : Acc T D => a.maxPw) _
    (fun m i => if O.big (o i) then
        (if O.ltD m (O.rel (O.dist (d i) (o i)) (o i)) then O.rel (O.dist (d i) (o i)) (o i) else m)
      else m) (fun _ _ => rfl) _ _

section
variable {F : Fmt} (sq lg : Pat binary64 → Pat binary64) (o d : Nat → Pat F) (n : Nat)

/-- The pattern of the error of element `i`. -/
abbrev errAt (i : Nat) : Pat F := babs F (bsub F (d i) (o i))

theorem maxAbs_eq : (verify (bitsV F sq lg) o d n).maxAbs =
    (List.range n).foldl (fun m i => if Fp.lt (dec F m) (dec F (errAt o d i)) = true then errAt o d i
      else m) (errAt o d 0) := by
  unfold verify loops
  exact fold_proj (fun a : Acc (Pat F) (Pat binary64) => a.diffMax) _
    (fun m i => if Fp.lt (dec F m) (dec F (errAt o d i)) = true then errAt o d i else m)
    (fun _ _ => rfl) _ _

theorem max_eq : (verify (bitsV F sq lg) o d n).max =
    (List.range n).foldl (fun m i => if Fp.lt (dec F m) (dec F (o i)) = true then o i else m) (o 0) := by
  unfold verify loops
  exact fold_proj (fun a : Acc (Pat F) (Pat binary64) => a.max) _
    (fun m i => if Fp.lt (dec F m) (dec F (o i)) = true then o i else m) (fun _ _ => rfl) _ _

theorem min_eq : (verify (bitsV F sq lg) o d n).min =
    (List.range n).foldl (fun m i => if Fp.lt (dec F (o i)) (dec F m) = true then o i else m) (o 0) := by
  unfold verify loops
  exact fold_proj (fun a : Acc (Pat F) (Pat binary64) => a.min) _
    (fun m i => if Fp.lt (dec F (o i)) (dec F m) = true then o i else m) (fun _ _ => rfl) _ _

/-- The printed error is the error of one element, and no error is larger. -/
theorem verify_maxAbs (hn : 0 < n) (h0 : dec F (errAt o d 0) ≠ .nan) :
    let R := verify (bitsV F sq lg) o d n
    dec F R.maxAbs ≠ .nan ∧ (∃ i < n, R.maxAbs = errAt o d i) ∧
      ∀ i < n, Fp.lt (dec F R.maxAbs) (dec F (errAt o d i)) = false := by
  intro R
  have h := fold_fp (dec F) Fp.lt fp_lt_trans fp_lt_irrefl (errAt o d) (errAt o d 0) n
  rw [← maxAbs_eq sq lg] at h
  obtain ⟨-, h2, h3⟩ := h
  refine ⟨?_, ?_, h2⟩
  · rcases h3 with h3 | ⟨i, -, -, x, hx⟩
    · rw [h3]; exact h0
    · exact fp_lt_not_nan hx
  · rcases h3 with h3 | ⟨i, hi, h3, -⟩
    · exact ⟨0, hn, h3⟩
    · exact ⟨i, hi, h3⟩

/-- **C97.**  Arrays of finite numbers.  The printed maximal error is the rounded error of one
element; if it is below a number `b` of the format, then every exact error is below `b`; if every
exact error is at most `b`, then it is at most `b`.  The printed extreme values are those of the
original. -/
theorem C97_verify (hF : F.Ok) (hn : 0 < n) (x y : Nat → ℚ) (hx : ∀ i < n, dec F (o i) = .fin (x i))
    (hy : ∀ i < n, dec F (d i) = .fin (y i)) :
    let R := verify (bitsV F sq lg) o d n
    (∃ i < n, dec F R.maxAbs = Fp.abs (round F (y i - x i))) ∧
    (∀ b r, Rep F b → dec F R.maxAbs = .fin r → r < b → ∀ i < n, |y i - x i| < b) ∧
    (∀ b, Rep F b → (∀ i < n, |y i - x i| ≤ b) → ∃ r, dec F R.maxAbs = .fin r ∧ r ≤ b) ∧
    (∃ M m, dec F R.max = .fin M ∧ dec F R.min = .fin m ∧ (∀ i < n, m ≤ x i ∧ x i ≤ M) ∧
      (∃ i < n, M = x i) ∧ ∃ i < n, m = x i) := by
  intro R
  have he : ∀ i < n, dec F (errAt o d i) = Fp.abs (round F (y i - x i)) := by
    intro i hi
    rw [errAt, dec_abs hF, dec_sub hF, hy i hi, hx i hi, sub_fin]
  have hnan : ∀ z : ℚ, Fp.abs (round F z) ≠ .nan := by
    intro z
    have := round_not_nan (F := F) z
    cases h : round F z <;> simp_all [Fp.abs]
  obtain ⟨h1, ⟨k, hk, h2⟩, h3⟩ := verify_maxAbs sq lg o d n hn (by rw [he 0 hn]; exact hnan _)
  refine ⟨⟨k, hk, by rw [← he k hk]; exact congrArg _ h2⟩, ?_, ?_, ?_⟩
  · intro b r hb hr hrb i hi
    by_contra hc
    push Not at hc
    have h4 := h3 i hi
    rw [hr, he i hi] at h4
    have hb0 : 0 ≤ b := by
      have hr' : Fp.abs (round F (y k - x k)) = .fin r := by
        rw [← he k hk, ← h2]; exact hr
      cases h : round F (y k - x k) with
      | nan => rw [h] at hr'; cases hr'
      | inf s => rw [h] at hr'; cases hr'
      | fin z =>
        rw [h, abs_fin] at hr'
        cases hr'
        exact (abs_nonneg z).trans hrb.le
    have hab : Fp.abs (round F (y i - x i)) = Fp.abs (round F |y i - x i|) := by
      rcases abs_cases (y i - x i) with ⟨h, -⟩ | ⟨h, -⟩
      · rw [h]
      · rw [h, round_neg hF]
        cases round F (y i - x i) <;> simp [Fp.abs, Fp.neg]
        rename_i z
        split <;> split <;> linarith
    rw [hab] at h4
    cases h : round F |y i - x i| with
    | nan => exact round_not_nan _ h
    | inf s => rw [h] at h4; simp [Fp.abs, Fp.lt] at h4
    | fin z =>
      rw [h, abs_fin] at h4
      have := round_ge hF hb hb0 hc h
      simp only [Fp.lt, decide_eq_false_iff_not, not_lt] at h4
      linarith [le_abs_self z]
  · intro b hb hall
    obtain ⟨z, hz, hzb⟩ := round_bounded hF hb (hall k hk)
    exact ⟨|z|, by
      have := he k hk
      rw [hz, abs_fin, ← h2] at this
      exact this, hzb⟩
  · have hM := fold_fp (dec F) Fp.lt fp_lt_trans fp_lt_irrefl o (o 0) n
    rw [← max_eq sq lg o d n] at hM
    have hm := fold_fp (dec F) (fun a b => Fp.lt b a) (fun h h' => fp_lt_trans h' h) fp_lt_irrefl
      o (o 0) n
    rw [← min_eq sq lg o d n] at hm
    have key : ∀ (z w : Pat F) (P : Pat F → Prop), (w = o 0 ∨ ∃ i < n, w = o i ∧ P w) →
        ∃ i < n, w = o i := by
      rintro - w P (h | ⟨i, hi, h, -⟩)
      · exact ⟨0, hn, h⟩
      · exact ⟨i, hi, h⟩
    obtain ⟨i, hi, ei⟩ := key (o 0) _ (fun w => ∃ x, Fp.lt x (dec F w) = true) hM.2.2
    obtain ⟨j, hj, ej⟩ := key (o 0) _ (fun w => ∃ x, Fp.lt (dec F w) x = true) hm.2.2
    refine ⟨x i, x j, by rw [← hx i hi]; exact congrArg _ ei,
      by rw [← hx j hj]; exact congrArg _ ej, fun l hl => ⟨?_, ?_⟩, ⟨i, hi, rfl⟩, j, hj, rfl⟩
    · have := hm.2.1 l hl
      rw [ej, hx j hj, hx l hl] at this
      simpa [Fp.lt] using this
    · have := hM.2.1 l hl
      rw [ei, hx i hi, hx l hl] at this
      simpa [Fp.lt] using this

/-- The printed range of the values is the spread of the original, rounded to the element type. -/
theorem C97_range (hF : F.Ok) (hp : F.p ≤ binary64.p) (hu : binary64.umin ≤ F.umin)
    (he : F.emax ≤ binary64.emax) (hn : 0 < n) (x y : Nat → ℚ) (hx : ∀ i < n, dec F (o i) = .fin (x i))
    (hy : ∀ i < n, dec F (d i) = .fin (y i)) :
    ∃ i < n, ∃ j < n, (∀ k < n, x j ≤ x k ∧ x k ≤ x i) ∧
      dec binary64 (verify (bitsV F sq lg) o d n).range = round F (x i - x j) := by
  obtain ⟨-, -, -, M, m, hM, hm, hall, ⟨i, hi, rfl⟩, j, hj, rfl⟩ :=
    C97_verify sq lg o d n hF hn x y hx hy
  refine ⟨i, hi, j, hj, hall, ?_⟩
  change dec binary64 (conv F binary64 (bsub F (verify (bitsV F sq lg) o d n).max
    (verify (bitsV F sq lg) o d n).min)) = _
  rw [dec_conv_wide hF hp hu he, dec_sub hF, hM, hm, sub_fin]

end

/-- Non-vacuity: an error of `1/8` in the second element is printed as `1/8`. -/
example : (verify (bitsV binary32 id id) (fun i => f32 (i + 1)) (fun i => f32 (i + 1 + i / 8)) 2).maxAbs =
    f32 (1 / 8) ∧ f32 (1 / 8) ≠ f32 0 := by
  constructor <;> decide +kernel

/-- The range of 1, 2, 3 is 2. -/
example : dec binary64 (verify (bitsV binary32 id id) (fun i => f32 (i + 1)) (fun i => f32 (i + 1)) 3).range
    = .fin 2 := by decide +kernel

/-- A reconstruction with a NaN behind the first element: the report shows the errors 0. -/
theorem C97_nan_unseen (sq lg : Pat binary64 → Pat binary64) :
    let d : Nat → Pat binary32 := fun i => if i = 0 then f32 3 else 0x7FC00000#32
    dec binary32 (d 1) = .nan ∧
      dec binary32 (verify (bitsV binary32 sq lg) (fun _ => f32 3) d 2).maxAbs = .fin 0 ∧
      dec binary64 (verify (bitsV binary32 sq lg) (fun _ => f32 3) d 2).maxPw = .fin 0 := by
  have e1 : (bitsV binary32 sq lg).big = (bitsV binary32 id id).big := rfl
  have e2 : (bitsV binary32 sq lg).rel = (bitsV binary32 id id).rel := rfl
  have e3 : (bitsV binary32 sq lg).ltD = (bitsV binary32 id id).ltD := rfl
  have e4 : (bitsV binary32 sq lg).dist = (bitsV binary32 id id).dist := rfl
  have e5 : (bitsV binary32 sq lg).ofNat = (bitsV binary32 id id).ofNat := rfl
  refine ⟨by decide +kernel, ?_, ?_⟩
  · rw [maxAbs_eq]; decide +kernel
  · rw [maxPw_eq, e1, e2, e3, e4, e5]; decide +kernel

end CpSZ.Ieee
