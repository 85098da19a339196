/-!
# Interval estimation and sampling of the 3D block codec

`round_up_power_of_2` (src/sz_compression_utils.cpp L18-27) and
`include/sz_optimize_quant_intervals.hpp`.
-/

namespace CpSZ.Estimate

/-- One `base = base | (base >> s)` statement.  (src/sz_compression_utils.cpp L21-25.) -/
def smear (b : BitVec 32) (s : Nat) : BitVec 32 := b ||| (b >>> s)

/-- `round_up_power_of_2` (src/sz_compression_utils.cpp L18-27), on `unsigned int`. -/
def roundUp (base : BitVec 32) : BitVec 32 :=
  let b := base - 1#32
  let b := smear b 1
  let b := smear b 2
  let b := smear b 4
  let b := smear b 8
  let b := smear b 16
  b + 1#32

/-- The accumulation loop of `estimate_quantization_intervals`
(include/sz_optimize_quant_intervals.hpp L10-14): index at which the running sum first exceeds
`target`, or the length.  `sum` is a `size_t`; it counts samples of an array in memory, so the
model uses an unbounded number. -/
def accIndex (target : Nat) : List Nat → Nat → Nat → Nat
  | [], i, _ => i
  | x :: xs, i, sum => if target < sum + x then i else accIndex target xs (i + 1) (sum + x)

/-- `estimate_quantization_intervals` (include/sz_optimize_quant_intervals.hpp L6-20).  `target` is
the value of the conversion `sample_count * QuantIntvAccThreshold`, left arbitrary.  The histogram
is not empty in any call, `intervals.size()-1` is truncated subtraction. -/
def estimate (intervals : List Nat) (target : Nat) : BitVec 32 :=
  let i := accIndex target intervals 0 0
  let i := if i = intervals.length then intervals.length - 1 else i
  let acc := BitVec.ofNat 32 (2 * (i + 1))
  let num := 2#32 * roundUp acc
  if num.toNat > 32 then num else 32#32

/-! ## Cursor movement of the two sampling passes -/

/-- Cursor state of `sample_rough_mean_3d` (include/sz_optimize_quant_intervals.hpp L39-61):
`data_pos - data`, `offset_count`, `offset_count_2`. -/
structure Rough where
  pos : Int
  oc : Nat
  oc2 : Nat

/-- The loop condition `data_pos - data < len` (include/sz_optimize_quant_intervals.hpp L46): `len`
is a `size_t`, so a negative difference is converted to a huge number. -/
def running (len : Nat) (pos : Int) : Prop := 0 ≤ pos ∧ pos < len

instance (len : Nat) (pos : Int) : Decidable (running len pos) :=
  inferInstanceAs (Decidable (_ ∧ _))

/-- The body of the loop (include/sz_optimize_quant_intervals.hpp L47-60). -/
def roughStep (r2 r3 sd : Nat) (s : Rough) : Rough :=
  let s : Rough := ⟨s.pos + sd, s.oc + sd, s.oc2 + sd⟩
  let s : Rough := if s.oc ≥ r3 then ⟨s.pos - 1, 0, s.oc2⟩ else s
  if s.oc2 ≥ r2 * r3 then ⟨s.pos - 1, s.oc, 0⟩ else s

/-- State before the `n`-th test of the loop condition. 
(include/sz_optimize_quant_intervals.hpp L46-61.) -/
def roughAt (r2 r3 sd : Nat) : Nat → Rough
  | 0 => ⟨0, 0, 0⟩
  | n + 1 => roughStep r2 r3 sd (roughAt r2 r3 sd n)

/-- Cursor state of the sampling loop of `optimize_quant_invl_3d`
(include/sz_optimize_quant_intervals.hpp L67-125). -/
structure Samp where
  pos : Int
  oc : Nat
  n1 : Nat
  n2 : Nat

/-- The initial cursor (include/sz_optimize_quant_intervals.hpp L73-79); `QuantIntvSampleDistance`
is 100. -/
def sampInit (r2 r3 : Nat) : Samp := ⟨r2 * r3 + r3 + 98, 98, 1, 1⟩

/-- The cursor update (include/sz_optimize_quant_intervals.hpp L109-122).  The `size_t` differences
may wrap around, but the pointer moves by the integer sum. -/
def sampStep (r2 r3 : Nat) (s : Samp) : Samp :=
  let oc := s.oc + 100
  if oc ≥ r3 then
    let n2 := s.n2 + 1
    let pos := if n2 = r2 then s.pos + r3 else s.pos
    let n1 := if n2 = r2 then s.n1 + 1 else s.n1
    let n2 := if n2 = r2 then 1 else n2
    let oc2 := (n1 + n2) % 100
    let pos := pos + ((r3 + 100 - oc : Int) + (100 - oc2))
    let oc := 100 - oc2
    ⟨pos, if oc = 0 then oc + 1 else oc, n1, n2⟩
  else ⟨s.pos + 100, oc, s.n1, s.n2⟩

/-- State before the `n`-th test of the loop condition. 
(include/sz_optimize_quant_intervals.hpp L87-124.) -/
def sampAt (r2 r3 : Nat) : Nat → Samp
  | 0 => sampInit r2 r3
  | n + 1 => sampStep r2 r3 (sampAt r2 r3 n)

/-- Indices read by one iteration: the value itself and the seven neighbours of
`lorenzo_predict_3d` (include/sz_prediction.hpp).  (include/sz_optimize_quant_intervals.hpp L88;
include/sz_prediction.hpp L22-28.) -/
def sampReads (r2 r3 : Nat) (pos : Int) : List Int :=
  [pos, pos - 1, pos - r3, pos - r2 * r3, pos - r3 - 1, pos - r2 * r3 - 1,
    pos - r2 * r3 - r3, pos - r2 * r3 - r3 - 1]

/-! ## Lemmas -/

theorem smear_bit (b : BitVec 32) (s i : Nat) :
    (smear b s).getLsbD i = (b.getLsbD i || b.getLsbD (s + i)) := by
  simp only [smear, BitVec.getLsbD_or, BitVec.getLsbD_ushiftRight]

/-- After smearing, bit `i` tells whether one of the bits `i … i+31` was set. -/
theorem smeared_bit (b : BitVec 32) (i : Nat) :
    (smear (smear (smear (smear (smear b 1) 2) 4) 8) 16).getLsbD i = true ↔
      ∃ j, i ≤ j ∧ b.getLsbD j = true := by
  have big : ∀ j, 32 ≤ j → b.getLsbD j = false := fun j h => BitVec.getLsbD_of_ge _ _ h
  have h1 : ∀ i, (smear b 1).getLsbD i = true ↔ ∃ j, i ≤ j ∧ j < i + 2 ∧ b.getLsbD j = true := by
    intro i
    rw [smear_bit, Bool.or_eq_true]
    constructor
    · rintro (h | h)
      · exact ⟨i, by omega, by omega, h⟩
      · exact ⟨1 + i, by omega, by omega, h⟩
    · rintro ⟨j, a, c, h⟩
      rcases (show j = i ∨ j = 1 + i by omega) with rfl | rfl
      · exact .inl h
      · exact .inr h
  have step : ∀ (c : BitVec 32) (s : Nat),
      (∀ i, c.getLsbD i = true ↔ ∃ j, i ≤ j ∧ j < i + s ∧ b.getLsbD j = true) →
      ∀ i, (smear c s).getLsbD i = true ↔ ∃ j, i ≤ j ∧ j < i + 2 * s ∧ b.getLsbD j = true := by
    intro c s hc i
    rw [smear_bit, Bool.or_eq_true, hc, hc]
    constructor
    · rintro (⟨j, p, q, h⟩ | ⟨j, p, q, h⟩)
      · exact ⟨j, by omega, by omega, h⟩
      · exact ⟨j, by omega, by omega, h⟩
    · rintro ⟨j, p, q, h⟩
      by_cases hj : j < i + s
      · exact .inl ⟨j, p, hj, h⟩
      · exact .inr ⟨j, by omega, by omega, h⟩
  rw [step _ 16 (step _ 8 (step _ 4 (step _ 2 h1)))]
  constructor
  · rintro ⟨j, p, _, h⟩
    exact ⟨j, p, h⟩
  · rintro ⟨j, p, h⟩
    refine ⟨j, p, ?_, h⟩
    rcases Nat.lt_or_ge j 32 with hj | hj
    · omega
    · rw [big j hj] at h
      exact absurd h (by simp)

/-- The smeared number is one less than the next power of two. -/
theorem smeared_toNat (b : BitVec 32) (h0 : b.toNat ≠ 0) :
    (smear (smear (smear (smear (smear b 1) 2) 4) 8) 16).toNat = 2 ^ (b.toNat.log2 + 1) - 1 := by
  apply Nat.eq_of_testBit_eq
  intro i
  rw [Nat.testBit_two_pow_sub_one, Bool.eq_iff_iff]
  have := smeared_bit b i
  simp only [BitVec.getLsbD] at this
  rw [this, decide_eq_true_iff]
  constructor
  · rintro ⟨j, hij, hj⟩
    have := Nat.ge_two_pow_of_testBit hj
    have : j ≤ b.toNat.log2 := (Nat.le_log2 h0).mpr this
    omega
  · intro h
    exact ⟨b.toNat.log2, by omega, Nat.testBit_log2 h0⟩

theorem roundUp_pow (n : Nat) (h1 : 1 ≤ n) (h2 : n ≤ 2 ^ 31) :
    ∃ k, k ≤ 31 ∧ (roundUp (BitVec.ofNat 32 n)).toNat = 2 ^ k ∧ n ≤ 2 ^ k ∧
      (k = 0 ∨ 2 ^ (k - 1) < n) := by
  have hb : (BitVec.ofNat 32 n - 1#32).toNat = n - 1 := by
    rw [BitVec.toNat_sub]
    simp only [BitVec.toNat_ofNat]
    omega
  by_cases hn : n = 1
  · subst hn
    exact ⟨0, by omega, by decide, by omega, .inl rfl⟩
  have h0 : (BitVec.ofNat 32 n - 1#32).toNat ≠ 0 := by omega
  have hs := smeared_toNat _ h0
  have hl : (n - 1).log2 ≤ 30 := by
    have : (n - 1).log2 < 31 := (Nat.log2_lt (by omega)).mpr (by omega)
    omega
  have hp : 2 ^ ((n - 1).log2 + 1) ≤ 2 ^ 31 := Nat.pow_le_pow_right (by omega) (by omega)
  have hpos : 0 < 2 ^ ((n - 1).log2 + 1) := Nat.pow_pos (by omega)
  refine ⟨(n - 1).log2 + 1, by omega, ?_, ?_, .inr ?_⟩
  · simp only [roundUp]
    rw [BitVec.toNat_add, hs, hb]
    simp only [BitVec.toNat_ofNat]
    omega
  · have : n - 1 < 2 ^ ((n - 1).log2 + 1) := Nat.lt_log2_self
    omega
  · have : 2 ^ (n - 1).log2 ≤ n - 1 := Nat.log2_self_le (by omega)
    simp only [Nat.add_sub_cancel]
    omega

/-- The accumulation loop: nothing before the returned index reaches the target, and if the
index lies inside the histogram, the sum up to and including it does. -/
theorem accIndex_spec (target : Nat) (l : List Nat) (i s : Nat) (hs : s ≤ target) :
    i ≤ accIndex target l i s ∧ accIndex target l i s ≤ i + l.length ∧
    (∀ k, i + k ≤ accIndex target l i s → s + (l.take k).sum ≤ target) ∧
    (accIndex target l i s < i + l.length →
      target < s + (l.take (accIndex target l i s + 1 - i)).sum) := by
  induction l generalizing i s with
  | nil => simp [accIndex, hs]
  | cons x xs ih =>
    simp only [accIndex]
    split
    · next h =>
      refine ⟨Nat.le_refl _, by simp, ?_, ?_⟩
      · intro k hk
        have : k = 0 := by omega
        subst this
        simpa using hs
      · intro _
        have : i + 1 - i = 1 := by omega
        simp [this, h]
    · next h =>
      obtain ⟨a, b, c, d⟩ := ih (i + 1) (s + x) (by omega)
      refine ⟨by omega, by simp only [List.length_cons]; omega, ?_, ?_⟩
      · intro k hk
        rcases k with _ | k
        · simpa using hs
        · have := c k (by omega)
          simp only [List.take_succ_cons, List.sum_cons]
          omega
      · intro hlt
        simp only [List.length_cons] at hlt
        have hd := d (by omega)
        have : accIndex target xs (i + 1) (s + x) + 1 - i
            = (accIndex target xs (i + 1) (s + x) + 1 - (i + 1)) + 1 := by omega
        rw [this]
        simp only [List.take_succ_cons, List.sum_cons]
        omega

end CpSZ.Estimate
