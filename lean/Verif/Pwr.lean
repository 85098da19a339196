import Verif.Block.Real
import Verif.Props.Block
import Verif.Props.BlockMore
import Verif.Props.Bytes
/-
The codec with a point-wise relative bound: src/sz_compress_pwr.cpp and
src/sz_decompress_pwr.cpp.  It takes logarithms, records signs, moves zeros below a
threshold and hands the logarithms to the block codec.
-/

namespace CpSZ.Pwr

open CpSZ.Block

/-- The arithmetic of the two files on values of type `T` and `double`s `D`.

* `log2`, `exp2`, `neg`, `abs` — the functions of `cmath`, result converted to `T`;
* `logPrec p m` — `log2(1.0 + p) - m * epsilon` (src/sz_compress_pwr.cpp L42);
* `below2 m lp` — `min_log_data - 2.0001*log_precision`, converted to `T` (L45);
* `below1 m lp` — `min_log_data - 1.0001*log_precision`, converted to `T` (L52);
* `logEb e l` — `MAX(log2(1.0 + e) - l * epsilon, 0)` (L95-96);
* `lower t l e` — `MIN(threshold, l - 1.0001 * e)`, converted to `T` (L97). -/
structure POps (T D : Type) where
  zero : T
  zeroD : D
  isZero : T → Bool
  lt : T → T → Bool
  eq : T → T → Bool
  neg : T → T
  abs : T → T
  log2 : T → T
  exp2 : T → T
  logPrec : D → T → D
  below2 : T → D → T
  below1 : T → D → T
  logEb : D → T → D
  lower : T → T → D → T

variable {T F D : Type}

/-- `data[i] < 0` decides the sign flag (src/sz_compress_pwr.cpp L29-30, L87-88). -/
def signOf (P : POps T D) (x : T) : Bool := P.lt x P.zero

/-- `log_data[i]` after src/sz_compress_pwr.cpp L29-36: the magnitude, replaced by its logarithm
when positive. -/
def logOf (P : POps T D) (x : T) : T :=
  let a := if P.lt x P.zero then P.neg x else x
  if P.lt P.zero a then P.log2 a else a

/-- Smallest and largest value of the field (src/sz_compress_pwr.cpp L17-22). -/
def minMax (P : POps T D) (data : Nat → T) : Nat → T × T
  | 0 => (data 0, data 0)
  | i + 1 =>
    let m := minMax P data i
    (if P.lt m.1 (data (i + 1)) then m.1 else data (i + 1),
     if P.lt (data (i + 1)) m.2 then m.2 else data (i + 1))

/-- `max_abs_log_data` before the loop (src/sz_compress_pwr.cpp L23-26). -/
def startAbs (P : POps T D) (mn mx : T) : T :=
  if P.isZero mn then P.abs (P.log2 (P.abs mx))
  else if P.isZero mx then P.abs (P.log2 (P.abs mn))
  else if P.lt (P.abs (P.log2 (P.abs mx))) (P.abs (P.log2 (P.abs mn))) then
    P.abs (P.log2 (P.abs mn))
  else P.abs (P.log2 (P.abs mx))

/-- `(max_abs_log_data, min_log_data)` after `i` iterations of the loop of
src/sz_compress_pwr.cpp L28-40. -/
def logScan (P : POps T D) (data : Nat → T) (s : T × T) : Nat → T × T
  | 0 => s
  | i + 1 =>
    let m := logScan P data s i
    if P.lt P.zero (if P.lt (data i) P.zero then P.neg (data i) else data i) then
      let l := logOf P (data i)
      (if P.lt m.1 l then l else m.1, if P.lt l m.2 then l else m.2)
    else m

/-- `(max_abs_log_data, min_log_data)` after src/sz_compress_pwr.cpp L41. -/
def logRange (P : POps T D) (data : Nat → T) (n : Nat) : T × T :=
  let mm := minMax P data (n - 1)
  let s := startAbs P mm.1 mm.2
  let m := logScan P data (s, s) n
  (if P.lt m.1 (P.abs m.2) then P.abs m.2 else m.1, m.2)

/-- `log_precision` (src/sz_compress_pwr.cpp L42). -/
def logPrecision (P : POps T D) (data : Nat → T) (n : Nat) (prec : D) : D :=
  P.logPrec prec (logRange P data n).1

/-- The field handed to the block codec (src/sz_compress_pwr.cpp L35-47). -/
def logData (P : POps T D) (data : Nat → T) (n : Nat) (prec : D) (i : Nat) : T :=
  if P.isZero (data i) then P.below2 (logRange P data n).2 (logPrecision P data n prec)
  else logOf P (data i)

/-- `threshold` (src/sz_compress_pwr.cpp L52). -/
def threshold (P : POps T D) (data : Nat → T) (n : Nat) (prec : D) : T :=
  P.below1 (logRange P data n).2 (logPrecision P data n prec)

/-- The sign array (src/sz_compress_pwr.cpp L14-15, L30). -/
def signs (P : POps T D) (data : Nat → T) (n : Nat) : List Byte :=
  (List.range n).map fun i => if signOf P (data i) then 1#8 else 0#8

/-- `sz_compress_2d_pwr` (src/sz_compress_pwr.cpp L8-63); `sel` is the choice of regression blocks
in the block codec.  The loop counter of L19 is an `int`; the model covers fields where it does not
overflow. -/
def compressPwr (P : POps T D) (B : BOps T F D) (f : Fmt T F D) (E1 E2 : Env) (data : Nat → T)
    (prec : D) (r1 r2 bs : Nat) (indep : Bool) (sel : Nat → Nat → Nat → Nat → Option (List F)) :
    Option (List Byte) :=
  match compress2 B f E1 E2 (logData P data (r1 * r2) prec)
      (logPrecision P data (r1 * r2) prec) r1 r2 bs indep sel with
  | none => none
  | some inner =>
    some (f.cT.enc (threshold P data (r1 * r2) prec) ++
      (packFlags (signs P data (r1 * r2)) ++ inner))

/-- One decoded value (src/sz_decompress_pwr.cpp L18-20). -/
def post (P : POps T D) (thr : T) (sign : Bool) (v : T) : T :=
  let w := if P.lt v thr then P.zero else P.exp2 v
  if sign then P.neg w else w

/-- `sz_decompress_2d_pwr` (src/sz_decompress_pwr.cpp L7-24). -/
def decompressPwr (P : POps T D) (B : BOps T F D) (f : Fmt T F D) (r1 r2 : Nat)
    (out0 : Nat → T) (bytes : List Byte) : Option (Nat → T) := do
  let (thr, bytes) ← readVar f.cT bytes
  let (sg, bytes) ← unpackFlags (r1 * r2) ((r1 * r2 - 1) / 8 + 1) bytes
  let out ← decompress2 B f r1 r2 out0 bytes
  return fun p => post P thr (sg.getD p 0#8 != 0#8) (out p)

/-! ### One bound per point -/

/-- `log_ebs[i]` for a nonzero value (src/sz_compress_pwr.cpp L95-96). -/
def logEbOf (P : POps T D) (x : T) (eb : D) : D := P.logEb eb (logOf P x)

/-- `threshold` after `i` iterations of the loop of src/sz_compress_pwr.cpp L86-99. -/
def thrScan (P : POps T D) (data : Nat → T) (ebs : Nat → D) : Nat → T
  | 0 => P.log2 (P.abs (data 0))
  | i + 1 =>
    let t := thrScan P data ebs i
    if P.lt P.zero (if P.lt (data i) P.zero then P.neg (data i) else data i) then
      P.lower t (logOf P (data i)) (logEbOf P (data i) (ebs i))
    else t

/-- The field handed to the codec with one bound per point (src/sz_compress_pwr.cpp L93-105). -/
def logDataEb (P : POps T D) (data : Nat → T) (ebs : Nat → D) (n : Nat) (i : Nat) : T :=
  if P.isZero (data i) then thrScan P data ebs n else logOf P (data i)

/-- `log_ebs`, returned to the caller through `final_log_ebs` (src/sz_compress_pwr.cpp L95-96,
L103, L119). -/
def logEbs (P : POps T D) (data : Nat → T) (ebs : Nat → D) (i : Nat) : D :=
  if P.isZero (data i) then P.zeroD else logEbOf P (data i) (ebs i)

/-- `sz_compress_2d_pwr_with_eb` (src/sz_compress_pwr.cpp L75-121): the stream; the bounds are
`logEbs`. -/
def compressPwrEb (P : POps T D) (B : BOps T F D) (f : Fmt T F D) (E1 E2 : Env) (data : Nat → T)
    (ebs : Nat → D) (r1 r2 bs : Nat) (indep : Bool) : Option (List Byte) :=
  match compressEb2 B f E1 E2 (logDataEb P data ebs (r1 * r2)) (logEbs P data ebs) r1 r2 bs
      indep with
  | none => none
  | some inner =>
    some (f.cT.enc (thrScan P data ebs (r1 * r2)) ++
      (packFlags (signs P data (r1 * r2)) ++ inner))

/-- One decoded value (src/sz_decompress_pwr.cpp L41-43). -/
def postEb (P : POps T D) (thr : T) (sign : Bool) (v : T) : T :=
  let w := if P.eq v thr then P.zero else P.exp2 v
  if sign then P.neg w else w

/-- `sz_decompress_2d_pwr_with_eb` (src/sz_decompress_pwr.cpp L29-47). -/
def decompressPwrEb (P : POps T D) (B : BOps T F D) (f : Fmt T F D) (prec : Nat → D)
    (r1 r2 : Nat) (out0 : Nat → T) (bytes : List Byte) : Option (Nat → T) := do
  let (thr, bytes) ← readVar f.cT bytes
  let (sg, bytes) ← unpackFlags (r1 * r2) ((r1 * r2 - 1) / 8 + 1) bytes
  let out ← decompressEb2 B f prec r1 r2 out0 bytes
  return fun p => postEb P thr (sg.getD p 0#8 != 0#8) (out p)

/-! ### The traversals without bytes

Used for statements over the reals, which have no fixed width encoding. -/

/-- What the traversal of `sz_decompress_2d` makes of the symbols of `sz_compress_2d`.
(src/sz_compress_3d.cpp L79-120; src/sz_decompress_3d.cpp L46-76.) -/
def run2 (B : BOps T F D) (data : Nat → T) (prec : D) (r1 r2 bs : Nat)
    (sel : Nat → Nat → Nat → Nat → Option (List F)) (out0 : Nat → T) : Option (Nat → T) :=
  (runDec (cfg2 B r2 bs (false, B.zeroT) 16384 (fun _ => prec) false prec
      (fun _ _ _ _ => none)) (planD2 r1 r2 bs)
    ⟨fun _ => B.zeroT, none, (out2 B data prec r1 r2 bs sel).ind,
      (out2 B data prec r1 r2 bs sel).coefs, (out2 B data prec r1 r2 bs sel).ty,
      (out2 B data prec r1 r2 bs sel).un, out0⟩).map (·.out)

/-- The same for the codec with one bound per point.  (src/sz_compress_3d.cpp L196-236;
src/sz_decompress_3d.cpp L125-155.) -/
def runEb2 (B : BOps T F D) (data : Nat → T) (prec : Nat → D) (r1 r2 bs : Nat)
    (out0 : Nat → T) : Option (Nat → T) :=
  (runDec (cfg2 B r2 bs (false, B.zeroT) 32768 prec true B.tenth
      (fun _ _ _ _ => none)) (planD2 r1 r2 bs)
    ⟨fun _ => B.zeroT, none, (outEb2 B data prec r1 r2 bs).ind,
      (outEb2 B data prec r1 r2 bs).coefs, (outEb2 B data prec r1 r2 bs).ty,
      (outEb2 B data prec r1 r2 bs).un, out0⟩).map (·.out)

/-- `sz_decompress_2d_pwr` after `sz_compress_2d_pwr`, without the serialisation.
(src/sz_compress_pwr.cpp L8-63; src/sz_decompress_pwr.cpp L7-24.) -/
def runPwr (P : POps T D) (B : BOps T F D) (data : Nat → T) (prec : D) (r1 r2 bs : Nat)
    (sel : Nat → Nat → Nat → Nat → Option (List F)) (out0 : Nat → T) : Option (Nat → T) :=
  (run2 B (logData P data (r1 * r2) prec) (logPrecision P data (r1 * r2) prec) r1 r2 bs sel
    out0).map fun o p => post P (threshold P data (r1 * r2) prec) (signOf P (data p)) (o p)

/-- `sz_decompress_2d_pwr_with_eb` after `sz_compress_2d_pwr_with_eb`, without the
serialisation.  (src/sz_compress_pwr.cpp L75-121; src/sz_decompress_pwr.cpp L29-47.) -/
def runPwrEb (P : POps T D) (B : BOps T F D) (data : Nat → T) (ebs : Nat → D) (r1 r2 bs : Nat)
    (out0 : Nat → T) : Option (Nat → T) :=
  (runEb2 B (logDataEb P data ebs (r1 * r2)) (logEbs P data ebs) r1 r2 bs
    out0).map fun o p => postEb P (thrScan P data ebs (r1 * r2)) (signOf P (data p)) (o p)

/-! ### Exact arithmetic -/

/-- Real arithmetic with machine epsilon `eps`.  `logb 2 0` is 0 here and minus infinity in
the code, so theorems about this instance exclude logarithms of zero. -/
noncomputable def realP (eps : ℝ) : POps ℝ ℝ where
  zero := 0
  zeroD := 0
  isZero x := decide (x = 0)
  lt a b := decide (a < b)
  eq a b := decide (a = b)
  neg x := -x
  abs x := |x|
  log2 := Real.logb 2
  exp2 x := (2 : ℝ) ^ x
  logPrec p m := Real.logb 2 (1 + p) - m * eps
  below2 m lp := m - 2.0001 * lp
  below1 m lp := m - 1.0001 * lp
  logEb e l := max (Real.logb 2 (1 + e) - l * eps) 0
  lower t l e := min t (l - 1.0001 * e)

theorem flagBytes_eq (n : Nat) (h : 0 < n) : flagBytes n = (n - 1) / 8 + 1 := by
  unfold flagBytes; split <;> omega

theorem signs_length (P : POps T D) (data : Nat → T) (n : Nat) : (signs P data n).length = n := by
  simp [signs]

theorem signs_read (P : POps T D) (data : Nat → T) (n : Nat) (h : 0 < n) (rest : List Byte) :
    unpackFlags n ((n - 1) / 8 + 1) (packFlags (signs P data n) ++ rest) =
      some (signs P data n, rest) := by
  have := C08_sign_bitmap_exact (signs P data n) rest (by
    intro h'
    have := signs_length P data n
    rw [h'] at this
    simp at this
    omega) (by
    intro f hf
    simp only [signs, List.mem_map] at hf
    obtain ⟨i, -, rfl⟩ := hf
    split <;> simp)
  rw [signs_length, flagBytes_eq n h] at this
  exact this

theorem signs_get (P : POps T D) (data : Nat → T) (n p : Nat) (h : p < n) :
    ((signs P data n).getD p 0#8 != 0#8) = signOf P (data p) := by
  simp only [signs, List.getD_eq_getElem?_getD, List.getElem?_map, List.getElem?_range h,
    Option.map_some, Option.getD_some]
  cases signOf P (data p) <;> rfl

theorem logOf_real (eps x : ℝ) (hx : x ≠ 0) : logOf (realP eps) x = Real.logb 2 |x| := by
  unfold logOf
  simp only [realP]
  rcases lt_or_gt_of_ne hx with h | h
  · simp [h, abs_of_neg h]
  · simp [h, not_lt.2 h.le, abs_of_pos h]

theorem mag_pos (eps x : ℝ) :
    (realP eps).lt (realP eps).zero
      (if (realP eps).lt x (realP eps).zero then (realP eps).neg x else x) = true ↔ x ≠ 0 := by
  simp only [realP]
  rcases lt_trichotomy x 0 with h | h | h
  · simp [h, h.ne]
  · simp [h]
  · simp [h, not_lt.2 h.le, h.ne']

theorem startAbs_nonneg (eps a b : ℝ) : 0 ≤ startAbs (realP eps) a b := by
  unfold startAbs
  split_ifs <;> exact abs_nonneg (_ : ℝ)

/-- The scan keeps the maximum above its start and the minimum below every logarithm. -/
theorem logScan_real (eps : ℝ) (data : Nat → ℝ) (s : ℝ × ℝ) (n : Nat) :
    s.1 ≤ (logScan (realP eps) data s n).1 ∧
      (∀ i < n, data i ≠ 0 →
        Real.logb 2 |data i| ≤ (logScan (realP eps) data s n).1 ∧
        (logScan (realP eps) data s n).2 ≤ Real.logb 2 |data i|) ∧
      (logScan (realP eps) data s n).2 ≤ s.2 ∧
      ((logScan (realP eps) data s n).2 = s.2 ∨
        ∃ i < n, data i ≠ 0 ∧ (logScan (realP eps) data s n).2 = Real.logb 2 |data i|) := by
  induction n with
  | zero => simp [logScan]
  | succ n ih =>
    obtain ⟨h1, h2, h3, h4⟩ := ih
    unfold logScan
    dsimp only
    by_cases hx : data n ≠ 0
    · rw [if_pos ((mag_pos eps (data n)).2 hx), logOf_real eps _ hx]
      generalize logScan (realP eps) data s n = m at *
      have e1 : (if (realP eps).lt m.1 (Real.logb 2 |data n|) = true then Real.logb 2 |data n|
          else m.1) = max m.1 (Real.logb 2 |data n|) := by
        simp only [realP, decide_eq_true_eq]
        split
        · exact (max_eq_right (by linarith)).symm
        · exact (max_eq_left (by linarith)).symm
      have e2 : (if (realP eps).lt (Real.logb 2 |data n|) m.2 = true then Real.logb 2 |data n|
          else m.2) = min m.2 (Real.logb 2 |data n|) := by
        simp only [realP, decide_eq_true_eq]
        split
        · exact (min_eq_right (by linarith)).symm
        · exact (min_eq_left (by linarith)).symm
      rw [e1, e2]
      refine ⟨le_max_of_le_left h1, ?_, min_le_of_left_le h3, ?_⟩
      · intro i hi hd
        rcases Nat.lt_succ_iff_lt_or_eq.1 hi with h | rfl
        · exact ⟨le_max_of_le_left (h2 i h hd).1, min_le_of_left_le (h2 i h hd).2⟩
        · exact ⟨le_max_right _ _, min_le_right _ _⟩
      · rcases le_total m.2 (Real.logb 2 |data n|) with h | h
        · simp only [min_eq_left h]
          rcases h4 with h4 | ⟨i, hi, hd, h4⟩
          · exact Or.inl h4
          · exact Or.inr ⟨i, by omega, hd, h4⟩
        · simp only [min_eq_right h]
          exact Or.inr ⟨n, by omega, hx, rfl⟩
    · rw [if_neg (fun h => hx ((mag_pos eps (data n)).1 h))]
      refine ⟨h1, ?_, h3, ?_⟩
      · intro i hi hd
        rcases Nat.lt_succ_iff_lt_or_eq.1 hi with h | rfl
        · exact h2 i h hd
        · exact absurd hd hx
      · rcases h4 with h4 | ⟨i, hi, hd, h4⟩
        · exact Or.inl h4
        · exact Or.inr ⟨i, by omega, hd, h4⟩

theorem logRange_real (eps : ℝ) (data : Nat → ℝ) (n : Nat) :
    0 ≤ (logRange (realP eps) data n).1 ∧
      (∀ i < n, data i ≠ 0 → |Real.logb 2 (|data i|)| ≤ (logRange (realP eps) data n).1 ∧
        (logRange (realP eps) data n).2 ≤ Real.logb 2 |data i|) := by
  unfold logRange
  dsimp only
  set mm := minMax (realP eps) data (n - 1)
  have h0 := startAbs_nonneg eps mm.1 mm.2
  set s := startAbs (realP eps) mm.1 mm.2
  obtain ⟨h1, h2, -, -⟩ := logScan_real eps data (s, s) n
  set m := logScan (realP eps) data (s, s) n
  have e : (if (realP eps).lt m.1 ((realP eps).abs m.2) = true then (realP eps).abs m.2
      else m.1) = max m.1 |m.2| := by
    simp only [realP, decide_eq_true_eq]
    split
    · exact (max_eq_right (by linarith)).symm
    · exact (max_eq_left (by linarith)).symm
  rw [e]
  refine ⟨le_max_of_le_left (h0.trans h1), fun i hi hd => ⟨?_, (h2 i hi hd).2⟩⟩
  obtain ⟨ha, hb⟩ := h2 i hi hd
  rw [abs_le]
  constructor
  · have := neg_abs_le m.2
    have := le_max_right m.1 |m.2|
    linarith
  · exact le_max_of_le_left ha

/-- The threshold lies below every logarithm by more than its bound, unless that is zero. -/
theorem thrScan_real (eps : ℝ) (data ebs : Nat → ℝ) (n : Nat) :
    thrScan (realP eps) data ebs n ≤ Real.logb 2 |data 0| ∧
    ∀ i < n, data i ≠ 0 → thrScan (realP eps) data ebs n ≤
      Real.logb 2 |data i| - 1.0001 * logEbs (realP eps) data ebs i := by
  induction n with
  | zero => simp [thrScan, realP]
  | succ n ih =>
    obtain ⟨h1, h2⟩ := ih
    unfold thrScan
    dsimp only
    by_cases hx : data n ≠ 0
    · rw [if_pos ((mag_pos eps (data n)).2 hx)]
      generalize thrScan (realP eps) data ebs n = t at *
      have e : (realP eps).lower t (logOf (realP eps) (data n))
          (logEbOf (realP eps) (data n) (ebs n)) =
          min t (Real.logb 2 |data n| - 1.0001 * logEbs (realP eps) data ebs n) := by
        rw [logOf_real eps _ hx]
        have : logEbs (realP eps) data ebs n = logEbOf (realP eps) (data n) (ebs n) := by
          unfold logEbs
          rw [if_neg (by simpa [realP] using hx)]
        rw [this]
        rfl
      rw [e]
      refine ⟨min_le_of_left_le h1, fun i hi hd => ?_⟩
      rcases Nat.lt_succ_iff_lt_or_eq.1 hi with h | rfl
      · exact min_le_of_left_le (h2 i h hd)
      · exact min_le_right _ _
    · rw [if_neg (fun h => hx ((mag_pos eps (data n)).1 h))]
      refine ⟨h1, fun i hi hd => ?_⟩
      rcases Nat.lt_succ_iff_lt_or_eq.1 hi with h | rfl
      · exact h2 i h hd
      · exact absurd hd hx

theorem logRange_const (eps x : ℝ) (hx : x ≠ 0) (n : Nat) :
    logRange (realP eps) (fun _ => x) (n + 1) =
      (|Real.logb 2 (|x|)|, Real.logb 2 |x|) := by
  set l := Real.logb 2 |x| with hl
  have hmm : ∀ k, minMax (realP eps) (fun _ => x) k = (x, x) := by
    intro k
    induction k with
    | zero => rfl
    | succ k ih => simp only [minMax, ih]; simp [realP]
  have hs : startAbs (realP eps) x x = |l| := by simp [startAbs, realP, hx, ← hl]
  have hle := le_abs_self l
  have hsc : ∀ k, logScan (realP eps) (fun _ => x) (|l|, |l|) (k + 1) = (|l|, l) := by
    intro k
    induction k with
    | zero =>
      unfold logScan
      dsimp only
      rw [if_pos ((mag_pos eps x).2 hx), logOf_real eps x hx, ← hl]
      simp only [logScan]
      rcases hle.lt_or_eq with h | h
      · simp [realP, h, not_lt.2 h.le]
      · simp [realP, ← h]
    | succ k ih =>
      unfold logScan
      dsimp only
      rw [if_pos ((mag_pos eps x).2 hx), logOf_real eps x hx, ← hl, ih]
      simp [realP, not_lt.2 hle]
  unfold logRange
  rw [hmm]
  dsimp only
  rw [hs, hsc]
  simp [realP]

/-- An error `e` of the logarithm is a relative error below `2^e - 1`. -/
theorem rel_of_log (x v e p : ℝ) (hx : x ≠ 0) (hp : 0 ≤ p) (hv : |v - Real.logb 2 (|x|)| ≤ e)
    (he : e ≤ Real.logb 2 (1 + p)) : |(2 : ℝ) ^ v - (|x|)| ≤ p * |x| := by
  have hxp : 0 < |x| := abs_pos.2 hx
  have hx2 : |x| = (2 : ℝ) ^ Real.logb 2 |x| :=
    (Real.rpow_logb (by norm_num) (by norm_num) hxp).symm
  set l := Real.logb 2 |x|
  have h1p : (2 : ℝ) ^ Real.logb 2 (1 + p) = 1 + p :=
    Real.rpow_logb (by norm_num) (by norm_num) (by linarith)
  obtain ⟨ha, hb⟩ := abs_le.1 (hv.trans he)
  have up : (2 : ℝ) ^ v ≤ (1 + p) * |x| := by
    rw [hx2, ← h1p, ← Real.rpow_add (by norm_num)]
    exact Real.rpow_le_rpow_of_exponent_le (by norm_num) (by linarith)
  have lo : |x| ≤ (1 + p) * (2 : ℝ) ^ v := by
    rw [hx2, ← h1p, ← Real.rpow_add (by norm_num)]
    exact Real.rpow_le_rpow_of_exponent_le (by norm_num) (by linarith)
  rw [abs_le]
  constructor
  · by_cases h : (2 : ℝ) ^ v ≤ |x|
    · nlinarith [mul_le_mul_of_nonneg_left h hp]
    · push Not at h
      nlinarith [mul_nonneg hp hxp.le]
  · linarith

/-! ### One row of two points -/

theorem plan_pair : planC2 1 2 6 = [.start 0 1 2 1, .pt ⟨0, 4, 0, 0, 0⟩, .pt ⟨1, 5, 0, 1, 0⟩,
    .copy 18 3] ∧ planD2 1 2 6 = [.start 0 1 2 1, .pt ⟨0, 4, 0, 0, 0⟩, .pt ⟨1, 5, 0, 1, 0⟩,
    .copy 18 3] := by decide

theorem recover_nz (O : QOps T F D) (pred : F) (prec : D) (q radius : Int) (un : List T)
    (h : q ≠ 0) : recover O pred prec q radius un =
      some (O.addTo pred (linOffset O.toDOps prec radius q), un) := by
  unfold recover; rw [if_neg h]

theorem recover_z (O : QOps T F D) (pred : F) (prec : D) (radius : Int) (x : T) (un : List T) :
    recover O pred prec 0 radius (x :: un) = some (x, un) := by
  unfold recover; rw [if_pos rfl]

theorem recoverMean_none (O : QOps T F D) (p : F) (prec : D) (x radius : Int) (u : List T) :
    recoverMean O none p prec x radius u = recover O p prec x radius u := by
  unfold recoverMean recover
  split
  · rfl
  · simp

/-- The decoded values from the two quantisations. -/
theorem run2_pair (B : BOps T F D) (data : Nat → T) (prec : D) (out0 : Nat → T)
    (q0 q1 : Int) (v0 v1 : T) (u0 u1 : List T)
    (e0 : quantize B.O (B.lor2 B.zeroT B.zeroT B.zeroT) (data 0) prec 32768 16384 = (q0, v0, u0))
    (e1 : quantize B.O (B.lor2 v0 B.zeroT B.zeroT) (data 1) prec 32768 16384 = (q1, v1, u1))
    (d0 : recover B.O (B.lor2 B.zeroT B.zeroT B.zeroT) prec q0 16384 (u0 ++ u1) = some (v0, u1))
    (d1 : recover B.O (B.lor2 v0 B.zeroT B.zeroT) prec q1 16384 u1 = some (v1, [])) :
    run2 B data prec 1 2 6 (fun _ _ _ _ => none) out0 = some (upd (upd out0 0 v0) 1 v1) := by
  unfold run2 out2
  rw [plan_pair.1, plan_pair.2]
  simp [runEnc, encEv, encPt, cfg2, lorAt2, initSt, upd, Out.app, Out.nil, Cfg.stores, e0, e1,
    runDec, decEv, recoverMean_none, d0, d1]

/-- With one bound per point. -/
theorem runEb2_pair (B : BOps T F D) (data : Nat → T) (prec : Nat → D) (out0 : Nat → T)
    (q0 q1 : Int) (v0 v1 : T) (u0 u1 : List T)
    (e0 : (if B.isZero (prec 0) then (0, data 0, [data 0]) else
      quantize B.O (B.lor2 B.zeroT B.zeroT B.zeroT) (data 0) (prec 0) 65536 32768) = (q0, v0, u0))
    (e1 : (if B.isZero (prec 1) then (0, data 1, [data 1]) else
      quantize B.O (B.lor2 v0 B.zeroT B.zeroT) (data 1) (prec 1) 65536 32768) = (q1, v1, u1))
    (d0 : recover B.O (B.lor2 B.zeroT B.zeroT B.zeroT) (prec 0) q0 32768 (u0 ++ u1) =
      some (v0, u1))
    (d1 : recover B.O (B.lor2 v0 B.zeroT B.zeroT) (prec 1) q1 32768 u1 = some (v1, [])) :
    runEb2 B data prec 1 2 6 out0 = some (upd (upd out0 0 v0) 1 v1) := by
  unfold runEb2 outEb2
  rw [plan_pair.1, plan_pair.2]
  cases h0 : B.isZero (prec 0) <;> cases h1 : B.isZero (prec 1) <;>
    simp only [h0, h1, if_true, if_false, Bool.false_eq_true, Prod.mk.injEq] at e0 e1
  · simp [runEnc, encEv, encPt, cfg2, lorAt2, initSt, upd, Out.app, Out.nil, Cfg.stores, e0, e1,
      runDec, decEv, recoverMean_none, d0, d1, h0, h1]
  · obtain ⟨rfl, rfl, rfl⟩ := e1
    simp [runEnc, encEv, encPt, cfg2, lorAt2, initSt, upd, Out.app, Out.nil, Cfg.stores, e0,
      runDec, decEv, recoverMean_none, d0, d1, h0, h1]
  · obtain ⟨rfl, rfl, rfl⟩ := e0
    simp only [List.singleton_append] at d0
    simp [runEnc, encEv, encPt, cfg2, lorAt2, initSt, upd, Out.app, Out.nil, Cfg.stores, e1,
      runDec, decEv, recoverMean_none, d0, d1, h0, h1]
  · obtain ⟨rfl, rfl, rfl⟩ := e1
    obtain ⟨rfl, rfl, rfl⟩ := e0
    simp only [List.singleton_append] at d0
    simp [runEnc, encEv, encPt, cfg2, lorAt2, initSt, upd, Out.app, Out.nil, Cfg.stores,
      runDec, decEv, recoverMean_none, d0, d1, h0, h1]

/-- A negative precision stores every value. -/
theorem quantize_neg (pred cur prec : ℝ) (h : prec < 0) (cap radius : Int) :
    quantize realB.O pred cur prec cap radius = (0, cur, [cur]) := by
  unfold quantize
  split
  · rw [if_neg]
    simp only [realB, roundedB, roundedQ, roundedOps, id, decide_eq_true_eq, not_le]
    exact lt_of_lt_of_le h (abs_nonneg _)
  · rfl

end CpSZ.Pwr
