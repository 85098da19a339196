import Verif.Block.Fit
import Verif.Estimate
/-
`optimize_quant_invl_3d` (include/sz_optimize_quant_intervals.hpp L66-143), which chooses the
capacity of the quantiser and the mean, and `sz_compress_3d` and `sz_compress_2d` with all their
choices.
-/

namespace CpSZ.Block

open Estimate

variable {T F D : Type}

/-- Arithmetic of the sampling passes.  `addDT` is `double += T`, `meanOf s n` is the conversion to
`float` of the rough mean, `errLt` is `pred_err < precision` and `errIdx` is
`(pred_err/precision+1)/2` converted to `size_t` for a prediction and a value
(include/sz_optimize_quant_intervals.hpp L89-91), `meanIdx` is `freq_index` before the clamping
(L97-99); out of range conversions are undefined in C++ and arbitrary here.  `target n` is
`sample_count * QuantIntvAccThreshold` (L8), `guess m prec i` is `mean_guess` after L34, `useMean
ms fc n` is the condition of L129 for the largest sum `ms`, `freq_count` and `sample_count`; `near
x g prec` is the condition of L133; `finish s n` is the conversion to `T` of the mean (L138-140).
`sqrt n` is the conversion of `sqrt(r1*r2*r3)` to `size_t` (L69). -/
structure OptOps (T F D : Type) extends FitOps T F D where
  addDT : D → T → D
  meanOf : D → Nat → F
  errLt : T → T → D → Bool
  errIdx : T → T → D → Nat
  meanIdx : T → F → D → Int
  target : Nat → Nat
  guess : F → D → Int → F
  useMean : Nat → Nat → Nat → Bool
  near : T → F → D → Bool
  finish : D → Nat → T
  sqrt : Nat → Nat

/-- The loop of `sample_rough_mean_3d` (include/sz_optimize_quant_intervals.hpp L47-61) with `mean`
and `mean_count`; `none` if it takes more than `fuel` iterations. -/
def roughLoop (A : OptOps T F D) (data : Nat → T) (len r2 r3 sd : Nat) :
    Nat → Rough → D → Nat → Option (D × Nat)
  | 0, _, _, _ => none
  | fuel + 1, s, m, n =>
    if running len s.pos then
      roughLoop A data len r2 r3 sd fuel (roughStep r2 r3 sd s) (A.addDT m (data s.pos.toNat))
        (n + 1)
    else some (m, n)

/-- `sample_rough_mean_3d` (include/sz_optimize_quant_intervals.hpp L38-64). -/
def roughMean (A : OptOps T F D) (data : Nat → T) (r1 r2 r3 fuel : Nat) : Option F :=
  (roughLoop A data (r1 * r2 * r3) r2 r3 (A.sqrt (r1 * r2 * r3)) fuel ⟨0, 0, 0⟩ A.zeroD 0).map
    fun p => A.meanOf p.1 p.2

/-- `intervals`, `freq_intervals`, `freq_count`, `sample_count`.
(include/sz_optimize_quant_intervals.hpp L80-86.) -/
structure Hist where
  iv : List Nat
  fr : List Nat
  fc : Nat
  n : Nat

/-- One sample (include/sz_optimize_quant_intervals.hpp L88-108, L123): the Lorenzo prediction from
the input and the two histograms; the index is clamped to the histogram. -/
def sampleAt (A : OptOps T F D) (data : Nat → T) (r2 r3 : Nat) (prec : D) (rough : F) (h : Hist)
    (p : Nat) : Hist :=
  let off0 := r2 * r3
  let pred := A.lorT3 (data (p - 1)) (data (p - r3)) (data (p - off0)) (data (p - r3 - 1))
    (data (p - off0 - 1)) (data (p - off0 - r3)) (data (p - off0 - r3 - 1))
  let i := A.errIdx pred (data p) prec
  let i := if i ≥ h.iv.length then h.iv.length - 1 else i
  let j := A.meanIdx (data p) rough prec
  let j := if j ≤ 0 then 0 else if j ≥ h.fr.length then h.fr.length - 1 else j.toNat
  ⟨h.iv.modify i (· + 1), h.fr.modify j (· + 1),
    if A.errLt pred (data p) prec then h.fc + 1 else h.fc, h.n + 1⟩

/-- The sampling loop (include/sz_optimize_quant_intervals.hpp L87-124). -/
def sampleLoop (A : OptOps T F D) (data : Nat → T) (len r2 r3 : Nat) (prec : D) (rough : F) :
    Nat → Samp → Hist → Option Hist
  | 0, _, _ => none
  | fuel + 1, s, h =>
    if running len s.pos then
      sampleLoop A data len r2 r3 prec rough fuel (sampStep r2 r3 s)
        (sampleAt A data r2 r3 prec rough h s.pos.toNat)
    else some h

/-- `estimate_mean_freq_and_position` (include/sz_optimize_quant_intervals.hpp L22-36): largest sum
of two neighbouring entries, with indices from 1 to `size - 3`, and its index. -/
def bestPair (fr : List Nat) : Nat × Nat :=
  (List.range (fr.length - 3)).foldl (fun b i =>
    let t := fr.getD (i + 1) 0 + fr.getD (i + 2) 0
    if t > b.1 then (t, i + 1) else b) (0, 0)

/-- The sum and the number of the values near `g`
(include/sz_optimize_quant_intervals.hpp L130-137). -/
def nearSum (A : OptOps T F D) (data : Nat → T) (len : Nat) (g : F) (prec : D) : D × Nat :=
  (List.range len).foldl (fun s i =>
    if A.near (data i) g prec then (A.addDT s.1 (data i), s.2 + 1) else s) (A.zeroD, 0)

/-- `mean_info` (include/sz_optimize_quant_intervals.hpp L125-127, L129-142) from the rough mean
and the histograms. -/
def pickMean (A : OptOps T F D) (data : Nat → T) (len : Nat) (prec : D) (rough : F) (h : Hist) :
    Bool × T :=
  let b := bestPair h.fr
  let g := A.guess rough prec ((b.2 : Int) + 1 - (h.fr.length / 2 : Nat))
  if A.useMean b.1 h.fc h.n then
    let s := nearSum A data len g prec
    (true, A.finish s.1 s.2)
  else (false, A.zeroT)

/-- `optimize_quant_invl_3d` (include/sz_optimize_quant_intervals.hpp L66-143): `mean_info` and
`capacity`. -/
def optimize (A : OptOps T F D) (data : Nat → T) (r1 r2 r3 : Nat) (prec : D) (fuel : Nat) :
    Option ((Bool × T) × Nat) :=
  match roughMean A data r1 r2 r3 fuel with
  | none => none
  | some rough =>
    match sampleLoop A data (r1 * r2 * r3) r2 r3 prec rough fuel (sampInit r2 r3)
      ⟨List.replicate 32768 0, List.replicate 8192 0, 0, 0⟩ with
    | none => none
    | some h =>
      some (pickMean A data (r1 * r2 * r3) prec rough h, (estimate h.iv (A.target h.n)).toNat)

/-- `sz_compress_3d` (src/sz_compress_3d.cpp L395-436), with the choices it makes: mean and
capacity from `optimize_quant_invl_3d`, the kind of each block from the fit.  `none` means that
the sampling takes more than `fuel` iterations. -/
def szCompress3 (A : OptOps T F D) (f : Fmt T F D) (E1 E2 : Env) (data : Nat → T) (prec : D)
    (r1 r2 r3 bs : Nat) (indep : Bool) (fuel : Nat) : Option (List Byte) :=
  match optimize A data r1 r2 r3 prec fuel with
  | none => none
  | some (mean, cap) =>
    compress3 A.toBOps f E1 E2 data prec r1 r2 r3 bs indep (cap / 2) mean
      (choose3 A.toFitOps data r2 r3 mean prec)

/-- `sz_compress_2d` (src/sz_compress_3d.cpp L79-120) with the choices it makes. -/
def szCompress2 (A : FitOps T F D) (f : Fmt T F D) (E1 E2 : Env) (data : Nat → T) (prec : D)
    (r1 r2 bs : Nat) (indep : Bool) : Option (List Byte) :=
  compress2 A.toBOps f E1 E2 data prec r1 r2 bs indep
    (choose2 A data r2 (false, A.zeroT) prec)

/-- Rounded arithmetic of the sampling: data rounded by `rT`, `float` by `rF`, `double` by `rD`.
A comparison of frequencies without any sample (`0/0` in C++, compares as false) is false here
as well, since both are zero. -/
noncomputable def roundedOpt (rT rF rD lg : ℝ → ℝ) : OptOps ℝ ℝ ℝ where
  toFitOps := roundedFit rT rF rD lg
  addDT a b := rD (a + b)
  meanOf s n := rF (if 0 < n then rD (s / rD n) else s)
  errLt p v prec := decide (rF |rT (p - v)| < prec)
  errIdx p v prec := ⌊rD (rD (rD (rF |rT (p - v)| / prec) + 1) / 2)⌋.toNat
  meanIdx v m prec :=
    if 0 < rT (v - m) then truncR (rD (rT (v - m) / prec)) + 4096
    else truncR (rD (rT (v - m) / prec)) - 1 + 4096
  target n := ⌊rD (rD n * rD (999 / 1000))⌋.toNat
  guess m prec i := rF (rD (m + rD (prec * i)))
  useMean ms fc n := decide (1 / 2 < rF (rD (rD ms / rD n)) ∨
    rF (rD (rD fc / rD n)) < rF (rD (rD ms / rD n)))
  near v g prec := decide (|rT (v - g)| ≤ prec)
  finish s n := rT (if 0 < n then rD (s / rD n) else 0)
  sqrt n := ⌊rD (Real.sqrt (rD n))⌋.toNat

/-- Exact arithmetic. -/
noncomputable def realOpt : OptOps ℝ ℝ ℝ := roundedOpt id id id (Real.logb 2)

/-! ### The loops come to an end -/

theorem roughLoop_some (A : OptOps T F D) (data : Nat → T) (len r2 r3 sd : Nat) (k : Nat) :
    ∀ n m c, (∀ i < n, running len (roughAt r2 r3 sd (k + i)).pos) →
      ¬ running len (roughAt r2 r3 sd (k + n)).pos →
      ∃ v, ∀ fuel, n < fuel → roughLoop A data len r2 r3 sd fuel (roughAt r2 r3 sd k) m c =
        some v := by
  intro n
  induction n generalizing k with
  | zero =>
    intro m c _ h
    refine ⟨(m, c), fun fuel hf => ?_⟩
    obtain ⟨g, rfl⟩ : ∃ g, fuel = g + 1 := ⟨fuel - 1, by omega⟩
    rw [roughLoop, if_neg (by simpa using h)]
  | succ n ih =>
    intro m c hr h
    obtain ⟨v, hv⟩ := ih (k + 1) (A.addDT m (data (roughAt r2 r3 sd k).pos.toNat)) (c + 1)
      (fun i hi => by
        have := hr (i + 1) (by omega)
        rwa [show k + 1 + i = k + (i + 1) by omega])
      (by rwa [show k + 1 + n = k + (n + 1) by omega])
    refine ⟨v, fun fuel hf => ?_⟩
    obtain ⟨g, rfl⟩ : ∃ g, fuel = g + 1 := ⟨fuel - 1, by omega⟩
    rw [roughLoop, if_pos (by simpa using hr 0 (by omega))]
    exact hv g (by omega)

theorem sampleLoop_some (A : OptOps T F D) (data : Nat → T) (len r2 r3 : Nat) (prec : D)
    (rough : F) (k : Nat) :
    ∀ n h, (∀ i < n, running len (sampAt r2 r3 (k + i)).pos) →
      ¬ running len (sampAt r2 r3 (k + n)).pos →
      ∃ v, ∀ fuel, n < fuel →
        sampleLoop A data len r2 r3 prec rough fuel (sampAt r2 r3 k) h = some v := by
  intro n
  induction n generalizing k with
  | zero =>
    intro h _ hn
    refine ⟨h, fun fuel hf => ?_⟩
    obtain ⟨g, rfl⟩ : ∃ g, fuel = g + 1 := ⟨fuel - 1, by omega⟩
    rw [sampleLoop, if_neg (by simpa using hn)]
  | succ n ih =>
    intro h hr hn
    obtain ⟨v, hv⟩ := ih (k + 1)
      (sampleAt A data r2 r3 prec rough h (sampAt r2 r3 k).pos.toNat)
      (fun i hi => by
        have := hr (i + 1) (by omega)
        rwa [show k + 1 + i = k + (i + 1) by omega])
      (by rwa [show k + 1 + n = k + (n + 1) by omega])
    refine ⟨v, fun fuel hf => ?_⟩
    obtain ⟨g, rfl⟩ : ∃ g, fuel = g + 1 := ⟨fuel - 1, by omega⟩
    rw [sampleLoop, if_pos (by simpa using hr 0 (by omega))]
    exact hv g (by omega)

/-- The histograms keep their lengths. -/
theorem sampleLoop_length (A : OptOps T F D) (data : Nat → T) (len r2 r3 : Nat) (prec : D)
    (rough : F) (fuel : Nat) :
    ∀ s h v, sampleLoop A data len r2 r3 prec rough fuel s h = some v →
      v.iv.length = h.iv.length ∧ v.fr.length = h.fr.length := by
  induction fuel with
  | zero => intro s h v e; cases e
  | succ n ih =>
    intro s h v e
    rw [sampleLoop] at e
    split at e
    · have := ih _ _ _ e
      simpa [sampleAt] using this
    · injection e with e; subst e; exact ⟨rfl, rfl⟩

end CpSZ.Block
