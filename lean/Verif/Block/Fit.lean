import Verif.Block.Real
/-
Fit of the regression coefficients (include/sz_regression_utils.hpp) and choice between Lorenzo
and regression prediction (include/sz_compress_block_processing.hpp L4-24, L142-164).
-/

namespace CpSZ.Block

variable {T F D : Type}

/-- Arithmetic of the fit and of the choice.  `addF`, `subF`, `mulF`, `divF`, `intF` are the
operations of `float` and the conversion of `int` operands to it, `inv n` is the conversion of
`1.0 / n` to `float`; `ofT` converts a value to `float`; `addDF`, `mulDN` are `double` results,
`addFD`, `addFT` are `float += double`, `float += T`; `mulTN` is `T * int`.  `predT2`,
`predT3` are `regression_predict_2d/3d<T>`, `lorT2`, `lorT3` are `lorenzo_predict_2d/3d`
(include/sz_prediction.hpp); `noiseAdd` is `fabs(T - T) + noise` and `noise2`, `noise3` are the
conversions to `float` of `precision * LorenzeNoise2d`, `precision * LorenzeNoise3d`.
(include/sz_regression_utils.hpp L4-63; include/sz_compress_block_processing.hpp L4-24, L142-164.)
-/
structure FitOps (T F D : Type) extends BOps T F D where
  addF : F → F → F
  subF : F → F → F
  mulF : F → F → F
  divF : F → F → F
  intF : Int → F
  inv : Nat → F
  ofT : T → F
  addDF : D → F → D
  mulDN : D → Nat → D
  addFD : F → D → F
  mulTN : T → Nat → T
  addFT : F → T → F
  predT2 : F → F → F → Nat → Nat → T
  predT3 : F → F → F → F → Nat → Nat → Nat → T
  lorT2 : T → T → T → T
  lorT3 : T → T → T → T → T → T → T → T
  noiseAdd : T → T → F → D
  noise2 : D → F
  noise3 : D → F

/-- Variables of `compute_regression_coeffcients_2d`: `cur_data_pos` as an offset, `fx`, `fy`,
`f`, `sum_x`.  (include/sz_regression_utils.hpp L8-14.) -/
structure Acc2 (F D : Type) where
  cur : Nat
  fx : F
  fy : F
  f : F
  sumx : D

/-- Body of the inner loop (include/sz_regression_utils.hpp L17-20). -/
def fitCol (A : FitOps T F D) (data : Nat → T) (s : Acc2 F D) (j : Nat) : Acc2 F D :=
  { s with
    cur := s.cur + 1
    fy := A.addF s.fy (A.mulF (A.ofT (data s.cur)) (A.intF j))
    sumx := A.addDF s.sumx (A.ofT (data s.cur)) }

/-- Body of the outer loop (include/sz_regression_utils.hpp L15-24). -/
def fitRow (A : FitOps T F D) (data : Nat → T) (sy off : Nat) (s : Acc2 F D) (i : Nat) :
    Acc2 F D :=
  let s := (List.range sy).foldl (fitCol A data) { s with sumx := A.zeroD }
  { s with
    cur := s.cur + off - sy
    fx := A.addFD s.fx (A.mulDN s.sumx i)
    f := A.addFD s.f s.sumx }

/-- `(2 * fx / (size - 1) - f) * 6 * coeff / (size + 1)` (include/sz_regression_utils.hpp L27-28,
L62-64). -/
def slope (A : FitOps T F D) (fx f coeff : F) (n : Nat) : F :=
  A.divF (A.mulF (A.mulF (A.subF (A.divF (A.mulF (A.intF 2) fx) (A.intF (n - 1))) f) (A.intF 6))
    coeff) (A.intF (n + 1))

/-- `(size - 1) * reg_params_pos[.] / 2` (include/sz_regression_utils.hpp L29, L65). -/
def halfSpan (A : FitOps T F D) (n : Nat) (a : F) : F :=
  A.divF (A.mulF (A.intF (n - 1)) a) (A.intF 2)

/-- `compute_regression_coeffcients_2d` (include/sz_regression_utils.hpp L6-30). -/
def fit2 (A : FitOps T F D) (data : Nat → T) (o sx sy off : Nat) : List F :=
  let s := (List.range sx).foldl (fitRow A data sy off) ⟨o, A.zeroF, A.zeroF, A.zeroF, A.zeroD⟩
  let coeff := A.inv (sx * sy)
  let a := slope A s.fx s.f coeff sx
  let b := slope A s.fy s.f coeff sy
  [a, b, A.subF (A.mulF s.f coeff) (A.addF (halfSpan A sx a) (halfSpan A sy b))]

/-- Variables of `compute_regression_coeffcients_3d`.  (include/sz_regression_utils.hpp L36-41.) -/
structure Acc3 (F : Type) where
  cur : Nat
  fx : F
  fy : F
  fz : F
  f : F
  sumx : F
  sumy : F

/-- Body of the innermost loop (include/sz_regression_utils.hpp L47-52). -/
def fitZ (A : FitOps T F D) (data : Nat → T) (s : Acc3 F) (k : Nat) : Acc3 F :=
  { s with
    cur := s.cur + 1
    sumy := A.addFT s.sumy (data s.cur)
    fz := A.addFT s.fz (A.mulTN (data s.cur) k) }

/-- Body of the middle loop (include/sz_regression_utils.hpp L45-56). -/
def fitY (A : FitOps T F D) (data : Nat → T) (sz off1 : Nat) (s : Acc3 F) (j : Nat) : Acc3 F :=
  let s := (List.range sz).foldl (fitZ A data) { s with sumy := A.zeroF }
  { s with
    fy := A.addF s.fy (A.mulF s.sumy (A.intF j))
    sumx := A.addF s.sumx s.sumy
    cur := s.cur + off1 - sz }

/-- Body of the outer loop (include/sz_regression_utils.hpp L43-60). -/
def fitX (A : FitOps T F D) (data : Nat → T) (sy sz off0 off1 : Nat) (s : Acc3 F) (i : Nat) :
    Acc3 F :=
  let s := (List.range sy).foldl (fitY A data sz off1) { s with sumx := A.zeroF }
  { s with
    fx := A.addF s.fx (A.mulF s.sumx (A.intF i))
    f := A.addF s.f s.sumx
    cur := s.cur + off0 - sy * off1 }

/-- `compute_regression_coeffcients_3d` (include/sz_regression_utils.hpp L32-66). -/
def fit3 (A : FitOps T F D) (data : Nat → T) (o sx sy sz off0 off1 : Nat) : List F :=
  let s := (List.range sx).foldl (fitX A data sy sz off0 off1)
    ⟨o, A.zeroF, A.zeroF, A.zeroF, A.zeroF, A.zeroF, A.zeroF⟩
  let coeff := A.inv (sx * sy * sz)
  let a := slope A s.fx s.f coeff sx
  let b := slope A s.fy s.f coeff sy
  let c := slope A s.fz s.f coeff sz
  [a, b, c, A.subF (A.mulF s.f coeff)
    (A.addF (A.addF (halfSpan A sx a) (halfSpan A sy b)) (halfSpan A sz c))]

/-- The Lorenzo error of one point, `MIN` with the distance to the mean
(include/sz_compress_block_processing.hpp L10, L148). -/
def lorErr (A : FitOps T F D) (mean : Bool × T) (cur pred : T) (noise : F) : D :=
  if mean.1 then
    if A.O.lt (A.O.dist cur mean.2) (A.noiseAdd cur pred noise) then A.O.dist cur mean.2
    else A.noiseAdd cur pred noise
  else A.noiseAdd cur pred noise

/-- `regression_predict_2d<T>`; the coefficients are always three. 
(include/sz_prediction.hpp L4-8.) -/
def regT2 (A : FitOps T F D) : List F → Nat → Nat → T
  | [a, b, c], x, y => A.predT2 a b c x y
  | _, _, _ => A.zeroT

/-- `sz_block_error_estimation_2d` (include/sz_compress_block_processing.hpp L4-11): the sums
`err_reg` and `err_lorenzo`. -/
def est2 (A : FitOps T F D) (data : Nat → T) (o off : Nat) (c : List F) (mean : Bool × T)
    (noise : F) (e : D × D) (x y : Nat) : D × D :=
  let p := o + x * off + y
  (A.O.add e.1 (A.O.dist (data p) (regT2 A c x y)),
    A.O.add e.2 (lorErr A mean (data p) (A.lorT2 (data (p - 1)) (data (p - off))
      (data (p - off - 1))) noise))

/-- `sz_blockwise_selection_2d` (include/sz_compress_block_processing.hpp L13-24). -/
def select2 (A : FitOps T F D) (data : Nat → T) (o off m : Nat) (c : List F) (mean : Bool × T)
    (noise : F) : Bool :=
  let e := (List.range (m - 1)).foldl (fun e i =>
    est2 A data o off c mean noise (est2 A data o off c mean noise e (i + 1) (i + 1)) (i + 1)
      (m - (i + 1))) (A.zeroD, A.zeroD)
  A.O.lt e.1 e.2

/-- `regression_predict_3d<T>`; the coefficients are always four. 
(include/sz_prediction.hpp L16-20.) -/
def regT3 (A : FitOps T F D) : List F → Nat → Nat → Nat → T
  | [a, b, c, d], x, y, z => A.predT3 a b c d x y z
  | _, _, _, _ => A.zeroT

/-- `sz_block_error_estimation_3d` (include/sz_compress_block_processing.hpp L142-149). -/
def est3 (A : FitOps T F D) (data : Nat → T) (o off0 off1 : Nat) (c : List F) (mean : Bool × T)
    (noise : F) (e : D × D) (x y z : Nat) : D × D :=
  let p := o + x * off0 + y * off1 + z
  (A.O.add e.1 (A.O.dist (data p) (regT3 A c x y z)),
    A.O.add e.2 (lorErr A mean (data p) (A.lorT3 (data (p - 1)) (data (p - off1))
      (data (p - off0)) (data (p - off1 - 1)) (data (p - off0 - 1)) (data (p - off0 - off1))
      (data (p - off0 - off1 - 1))) noise))

/-- `sz_blockwise_selection_3d` (include/sz_compress_block_processing.hpp L151-164). -/
def select3 (A : FitOps T F D) (data : Nat → T) (o off0 off1 m : Nat) (c : List F)
    (mean : Bool × T) (noise : F) : Bool :=
  let e := (List.range (m - 1)).foldl (fun e i =>
    let g := est3 A data o off0 off1 c mean noise
    let b := m - (i + 1)
    g (g (g (g e (i + 1) (i + 1) (i + 1)) (i + 1) (i + 1) b) (i + 1) b (i + 1)) (i + 1) b b)
    (A.zeroD, A.zeroD)
  A.O.lt e.1 e.2

/-- What `prediction_and_quantization_2d_with_border_prediction` decides for a block
(src/sz_compress_3d.cpp L43-51): `none` for Lorenzo prediction, otherwise the coefficients. -/
def choose2 (A : FitOps T F D) (data : Nat → T) (d2 : Nat) (mean : Bool × T) (prec : D) :
    Nat → Nat → Nat → Nat → Option (List F) := fun o sx sy _ =>
  if min sx sy < 8 then none
  else
    let c := fit2 A data o sx sy d2
    if select2 A data o d2 (min sx sy) c mean (A.noise2 prec) then some c else none

/-- The same in 3D (src/sz_compress_3d.cpp L281-290, L353-363). -/
def choose3 (A : FitOps T F D) (data : Nat → T) (d2 d3 : Nat) (mean : Bool × T) (prec : D) :
    Nat → Nat → Nat → Nat → Option (List F) := fun o sx sy sz =>
  if min (min sx sy) sz < 4 then none
  else
    let c := fit3 A data o sx sy sz (d2 * d3) d3
    if select3 A data o (d2 * d3) d3 (min (min sx sy) sz) c mean (A.noise3 prec) then some c
    else none

/-- Rounded arithmetic of the fit and the choice: data rounded by `rT`, `float` by `rF`,
`double` by `rD`; `n2`, `n3` are the two noise constants (0.81 and 1.22 as `double`). -/
noncomputable def roundedFit (rT rF rD lg : ℝ → ℝ) : FitOps ℝ ℝ ℝ where
  toBOps := roundedB rT rF rD lg
  addF a b := rF (a + b)
  subF a b := rF (a - b)
  mulF a b := rF (a * b)
  divF a b := rF (a / b)
  intF n := rF n
  inv n := rF (rD (1 / n))
  ofT a := rF a
  addDF a b := rD (a + b)
  mulDN a n := rD (a * n)
  addFD a b := rF (rD (a + b))
  mulTN a n := rT (a * n)
  addFT a b := rF (rT (a + b))
  predT2 a b c x y := rT (rF (rF (rF (a * x) + rF (b * y)) + c))
  predT3 a b c d x y z := rT (rF (rF (rF (rF (a * x) + rF (b * y)) + rF (c * z)) + d))
  lorT2 a b c := rT (rT (a + b) - c)
  lorT3 a b c d e f g := rT (rT (rT (rT (rT (rT (a + b) + c) - d) - e) - f) + g)
  noiseAdd a b n := rD (|rT (a - b)| + n)
  noise2 p := rF (rD (p * rD (81 / 100)))
  noise3 p := rF (rD (p * rD (122 / 100)))

/-- Exact arithmetic. -/
noncomputable def realFit : FitOps ℝ ℝ ℝ := roundedFit id id id (Real.logb 2)

/-! ### Locality -/

theorem foldl_range_congr {σ : Type} (P : Nat → σ → Prop) (f g : σ → Nat → σ) (n : Nat) (s : σ)
    (h0 : P 0 s) (h : ∀ i < n, ∀ s, P i s → f s i = g s i ∧ P (i + 1) (g s i)) :
    (List.range n).foldl f s = (List.range n).foldl g s ∧ P n ((List.range n).foldl g s) := by
  induction n with
  | zero => exact ⟨rfl, h0⟩
  | succ n ih =>
    obtain ⟨e, p⟩ := ih (fun i hi => h i (by omega))
    simp only [List.range_succ, List.foldl_append, List.foldl_cons, List.foldl_nil, e]
    exact h n (by omega) _ p

theorem foldl_range_inv {σ : Type} (P : Nat → σ → Prop) (f : σ → Nat → σ) (n : Nat) (s : σ)
    (h0 : P 0 s) (h : ∀ i < n, ∀ s, P i s → P (i + 1) (f s i)) :
    P n ((List.range n).foldl f s) :=
  (foldl_range_congr P f f n s h0 (fun i hi s hs => ⟨rfl, h i hi s hs⟩)).2

theorem fit2_local (A : FitOps T F D) (data data' : Nat → T) (o sx sy off : Nat) (hoff : sy ≤ off)
    (h : ∀ i < sx, ∀ j < sy, data (o + i * off + j) = data' (o + i * off + j)) :
    fit2 A data o sx sy off = fit2 A data' o sx sy off := by
  have key := foldl_range_congr (fun i (s : Acc2 F D) => s.cur = o + i * off)
    (fitRow A data sy off) (fitRow A data' sy off) sx ⟨o, A.zeroF, A.zeroF, A.zeroF, A.zeroD⟩
    (by simp) (by
      intro i hi s hs
      have inner := foldl_range_congr (fun j (s : Acc2 F D) => s.cur = o + i * off + j)
        (fitCol A data) (fitCol A data') sy { s with sumx := A.zeroD } (by simpa using hs) (by
          intro j hj s hs
          refine ⟨?_, ?_⟩
          · simp only [fitCol, hs, h i hi j hj]
          · simp only [fitCol, hs]; omega)
      refine ⟨?_, ?_⟩
      · simp only [fitRow, inner.1]
      · simp only [fitRow, inner.2]
        rw [Nat.succ_mul]; omega)
  unfold fit2
  rw [key.1]

theorem fit3_local (A : FitOps T F D) (data data' : Nat → T) (o sx sy sz off0 off1 : Nat)
    (h1 : sz ≤ off1) (h0 : sy * off1 ≤ off0)
    (h : ∀ i < sx, ∀ j < sy, ∀ k < sz,
      data (o + i * off0 + j * off1 + k) = data' (o + i * off0 + j * off1 + k)) :
    fit3 A data o sx sy sz off0 off1 = fit3 A data' o sx sy sz off0 off1 := by
  have key := foldl_range_congr (fun i (s : Acc3 F) => s.cur = o + i * off0)
    (fitX A data sy sz off0 off1) (fitX A data' sy sz off0 off1) sx
    ⟨o, A.zeroF, A.zeroF, A.zeroF, A.zeroF, A.zeroF, A.zeroF⟩
    (by simp) (by
      intro i hi s hs
      have mid := foldl_range_congr (fun j (s : Acc3 F) => s.cur = o + i * off0 + j * off1)
        (fitY A data sz off1) (fitY A data' sz off1) sy { s with sumx := A.zeroF }
        (by simpa using hs) (by
          intro j hj s hs
          have inner := foldl_range_congr
            (fun k (s : Acc3 F) => s.cur = o + i * off0 + j * off1 + k)
            (fitZ A data) (fitZ A data') sz { s with sumy := A.zeroF } (by simpa using hs) (by
              intro k hk s hs
              refine ⟨?_, ?_⟩
              · simp only [fitZ, hs, h i hi j hj k hk]
              · simp only [fitZ, hs]; omega)
          refine ⟨?_, ?_⟩
          · simp only [fitY, inner.1]
          · simp only [fitY, inner.2]
            rw [Nat.succ_mul]; omega)
      refine ⟨?_, ?_⟩
      · simp only [fitX, mid.1]
      · simp only [fitX, mid.2]
        rw [Nat.succ_mul]; omega)
  unfold fit3
  rw [key.1]

theorem est2_local (A : FitOps T F D) (data data' : Nat → T) (o sx sy off : Nat)
    (h : ∀ i < sx, ∀ j < sy, data (o + i * off + j) = data' (o + i * off + j)) (c : List F)
    (mean : Bool × T) (noise : F) (e : D × D) (x y : Nat) (hx0 : 0 < x) (hy0 : 0 < y)
    (hx : x < sx) (hy : y < sy) :
    est2 A data o off c mean noise e x y = est2 A data' o off c mean noise e x y := by
  obtain ⟨x, rfl⟩ : ∃ w, x = w + 1 := ⟨x - 1, by omega⟩
  obtain ⟨y, rfl⟩ : ∃ w, y = w + 1 := ⟨y - 1, by omega⟩
  have a := h (x + 1) hx (y + 1) hy
  have b := h (x + 1) hx y (by omega)
  have c' := h x (by omega) (y + 1) hy
  have d := h x (by omega) y (by omega)
  simp only [Nat.succ_mul] at a b c' d
  have e1 : o + (x + 1) * off + (y + 1) = o + (x * off + off) + (y + 1) := by ring
  have e2 : o + (x * off + off) + (y + 1) - 1 = o + (x * off + off) + y := by omega
  have e3 : o + (x * off + off) + (y + 1) - off = o + x * off + (y + 1) := by omega
  have e4 : o + x * off + (y + 1) - 1 = o + x * off + y := by omega
  simp only [est2, e1, e2, e3, e4, a, b, c', d]

theorem select2_local (A : FitOps T F D) (data data' : Nat → T) (o sx sy off : Nat)
    (h : ∀ i < sx, ∀ j < sy, data (o + i * off + j) = data' (o + i * off + j)) (c : List F)
    (mean : Bool × T) (noise : F) :
    select2 A data o off (min sx sy) c mean noise =
      select2 A data' o off (min sx sy) c mean noise := by
  have key := foldl_range_congr (fun _ (_ : D × D) => True)
    (fun e i => est2 A data o off c mean noise (est2 A data o off c mean noise e (i + 1) (i + 1))
      (i + 1) (min sx sy - (i + 1)))
    (fun e i => est2 A data' o off c mean noise (est2 A data' o off c mean noise e (i + 1) (i + 1))
      (i + 1) (min sx sy - (i + 1))) (min sx sy - 1) (A.zeroD, A.zeroD) trivial (by
      intro i hi s _
      refine ⟨?_, trivial⟩
      have g := est2_local A data data' o sx sy off h c mean noise
      rw [g _ _ _ (by omega) (by omega) (by omega) (by omega),
        g _ _ _ (by omega) (by omega) (by omega) (by omega)])
  unfold select2
  rw [key.1]

theorem est3_local (A : FitOps T F D) (data data' : Nat → T) (o sx sy sz off0 off1 : Nat)
    (h : ∀ i < sx, ∀ j < sy, ∀ k < sz,
      data (o + i * off0 + j * off1 + k) = data' (o + i * off0 + j * off1 + k)) (c : List F)
    (mean : Bool × T) (noise : F) (e : D × D) (x y z : Nat) (hx0 : 0 < x) (hy0 : 0 < y)
    (hz0 : 0 < z) (hx : x < sx) (hy : y < sy) (hz : z < sz) :
    est3 A data o off0 off1 c mean noise e x y z = est3 A data' o off0 off1 c mean noise e x y z := by
  obtain ⟨x, rfl⟩ : ∃ w, x = w + 1 := ⟨x - 1, by omega⟩
  obtain ⟨y, rfl⟩ : ∃ w, y = w + 1 := ⟨y - 1, by omega⟩
  obtain ⟨z, rfl⟩ : ∃ w, z = w + 1 := ⟨z - 1, by omega⟩
  have a0 := h (x + 1) hx (y + 1) hy (z + 1) hz
  have a1 := h (x + 1) hx (y + 1) hy z (by omega)
  have a2 := h (x + 1) hx y (by omega) (z + 1) hz
  have a3 := h x (by omega) (y + 1) hy (z + 1) hz
  have a4 := h (x + 1) hx y (by omega) z (by omega)
  have a5 := h x (by omega) (y + 1) hy z (by omega)
  have a6 := h x (by omega) y (by omega) (z + 1) hz
  have a7 := h x (by omega) y (by omega) z (by omega)
  simp only [Nat.succ_mul] at a0 a1 a2 a3 a4 a5 a6 a7
  simp only [est3, Nat.succ_mul]
  generalize x * off0 = X at *
  generalize y * off1 = Y at *
  have e0 : o + (X + off0) + (Y + off1) + (z + 1) - 1 = o + (X + off0) + (Y + off1) + z := by omega
  have e1 : o + (X + off0) + (Y + off1) + (z + 1) - off1 = o + (X + off0) + Y + (z + 1) := by omega
  have e2 : o + (X + off0) + (Y + off1) + (z + 1) - off0 = o + X + (Y + off1) + (z + 1) := by omega
  have e3 : o + (X + off0) + Y + (z + 1) - 1 = o + (X + off0) + Y + z := by omega
  have e4 : o + X + (Y + off1) + (z + 1) - 1 = o + X + (Y + off1) + z := by omega
  have e5 : o + X + (Y + off1) + (z + 1) - off1 = o + X + Y + (z + 1) := by omega
  have e6 : o + X + Y + (z + 1) - 1 = o + X + Y + z := by omega
  simp only [*]

theorem select3_local (A : FitOps T F D) (data data' : Nat → T) (o sx sy sz off0 off1 : Nat)
    (h : ∀ i < sx, ∀ j < sy, ∀ k < sz,
      data (o + i * off0 + j * off1 + k) = data' (o + i * off0 + j * off1 + k)) (c : List F)
    (mean : Bool × T) (noise : F) :
    select3 A data o off0 off1 (min (min sx sy) sz) c mean noise =
      select3 A data' o off0 off1 (min (min sx sy) sz) c mean noise := by
  have key := foldl_range_congr (fun _ (_ : D × D) => True)
    (fun e i =>
      let g := est3 A data o off0 off1 c mean noise
      let b := min (min sx sy) sz - (i + 1)
      g (g (g (g e (i + 1) (i + 1) (i + 1)) (i + 1) (i + 1) b) (i + 1) b (i + 1)) (i + 1) b b)
    (fun e i =>
      let g := est3 A data' o off0 off1 c mean noise
      let b := min (min sx sy) sz - (i + 1)
      g (g (g (g e (i + 1) (i + 1) (i + 1)) (i + 1) (i + 1) b) (i + 1) b (i + 1)) (i + 1) b b)
    (min (min sx sy) sz - 1) (A.zeroD, A.zeroD) trivial (by
      intro i hi s _
      refine ⟨?_, trivial⟩
      have g := est3_local A data data' o sx sy sz off0 off1 h c mean noise
      simp only
      rw [g _ _ _ _ (by omega) (by omega) (by omega) (by omega) (by omega) (by omega),
        g _ _ _ _ (by omega) (by omega) (by omega) (by omega) (by omega) (by omega),
        g _ _ _ _ (by omega) (by omega) (by omega) (by omega) (by omega) (by omega),
        g _ _ _ _ (by omega) (by omega) (by omega) (by omega) (by omega) (by omega)])
  unfold select3
  rw [key.1]

theorem choose2_length (A : FitOps T F D) (data : Nat → T) (d2 : Nat) (mean : Bool × T)
    (prec : D) (o sx sy sz : Nat) (c : List F)
    (h : choose2 A data d2 mean prec o sx sy sz = some c) : c.length = 3 := by
  unfold choose2 at h
  split at h
  · cases h
  · dsimp only at h
    split at h
    · injection h with h; rw [← h]; rfl
    · cases h

theorem choose3_length (A : FitOps T F D) (data : Nat → T) (d2 d3 : Nat) (mean : Bool × T)
    (prec : D) (o sx sy sz : Nat) (c : List F)
    (h : choose3 A data d2 d3 mean prec o sx sy sz = some c) : c.length = 4 := by
  unfold choose3 at h
  split at h
  · cases h
  · dsimp only at h
    split at h
    · injection h with h; rw [← h]; rfl
    · cases h

end CpSZ.Block
