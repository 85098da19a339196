import Mathlib.Analysis.Convex.SpecificFunctions.Basic
import Verif.RoundedRun
/-
Property C55: the error bounds hold for the decompressed data in floating point arithmetic.

`float` data: the bound holds as it is, without any slack for rounding (the acceptance test in
`float` leaves a margin wider than all errors of the computation of the bound in `double`).
`double` data: the bound holds up to the factor `1 + 2^-40`.

The bound of a vertex is the minimum (`MINF`) of the global bound and arbitrary numbers `derive`
obtained for the incident cells, so nothing is assumed about the rounding errors made there; the
case that NaN turns up there is left out (see C14 and the findings in DESIGN.md).
-/

namespace CpSZ.Rounded
open CpSZ CpSZ.Online2D CpSZ.Mesh2D CpSZ.Mesh3D CpSZ.ThreeD

/-- `required_eb` of a vertex in the 2D modes: zero where `stop` says so (absolute mode: a component
is zero), else `MINF` over the incident triangles. -/
noncomputable def bound2 (r1 r2 : Nat) (maxEb : ℝ) (stop : Online2D.Field ℝ → Nat → Bool)
    (derive : Nat → ℝ → ℝ → ℝ → ℝ → ℝ → ℝ → ℝ) (m : Online2D.Field ℝ) (p : Nat) : Option ℝ :=
  if stop m p then some 0 else requiredEb r1 r2 maxEb minf derive m p

theorem bound2_le {r1 r2 : Nat} {maxEb : ℝ} {stop : Online2D.Field ℝ → Nat → Bool}
    {derive : Nat → ℝ → ℝ → ℝ → ℝ → ℝ → ℝ → ℝ} {m : Online2D.Field ℝ} {p : Nat} {req : ℝ}
    (h : bound2 r1 r2 maxEb stop derive m p = some req) (hpos : 0 < req) : req ≤ maxEb := by
  unfold bound2 at h
  split at h
  · simp only [Option.some.injEq] at h; linarith
  · exact requiredLoop_le_start _ _ (le_refl _) h

theorem bound2_defined {r1 r2 : Nat} {maxEb : ℝ} {stop : Online2D.Field ℝ → Nat → Bool}
    {derive : Nat → ℝ → ℝ → ℝ → ℝ → ℝ → ℝ → ℝ} (m : Online2D.Field ℝ) (p : Nat)
    (hp : p < r1 * r2) : (bound2 r1 r2 maxEb stop derive m p).isSome := by
  obtain ⟨hi, hj, hpe⟩ := flat_split hp
  unfold bound2
  split
  · rfl
  · have hb := requiredLoop_defined r1 r2 minf derive m (p / r2) (p % r2)
      [0, 1, 2, 3, 4, 5] (by simp) maxEb hi hj
    rw [hpe] at hb
    exact hb

/-- Numbers that fit into `double` with room for the division by `DBL_EPSILON`. -/
theorem fits {u a : ℝ} (hu0 : 0 ≤ u) (hu : u ≤ 1) (ha : a ≤ (2 : ℝ) ^ (960 : ℕ)) (ha0 : 0 ≤ a) :
    (1 + u) * ((1 + u) * a * 2 ^ 52) < (2 : ℝ) ^ (1024 : ℕ) := by
  have e : (2 : ℝ) ^ (1024 : ℕ) = (2 : ℝ) ^ (960 : ℕ) * 2 ^ 64 := by rw [← pow_add]
  have hp : (0 : ℝ) < (2 : ℝ) ^ (960 : ℕ) := by positivity
  rw [e]
  generalize (2 : ℝ) ^ (960 : ℕ) = X at ha hp
  have h1 : (1 + u) * ((1 + u) * a * 2 ^ 52) = (1 + u) * (1 + u) * (a * 2 ^ 52) := by ring
  have h2 : (1 + u) * (1 + u) ≤ 4 := by nlinarith
  rw [h1]
  have h3 : (1 + u) * (1 + u) * (a * 2 ^ 52) ≤ 4 * (a * 2 ^ 52) :=
    mul_le_mul_of_nonneg_right h2 (by positivity)
  nlinarith

theorem two_rpow_le {δ : ℝ} (h0 : 0 ≤ δ) (h1 : δ ≤ 1) : (2 : ℝ) ^ δ ≤ 1 + δ := by
  have := rpow_one_add_le_one_add_mul_self (s := 1) (p := δ) (by norm_num) h0 h1
  norm_num at this
  linarith

/-- The factor for `float` data. -/
theorem factor_float {u δ : ℝ} (hu0 : 0 ≤ u) (hu : u ≤ 1 / 2 ^ 40) (h0 : 0 ≤ δ)
    (h1 : δ ≤ 1 / 2 ^ 30) :
    (1 - (2 : ℝ) ^ (-(24 : ℤ) - 2)) * ((1 + u) * (2 : ℝ) ^ δ) * (1 + u) ≤ 1 := by
  have h2 := two_rpow_le h0 (h1.trans (by norm_num))
  have h3 : (0 : ℝ) < (2 : ℝ) ^ δ := Real.rpow_pos_of_pos (by norm_num) _
  have h4 : (2 : ℝ) ^ δ ≤ 1 + 1 / 2 ^ 30 := h2.trans (by linarith)
  have h5 : (1 + u) * (1 + u) ≤ (1 + 1 / 2 ^ 40) * (1 + 1 / 2 ^ 40) := by
    apply mul_le_mul <;> linarith
  have h6 : ((1 + u) * (1 + u)) * (2 : ℝ) ^ δ ≤
      ((1 + 1 / 2 ^ 40) * (1 + 1 / 2 ^ 40)) * (1 + 1 / 2 ^ 30) :=
    mul_le_mul h5 h4 h3.le (by norm_num)
  have e : (2 : ℝ) ^ (-(24 : ℤ) - 2) = 1 / 2 ^ 26 := by norm_num
  rw [e]
  calc _ = (1 - 1 / 2 ^ 26) * (((1 + u) * (1 + u)) * (2 : ℝ) ^ δ) := by ring
    _ ≤ (1 - 1 / 2 ^ 26) * (((1 + 1 / 2 ^ 40) * (1 + 1 / 2 ^ 40)) * (1 + 1 / 2 ^ 30)) :=
      mul_le_mul_of_nonneg_left h6 (by norm_num)
    _ ≤ 1 := by norm_num

/-- The factor for `double` data. -/
theorem factor_double {u δ : ℝ} (hu0 : 0 ≤ u) (hu : u ≤ 1 / 2 ^ 50) (h0 : 0 ≤ δ)
    (h1 : δ ≤ 1 / 2 ^ 41) :
    (1 - 0) * ((1 + u) * (2 : ℝ) ^ δ) * (1 + u) ≤ 1 + 1 / 2 ^ 40 := by
  have h2 := two_rpow_le h0 (h1.trans (by norm_num))
  have h3 : (0 : ℝ) < (2 : ℝ) ^ δ := Real.rpow_pos_of_pos (by norm_num) _
  have h4 : (2 : ℝ) ^ δ ≤ 1 + 1 / 2 ^ 41 := h2.trans (by linarith)
  have h5 : (1 + u) * (1 + u) ≤ (1 + 1 / 2 ^ 50) * (1 + 1 / 2 ^ 50) := by
    apply mul_le_mul <;> linarith
  have h6 : ((1 + u) * (1 + u)) * (2 : ℝ) ^ δ ≤
      ((1 + 1 / 2 ^ 50) * (1 + 1 / 2 ^ 50)) * (1 + 1 / 2 ^ 41) :=
    mul_le_mul h5 h4 h3.le (by norm_num)
  calc _ = ((1 + u) * (1 + u)) * (2 : ℝ) ^ δ := by ring
    _ ≤ _ := h6
    _ ≤ _ := by norm_num

/-- The common part: both modes, any margin. -/
theorem bounded2 {rT rD lg : ℝ → ℝ} {u g δ C : ℝ} (hT : Guard rT g) (hg : g ≤ 1)
    (hD : IsFloat rD u) (hu : u ≤ 1) (hl : IsLog2 rD lg δ)
    (hC : (1 - g) * ((1 + u) * (2 : ℝ) ^ δ) * (1 + u) ≤ C)
    {r1 r2 : Nat} {maxEb : ℝ} (hm : 0 ≤ maxEb)
    {stop : Online2D.Field ℝ → Nat → Bool} {derive : Nat → ℝ → ℝ → ℝ → ℝ → ℝ → ℝ → ℝ}
    {m m0 : Online2D.Field ℝ} {absEb : ℝ → ℝ → ℝ} {W : ℝ → ℝ}
    (hW : ∀ x, 0 ≤ W x) (habs : ∀ x req, 0 < req → absEb req x ≤ (1 + u) * (W x * req))
    (hfit : ∀ q, q < r1 * r2 → W (m.u q) * maxEb ≤ (2 : ℝ) ^ (960 : ℕ) ∧
      W (m.v q) * maxEb ≤ (2 : ℝ) ^ (960 : ℕ)) :
    ∃ m' s d, compress (roundedOps rT rD lg) parOnline r1 r2 absEb
      (bound2 r1 r2 maxEb stop derive) m = some (m', s) ∧
      decompress (roundedOps rT rD lg) parOnline r1 r2 m0 s = some d ∧
      ∀ q, q < r1 * r2 →
        (d.u q = m.u q ∨ |d.u q - m.u q| < C * (W (m.u q) * maxEb)) ∧
        (d.v q = m.v q ∨ |d.v q - m.v q| < C * (W (m.v q) * maxEb)) := by
  have hu0 := hD.u_nonneg
  obtain ⟨m', s, h⟩ := compress_defined2 (roundedOps rT rD lg) parOnline r1 r2 absEb
    (bound2 r1 r2 maxEb stop derive) m bound2_defined
  obtain ⟨d, hd, hA⟩ := run2 (B := fun x => (1 + u) * (W x * maxEb)) (m0 := m0) hT hg hD hl
    (fun f p req hb hpos x => (habs x req hpos).trans (mul_le_mul_of_nonneg_left
      (mul_le_mul_of_nonneg_left (bound2_le hb hpos) (hW x)) (by linarith)))
    (fun q hq => ⟨fits hu0 hu (hfit q hq).1 (mul_nonneg (hW _) hm),
      fits hu0 hu (hfit q hq).2 (mul_nonneg (hW _) hm)⟩) h
  refine ⟨m', s, d, h, hd, fun q hq => ?_⟩
  have key : ∀ x, (1 - g) * ((1 + u) * (2 : ℝ) ^ δ) * ((1 + u) * (W x * maxEb)) ≤
      C * (W x * maxEb) := by
    intro x
    rw [← mul_assoc]
    exact mul_le_mul_of_nonneg_right hC (mul_nonneg (hW x) hm)
  obtain ⟨h1, h2⟩ := hA q hq
  exact ⟨h1.imp_right fun h => h.trans_le (key _), h2.imp_right fun h => h.trans_le (key _)⟩

/-- The common part in three dimensions. -/
theorem bounded3 {rT rD lg : ℝ → ℝ} {u g δ C : ℝ} (hT : Guard rT g) (hg : g ≤ 1)
    (hD : IsFloat rD u) (hu : u ≤ 1) (hl : IsLog2 rD lg δ)
    (hC : (1 - g) * ((1 + u) * (2 : ℝ) ^ δ) * (1 + u) ≤ C)
    {r1 r2 r3 : Nat} {maxEb : ℝ} (hm : 0 ≤ maxEb) (hfit : maxEb ≤ (2 : ℝ) ^ (960 : ℕ))
    {isZero nz : ℝ → Bool} {cp : Nat → Bool}
    {derive : (Nat → ℝ) → (Nat → ℝ) → (Nat → ℝ) → (Nat → ℝ) → ℝ} {data m0 : VMode.Arr ℝ} :
    ∃ s' str d, VMode.compress (absMode3 (roundedOps rT rD lg) (Real.logb 2 4)
        (1 / 2 ^ 52) r2 r3 4 32768)
      (planAbs3 (roundedOps rT rD lg) isZero nz r1 r2 r3 maxEb cp derive)
      (r1 * r2 * r3) data = some (s', str) ∧
      VMode.decompress1 (absMode3 (roundedOps rT rD lg) (Real.logb 2 4)
        (1 / 2 ^ 52) r2 r3 4 32768) (r1 * r2 * r3) m0 str = some d ∧
      ∀ c q, c < 3 → q < r1 * r2 * r3 →
        d.cod c q = data c q ∨ |d.cod c q - data c q| < C * maxEb := by
  have hu0 := hD.u_nonneg
  obtain ⟨s', str, h⟩ := VMode.compress_defined (absMode3 (roundedOps rT rD lg) (Real.logb 2 4)
    (1 / 2 ^ 52) r2 r3 4 32768)
    (planAbs3 (roundedOps rT rD lg) isZero nz r1 r2 r3 maxEb cp derive) (r1 * r2 * r3) data
    (fun s p hp => planAbs3_defined hp)
  have h0 : 0 ≤ u * maxEb := mul_nonneg hu0 hm
  obtain ⟨d, hd, hA⟩ := run3 (m0 := m0) hT hg hD hl hm (lt_of_le_of_lt
    (mul_le_mul_of_nonneg_left (mul_le_mul_of_nonneg_right
      (show maxEb ≤ (1 + u) * maxEb by linarith) (by positivity)) (by linarith))
    (fits hu0 hu hfit hm)) h
  refine ⟨s', str, d, h, hd, fun c q hc hq => ?_⟩
  refine (hA c q hc hq).imp_right fun hlt => hlt.trans_le (mul_le_mul_of_nonneg_right ?_ hm)
  refine le_trans ?_ hC
  have : 0 ≤ (1 - g) * ((1 + u) * (2 : ℝ) ^ δ) * u :=
    mul_nonneg (mul_nonneg (by linarith)
      (mul_nonneg (by linarith) (Real.rpow_pos_of_pos (by norm_num) _).le)) hu0
  linarith

/-! ### Data in `float` -/

/-- C55, relative mode of the 2D online compressor on `float` data: whatever the rounding to
nearest (ties as one likes) of the `float` operations, the rounding of the `double` operations, and
a `log2` off by at most `2^-30`: what is decompressed differs from the input by less than
`max_pwr_eb` times the absolute value of the input, or not at all.  No slack is added. -/
theorem C55_relative_float {rnd rnd' : ℝ → ℤ} (hr : IsNearest rnd) (hr' : IsIntRounding rnd')
    {lg : ℝ → ℝ} {δ : ℝ} (hl : IsLog2 (fl rnd' 53) lg δ) (h0 : 0 ≤ δ) (h1 : δ ≤ 1 / 2 ^ 30)
    (r1 r2 : Nat) (maxEb : ℝ) (hm : 0 ≤ maxEb) (derive : Nat → ℝ → ℝ → ℝ → ℝ → ℝ → ℝ → ℝ)
    (m m0 : Online2D.Field ℝ)
    (hfit : ∀ q, q < r1 * r2 → |m.u q| * maxEb ≤ (2 : ℝ) ^ (960 : ℕ) ∧
      |m.v q| * maxEb ≤ (2 : ℝ) ^ (960 : ℕ)) :
    ∃ m' s d, compress (roundedOps (fl rnd 24) (fl rnd' 53) lg) parOnline r1 r2
      (fun req x => fl rnd' 53 (|x| * req)) (bound2 r1 r2 maxEb (fun _ _ => false) derive) m =
        some (m', s) ∧
      decompress (roundedOps (fl rnd 24) (fl rnd' 53) lg) parOnline r1 r2 m0 s = some d ∧
      ∀ q, q < r1 * r2 →
        (d.u q = m.u q ∨ |d.u q - m.u q| < maxEb * |m.u q|) ∧
        (d.v q = m.v q ∨ |d.v q - m.v q| < maxEb * |m.v q|) := by
  have hD := fl_isFloat hr' (p := 53) (by norm_num)
  obtain ⟨m', s, d, h, hd, hA⟩ := bounded2 (W := fun x => |x|) (m0 := m0) (derive := derive)
    (stop := fun _ _ => false)
    (fl_guard hr (p := 24) (by norm_num)) (by norm_num) hD (by norm_num) hl
    (factor_float hD.u_nonneg (by norm_num) h0 h1) hm (fun x => abs_nonneg x)
    (fun x req hreq => hD.le (mul_nonneg (abs_nonneg x) hreq.le)) hfit
  refine ⟨m', s, d, h, hd, fun q hq => ?_⟩
  obtain ⟨k1, k2⟩ := hA q hq
  simp only [one_mul] at k1 k2
  rw [mul_comm maxEb, mul_comm maxEb]
  exact ⟨k1, k2⟩

/-- C55, absolute mode of the 2D online compressor on `float` data. -/
theorem C55_absolute_float {rnd rnd' : ℝ → ℤ} (hr : IsNearest rnd) (hr' : IsIntRounding rnd')
    {lg : ℝ → ℝ} {δ : ℝ} (hl : IsLog2 (fl rnd' 53) lg δ) (h0 : 0 ≤ δ) (h1 : δ ≤ 1 / 2 ^ 30)
    (r1 r2 : Nat) (maxEb : ℝ) (hm : 0 ≤ maxEb) (hfit : maxEb ≤ (2 : ℝ) ^ (960 : ℕ))
    (stop : Online2D.Field ℝ → Nat → Bool) (derive : Nat → ℝ → ℝ → ℝ → ℝ → ℝ → ℝ → ℝ)
    (m m0 : Online2D.Field ℝ) :
    ∃ m' s d, compress (roundedOps (fl rnd 24) (fl rnd' 53) lg) parOnline r1 r2
      (fun req _ => req) (bound2 r1 r2 maxEb stop derive) m = some (m', s) ∧
      decompress (roundedOps (fl rnd 24) (fl rnd' 53) lg) parOnline r1 r2 m0 s = some d ∧
      ∀ q, q < r1 * r2 →
        (d.u q = m.u q ∨ |d.u q - m.u q| < maxEb) ∧
        (d.v q = m.v q ∨ |d.v q - m.v q| < maxEb) := by
  have hD := fl_isFloat hr' (p := 53) (by norm_num)
  have hu0 := hD.u_nonneg
  obtain ⟨m', s, d, h, hd, hA⟩ := bounded2 (W := fun _ => 1) (m := m) (m0 := m0) (stop := stop)
    (derive := derive) (absEb := fun req _ => req)
    (fl_guard hr (p := 24) (by norm_num)) (by norm_num) hD (by norm_num) hl
    (factor_float hu0 (by norm_num) h0 h1) hm (fun _ => zero_le_one)
    (fun x req hreq => by rw [one_mul]; nlinarith)
    (fun q _ => by simpa using hfit)
  refine ⟨m', s, d, h, hd, fun q hq => ?_⟩
  have := hA q hq
  simpa only [one_mul] using this

/-- C55, absolute mode of the 3D online compressor on `float` data; any bitmap of critical cells. -/
theorem C55_absolute3_float {rnd rnd' : ℝ → ℤ} (hr : IsNearest rnd) (hr' : IsIntRounding rnd')
    {lg : ℝ → ℝ} {δ : ℝ} (hl : IsLog2 (fl rnd' 53) lg δ) (h0 : 0 ≤ δ) (h1 : δ ≤ 1 / 2 ^ 30)
    (r1 r2 r3 : Nat) (maxEb : ℝ) (hm : 0 ≤ maxEb) (hfit : maxEb ≤ (2 : ℝ) ^ (960 : ℕ))
    (isZero nz : ℝ → Bool) (cp : Nat → Bool)
    (derive : (Nat → ℝ) → (Nat → ℝ) → (Nat → ℝ) → (Nat → ℝ) → ℝ) (data m0 : VMode.Arr ℝ) :
    ∃ s' str d, VMode.compress (absMode3 (roundedOps (fl rnd 24) (fl rnd' 53) lg) (Real.logb 2 4)
        (1 / 2 ^ 52) r2 r3 4 32768)
      (planAbs3 (roundedOps (fl rnd 24) (fl rnd' 53) lg) isZero nz r1 r2 r3 maxEb cp derive)
      (r1 * r2 * r3) data = some (s', str) ∧
      VMode.decompress1 (absMode3 (roundedOps (fl rnd 24) (fl rnd' 53) lg) (Real.logb 2 4)
        (1 / 2 ^ 52) r2 r3 4 32768) (r1 * r2 * r3) m0 str = some d ∧
      ∀ c q, c < 3 → q < r1 * r2 * r3 →
        d.cod c q = data c q ∨ |d.cod c q - data c q| < maxEb := by
  have hD := fl_isFloat hr' (p := 53) (by norm_num)
  obtain ⟨s', str, d, h, hd, hA⟩ := bounded3 (m0 := m0) (fl_guard hr (p := 24) (by norm_num))
    (by norm_num) hD (by norm_num) hl (factor_float hD.u_nonneg (by norm_num) h0 h1) hm hfit
    (isZero := isZero) (nz := nz) (cp := cp) (derive := derive) (data := data)
  refine ⟨s', str, d, h, hd, fun c q hc hq => ?_⟩
  have := hA c q hc hq
  simpa only [one_mul] using this

/-! ### Data in `double` -/

/-- C55, relative mode of the 2D online compressor on `double` data: the bound holds up to the
factor `1 + 2^-40`. -/
theorem C55_relative_double {rnd : ℝ → ℤ} (hr : IsIntRounding rnd)
    {lg : ℝ → ℝ} {δ : ℝ} (hl : IsLog2 (fl rnd 53) lg δ) (h0 : 0 ≤ δ) (h1 : δ ≤ 1 / 2 ^ 41)
    (r1 r2 : Nat) (maxEb : ℝ) (hm : 0 ≤ maxEb) (derive : Nat → ℝ → ℝ → ℝ → ℝ → ℝ → ℝ → ℝ)
    (m m0 : Online2D.Field ℝ)
    (hfit : ∀ q, q < r1 * r2 → |m.u q| * maxEb ≤ (2 : ℝ) ^ (960 : ℕ) ∧
      |m.v q| * maxEb ≤ (2 : ℝ) ^ (960 : ℕ)) :
    ∃ m' s d, compress (roundedOps (fl rnd 53) (fl rnd 53) lg) parOnline r1 r2
      (fun req x => fl rnd 53 (|x| * req)) (bound2 r1 r2 maxEb (fun _ _ => false) derive) m =
        some (m', s) ∧
      decompress (roundedOps (fl rnd 53) (fl rnd 53) lg) parOnline r1 r2 m0 s = some d ∧
      ∀ q, q < r1 * r2 →
        (d.u q = m.u q ∨ |d.u q - m.u q| < (1 + 1 / 2 ^ 40) * (|m.u q| * maxEb)) ∧
        (d.v q = m.v q ∨ |d.v q - m.v q| < (1 + 1 / 2 ^ 40) * (|m.v q| * maxEb)) := by
  have hD := fl_isFloat hr (p := 53) (by norm_num)
  exact bounded2 (W := fun x => |x|) (m0 := m0) (derive := derive)
    (stop := fun _ _ => false) hD.guard (by norm_num) hD (by norm_num) hl
    (factor_double hD.u_nonneg (by norm_num) h0 h1) hm (fun x => abs_nonneg x)
    (fun x req hreq => hD.le (mul_nonneg (abs_nonneg x) hreq.le)) hfit

/-- C55, absolute mode of the 2D online compressor on `double` data. -/
theorem C55_absolute_double {rnd : ℝ → ℤ} (hr : IsIntRounding rnd)
    {lg : ℝ → ℝ} {δ : ℝ} (hl : IsLog2 (fl rnd 53) lg δ) (h0 : 0 ≤ δ) (h1 : δ ≤ 1 / 2 ^ 41)
    (r1 r2 : Nat) (maxEb : ℝ) (hm : 0 ≤ maxEb) (hfit : maxEb ≤ (2 : ℝ) ^ (960 : ℕ))
    (stop : Online2D.Field ℝ → Nat → Bool) (derive : Nat → ℝ → ℝ → ℝ → ℝ → ℝ → ℝ → ℝ)
    (m m0 : Online2D.Field ℝ) :
    ∃ m' s d, compress (roundedOps (fl rnd 53) (fl rnd 53) lg) parOnline r1 r2
      (fun req _ => req) (bound2 r1 r2 maxEb stop derive) m = some (m', s) ∧
      decompress (roundedOps (fl rnd 53) (fl rnd 53) lg) parOnline r1 r2 m0 s = some d ∧
      ∀ q, q < r1 * r2 →
        (d.u q = m.u q ∨ |d.u q - m.u q| < (1 + 1 / 2 ^ 40) * maxEb) ∧
        (d.v q = m.v q ∨ |d.v q - m.v q| < (1 + 1 / 2 ^ 40) * maxEb) := by
  have hD := fl_isFloat hr (p := 53) (by norm_num)
  have hu0 := hD.u_nonneg
  obtain ⟨m', s, d, h, hd, hA⟩ := bounded2 (W := fun _ => 1) (m := m) (m0 := m0) (stop := stop)
    (derive := derive) (absEb := fun req _ => req) hD.guard (by norm_num) hD
    (by norm_num) hl (factor_double hu0 (by norm_num) h0 h1) hm (fun _ => zero_le_one)
    (fun x req hreq => by rw [one_mul]; nlinarith) (fun q _ => by simpa using hfit)
  refine ⟨m', s, d, h, hd, fun q hq => ?_⟩
  have := hA q hq
  simpa only [one_mul] using this

/-- C55, absolute mode of the 3D online compressor on `double` data. -/
theorem C55_absolute3_double {rnd : ℝ → ℤ} (hr : IsIntRounding rnd)
    {lg : ℝ → ℝ} {δ : ℝ} (hl : IsLog2 (fl rnd 53) lg δ) (h0 : 0 ≤ δ) (h1 : δ ≤ 1 / 2 ^ 41)
    (r1 r2 r3 : Nat) (maxEb : ℝ) (hm : 0 ≤ maxEb) (hfit : maxEb ≤ (2 : ℝ) ^ (960 : ℕ))
    (isZero nz : ℝ → Bool) (cp : Nat → Bool)
    (derive : (Nat → ℝ) → (Nat → ℝ) → (Nat → ℝ) → (Nat → ℝ) → ℝ) (data m0 : VMode.Arr ℝ) :
    ∃ s' str d, VMode.compress (absMode3 (roundedOps (fl rnd 53) (fl rnd 53) lg) (Real.logb 2 4)
        (1 / 2 ^ 52) r2 r3 4 32768)
      (planAbs3 (roundedOps (fl rnd 53) (fl rnd 53) lg) isZero nz r1 r2 r3 maxEb cp derive)
      (r1 * r2 * r3) data = some (s', str) ∧
      VMode.decompress1 (absMode3 (roundedOps (fl rnd 53) (fl rnd 53) lg) (Real.logb 2 4)
        (1 / 2 ^ 52) r2 r3 4 32768) (r1 * r2 * r3) m0 str = some d ∧
      ∀ c q, c < 3 → q < r1 * r2 * r3 →
        d.cod c q = data c q ∨ |d.cod c q - data c q| < (1 + 1 / 2 ^ 40) * maxEb := by
  have hD := fl_isFloat hr (p := 53) (by norm_num)
  exact bounded3 hD.guard (by norm_num) hD (by norm_num) hl
    (factor_double hD.u_nonneg (by norm_num) h0 h1) hm hfit

/-! ### The assumptions hold for the usual formats -/

theorem log2_double_bound : (2 : ℝ) ^ (11 - ((53 : ℕ) : ℤ)) ≤ 1 / 2 ^ 41 := by norm_num

/-- binary32 data, binary64 bounds, the correctly rounded logarithm; a field on a 2 by 3 grid with
a bound of ten percent. -/
example : ∃ m' s d, compress (roundedOps (fl nearest 24) (fl nearest 53)
      (fun x => fl nearest 53 (Real.logb 2 x))) parOnline 2 3
      (fun req x => fl nearest 53 (|x| * req))
      (bound2 2 3 (1 / 10) (fun _ _ => false) (fun _ a b c _ _ _ => |a - b| + c))
      ⟨fun q => q + 1, fun q => 5 - q⟩ = some (m', s) ∧
    decompress (roundedOps (fl nearest 24) (fl nearest 53)
      (fun x => fl nearest 53 (Real.logb 2 x))) parOnline 2 3 ⟨fun _ => 0, fun _ => 0⟩ s = some d ∧
    ∀ q, q < 2 * 3 → (d.u q = q + 1 ∨ |d.u q - (q + 1)| < 1 / 10 * |(q + 1 : ℝ)|) := by
  have hX : (100 : ℝ) ≤ (2 : ℝ) ^ (960 : ℕ) :=
    le_trans (by norm_num : (100 : ℝ) ≤ 2 ^ 7) (pow_le_pow_right₀ (by norm_num) (by norm_num))
  obtain ⟨m', s, d, h1, h2, h3⟩ := C55_relative_float nearest_isNearest nearest_rounding
    (IsLog2.rounded nearest_rounding (p := 53) (by norm_num)) (by positivity)
    (log2_double_bound.trans (by norm_num)) 2 3 (1 / 10) (by norm_num)
    (fun _ a b c _ _ _ => |a - b| + c) ⟨fun q => q + 1, fun q => 5 - q⟩ ⟨fun _ => 0, fun _ => 0⟩
    (fun q hq => by
      have hq' : (q : ℝ) ≤ 6 := by exact_mod_cast (by omega : q ≤ 6)
      have hq0 : (0 : ℝ) ≤ q := Nat.cast_nonneg q
      refine ⟨le_trans ?_ hX, le_trans ?_ hX⟩
      · have := abs_of_nonneg (show (0 : ℝ) ≤ q + 1 by linarith)
        simp only [this]; linarith
      · have : |(5 : ℝ) - q| ≤ 6 := abs_le.2 ⟨by linarith, by linarith⟩
        simp only; linarith)
  exact ⟨m', s, d, h1, h2, fun q hq => (h3 q hq).1⟩

/-- The same formats in three dimensions. -/
example : ∃ s' str d, VMode.compress (absMode3 (roundedOps (fl nearest 24) (fl nearest 53)
      (fun x => fl nearest 53 (Real.logb 2 x))) (Real.logb 2 4) (1 / 2 ^ 52) 2 3 4 32768)
      (planAbs3 (roundedOps (fl nearest 24) (fl nearest 53)
        (fun x => fl nearest 53 (Real.logb 2 x))) (fun x => decide (x = 0))
        (fun x => decide (x ≠ 0)) 2 2 3 (1 / 10) (fun n => n == 3) (fun a _ _ d => a 0 + d 2))
      (2 * 2 * 3) (fun c q => c + q) = some (s', str) ∧
    VMode.decompress1 (absMode3 (roundedOps (fl nearest 24) (fl nearest 53)
      (fun x => fl nearest 53 (Real.logb 2 x))) (Real.logb 2 4) (1 / 2 ^ 52) 2 3 4 32768)
      (2 * 2 * 3) (fun _ _ => 0) str = some d ∧
    ∀ c q, c < 3 → q < 2 * 2 * 3 → d.cod c q = c + q ∨ |d.cod c q - (c + q)| < 1 / 10 :=
  C55_absolute3_float nearest_isNearest nearest_rounding
    (IsLog2.rounded nearest_rounding (p := 53) (by norm_num)) (by positivity)
    (log2_double_bound.trans (by norm_num)) 2 2 3 (1 / 10) (by norm_num)
    (le_trans (by norm_num : (1 / 10 : ℝ) ≤ 1) (one_le_pow₀ (by norm_num))) _ _ _ _ _ _

/-- binary64 throughout, rounding towards zero. -/
example (m : Online2D.Field ℝ) : ∃ m' s d, compress (roundedOps (fl (fun x => ⌊x⌋) 53)
      (fl (fun x => ⌊x⌋) 53) (fun x => fl (fun x => ⌊x⌋) 53 (Real.logb 2 x))) parOnline 7 9
      (fun req _ => req) (bound2 7 9 (1 / 10) (fun m p => decide (m.u p = 0))
        (fun _ a b c _ _ _ => |a - b| + c)) m = some (m', s) ∧
    decompress (roundedOps (fl (fun x => ⌊x⌋) 53) (fl (fun x => ⌊x⌋) 53)
      (fun x => fl (fun x => ⌊x⌋) 53 (Real.logb 2 x))) parOnline 7 9 ⟨fun _ => 0, fun _ => 0⟩ s =
        some d ∧
    ∀ q, q < 7 * 9 → (d.u q = m.u q ∨ |d.u q - m.u q| < (1 + 1 / 2 ^ 40) * (1 / 10)) ∧
      (d.v q = m.v q ∨ |d.v q - m.v q| < (1 + 1 / 2 ^ 40) * (1 / 10)) :=
  C55_absolute_double floor_rounding (IsLog2.rounded floor_rounding (p := 53) (by norm_num))
    (by positivity) log2_double_bound 7 9 (1 / 10) (by norm_num)
    (le_trans (by norm_num : (1 / 10 : ℝ) ≤ 1) (one_le_pow₀ (by norm_num))) _ _ _ _

end CpSZ.Rounded
