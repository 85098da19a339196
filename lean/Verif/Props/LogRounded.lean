import Mathlib.Analysis.Complex.ExponentialBounds
import Verif.LogRounded
import Verif.Props.Log2D
import Verif.Props.Rounded
import Verif.Props.Unstructured
/-
Property C56: the log-domain modes in floating point arithmetic.

The logarithm is `log2f` also for `double` data (include/sz_cp_preserve_utils.hpp L141), so the
relative error exceeds the bound by what `log2f` loses.  `C56_bound_exceeded` is a field for which
this happens; the `_partial` theorems give the bound with the loss added.
-/

namespace CpSZ.Rounded
open CpSZ CpSZ.VMode CpSZ.Mesh2D CpSZ.Mesh3D CpSZ.ThreeD

/-- The arithmetic of the log modes: `rT` rounds to the type of the data (`float` or `double`),
`rD` to `double`, `lg` is `log2`, `lgT` is `log2f` and `exT` is `exp2`. -/
structure LogArith (rT rD lg lgT exT : ℝ → ℝ) : Prop where
  T : ∃ u, IsFloat rT u
  D : IsFloat rD (1 / 2 ^ 50)
  log2 : IsLog2 rD lg (1 / 2 ^ 30)
  expLog : IsExpLog lgT exT (1 / 2 ^ 16) (1 / 2 ^ 22)

/-- Values for which the bound is claimed: zero, or well inside the range of `float`. -/
def InRange (x : ℝ) : Prop :=
  x = 0 ∨ ((2 : ℝ) ^ (-97 : ℤ) ≤ |x| ∧ |x| ≤ (2 : ℝ) ^ (126 : ℤ))

/-- `y` is a reconstruction of `x`: exact, or of the same sign and within the relative bound plus
`2^-14`. -/
def Close (eb x y : ℝ) : Prop :=
  y = x ∨ (SignType.sign y = SignType.sign x ∧ |y - x| < (eb + 1 / 2 ^ 14) * |x|)

theorem close_of {eb x y : ℝ} (h1 : eb ≤ 1)
    (h : y = x ∨ (0 < x * y ∧ |y - x| < ((1 + eb) * (1 + 1 / 2 ^ 15) - 1) * |x|)) :
    Close eb x y := by
  rcases h with h | ⟨a, b⟩
  · exact Or.inl h
  · refine Or.inr ⟨(Online2D.sign_eq_of_mul_pos a).symm, b.trans_le ?_⟩
    refine mul_le_mul_of_nonneg_right ?_ (abs_nonneg _)
    norm_num at h1 ⊢
    linarith

/-- C56, 2D, partial.  Whatever the bounds derived for the triangles, compression and
decompression are defined and every value is exact or within the relative bound plus `2^-14`,
with the same sign.  Missing: the bound itself, which does not hold (`C56_bound_exceeded`), and
values outside the stated range. -/
theorem C56_log2d_partial {rT rD lg lgT exT : ℝ → ℝ} (A : LogArith rT rD lg lgT exT)
    (r1 r2 : Nat) (maxEb : ℝ) (h0 : 0 ≤ maxEb) (h1 : maxEb ≤ 1)
    (derive : Nat → ℝ → ℝ → ℝ → ℝ → ℝ → ℝ → ℝ) (m : Online2D.Field ℝ)
    (hm : ∀ q, q < r1 * r2 → InRange (m.u q) ∧ InRange (m.v q)) (m0 : Arr ℝ) :
    ∃ s' str d,
      VMode.compress (mode2 (roundedL rT rD lg lgT exT) (Real.logb 2 2) (1 / 2 ^ 23) r2 2 32768)
        (plan2 (roundedL rT rD lg lgT exT) (requiredEb r1 r2 maxEb minf derive)) (r1 * r2)
        (arr2 m) = some (s', str) ∧
      VMode.decompress (mode2 (roundedL rT rD lg lgT exT) (Real.logb 2 2) (1 / 2 ^ 23) r2 2 32768)
        (logFin (roundedL rT rD lg lgT exT)
          (mapAt (signMaps (roundedL rT rD lg lgT exT) 2 (r1 * r2) (arr2 m)))) (r1 * r2) m0 str =
        some d ∧
      ∀ q, q < r1 * r2 → Close maxEb (m.u q) (d 0 q) ∧ Close maxEb (m.v q) (d 1 q) := by
  set L := roundedL rT rD lg lgT exT with hL
  set M := mode2 L (Real.logb 2 2) (1 / 2 ^ 23) r2 2 32768 with hMd
  set bound : Online2D.Field ℝ → Nat → Option ℝ :=
    requiredEb r1 r2 maxEb minf derive with hb
  have hM : LogMode M L := ⟨rfl, rfl, rfl, rfl, rfl, rfl⟩
  have hdef : ∀ (s : State ℝ) p, p < r1 * r2 → (plan2 L bound s p).isSome := by
    intro s p hp
    have := bound2_defined (r1 := r1) (r2 := r2) (maxEb := maxEb) (stop := fun _ _ => false)
      (derive := derive) (field2 s.val) p hp
    simp only [bound2, Bool.false_eq_true, if_false] at this
    obtain ⟨r, hr⟩ := Option.isSome_iff_exists.1 this
    unfold plan2
    rw [hb, hr]
    rfl
  obtain ⟨s', str, h⟩ := VMode.compress_defined M (plan2 L bound) (r1 * r2) (arr2 m) hdef
  have hz : ∀ x, L.isZero x = false → x ≠ 0 := fun x hx => of_decide_eq_false hx
  obtain ⟨w', hT⟩ := A.T
  have r0 : rD (0 : ℝ) = 0 := by simpa using A.D.int 0 (by norm_num)
  have r1' : rD (1 : ℝ) = 1 := by simpa using A.D.pow2all 0
  have st := stateLog hT A.D (le_refl _) A.log2 (by norm_num) (le_refl _) A.expLog (le_refl _)
    (le_refl _) h0 h1 hM (plan := plan2 L bound) (n := r1 * r2)
    (fun s p a id hp => by
      rcases plan2_cases L bound s p _ hp with hh | ⟨req, hreq, hpos, -, -, hh⟩
      · cases hh
      · cases hh
        have hpos : 0 < req := by
          simpa [hL, roundedL, roundedOps, r0] using hpos
        refine ⟨req, hpos, ?_, ?_⟩
        · refine bound2_le (r1 := r1) (r2 := r2) (maxEb := maxEb) (stop := fun _ _ => false)
            (derive := derive) (m := field2 s.val) (p := p) ?_ hpos
          simp only [bound2, Bool.false_eq_true, if_false]
          exact hreq
        · simp [hL, roundedL, roundedOps, r1'])
    (fun s p a id _ hv hp c hc => by
      rcases plan2_cases L bound s p _ hp with hh | ⟨req, -, -, z0, z1, -⟩
      · cases hh
      · have : c = 0 ∨ c = 1 := by have : c < 2 := hc; omega
        rcases this with rfl | rfl
        · rw [← hv 0]; exact hz _ z0
        · rw [← hv 1]; exact hz _ z1)
    h
    (fun c q hc hq => by
      have : c = 0 ∨ c = 1 := by have : c < 2 := hc; omega
      rcases this with rfl | rfl
      · exact (hm q hq).1
      · exact (hm q hq).2)
  obtain ⟨d, hd, hA⟩ := decLog hM (good2 L (roundedL_laws ..) _ _ r2 2 32768 bound _) (m0 := m0) h
    (fun c q e hc hq hs hne => (st c q hc hq).1 (by
      have h0' : e ≠ 0 := by simpa [hMd, mode2] using hne
      obtain ⟨z0, z1⟩ := coded_nonzero L _ _ r2 2 32768 bound _ _ s' str h q e hs h0' hq
      have : c = 0 ∨ c = 1 := by have : c < 2 := hc; omega
      rcases this with rfl | rfl
      · exact hz _ z0
      · exact hz _ z1))
  refine ⟨s', str, d, h, hd, fun q hq => ⟨?_, ?_⟩⟩
  · rw [hA 0 q (by show _ < 2; omega) hq]; exact close_of h1 (st 0 q (by show _ < 2; omega) hq).2
  · rw [hA 1 q (by show _ < 2; omega) hq]; exact close_of h1 (st 1 q (by show _ < 2; omega) hq).2

/-- No bound code of the 3D log modes equals the escape code `eb_quant_index_max`. -/
theorem no_collision_rounded {rT rD lg lgT exT : ℝ → ℝ} (A : LogArith rT rD lg lgT exT)
    (h23 : lg (2 ^ 23) = 23) (hmono : ∀ x, 1 ≤ x → x ≤ 2 ^ 23 → lg x ≤ 23) {a : ℝ} (ha : a ≤ 1) :
    (ebQuant (roundedL rT rD lg lgT exT).toDOps 2 (Real.logb 2 2) (1 / 2 ^ 23) a).2 ≠
      escMax (roundedL rT rD lg lgT exT).toDOps (Real.logb 2 2) (1 / 2 ^ 23) := by
  have e2 : Real.logb 2 2 = 1 := Real.logb_self_eq_one (by norm_num)
  have r1' : rD (1 : ℝ) = 1 := by simpa using A.D.pow2all 0
  have r23 : rD ((2 : ℝ) ^ 23) = 2 ^ 23 := A.D.pow2all 23
  have hmax : escMax (roundedL rT rD lg lgT exT).toDOps (Real.logb 2 2) (1 / 2 ^ 23) =
      truncR 23 + 1 := by
    rw [e2]
    simp only [escMax, roundedL, roundedOps, Int.cast_one, r1', one_div_one_div, r23, div_one]
    rw [A.log2.rep, h23]
  rw [hmax, e2]
  have ht : ∀ x y : ℝ, x ≤ y → truncR x ≤ truncR y := by
    intro x y hxy
    unfold truncR
    split
    · rename_i hx
      rw [if_pos (hx.trans hxy)]
      exact Int.floor_le_floor hxy
    · rename_i hx
      split
      · rename_i hy
        exact (Int.ceil_le.2 (by push_cast; linarith)).trans (Int.floor_nonneg.2 hy)
      · exact Int.ceil_le_ceil hxy
  have key : ∀ b : Bool, (b = false → 1 / 2 ^ 23 < a) →
      (if b = true then (rD ((0 : ℤ) : ℝ), (0 : ℤ)) else
        (rD (rD ((2 : ℝ) ^ truncR (rD (lg (rD (a / (1 / 2 ^ 23))) / 1))) * (1 / 2 ^ 23)),
          truncR (rD (lg (rD (a / (1 / 2 ^ 23))) / 1)))).2 < truncR 23 + 1 := by
    intro b hb
    cases b
    · simp only [Bool.false_eq_true, if_false, div_one]
      rw [A.log2.rep]
      have h1 : 1 / 2 ^ 23 < a := hb rfl
      have h2 : rD (a / (1 / 2 ^ 23)) ≤ 2 ^ 23 := by
        have := A.D.mono (show a / (1 / 2 ^ 23) ≤ 2 ^ 23 by
          rw [div_div_eq_mul_div, div_one]; nlinarith)
        rwa [r23] at this
      have h3 : 1 ≤ rD (a / (1 / 2 ^ 23)) := by
        have := A.D.mono (show 1 ≤ a / (1 / 2 ^ 23) by
          rw [div_div_eq_mul_div, div_one]; linarith)
        rwa [r1'] at this
      have := ht _ _ (hmono _ h3 h2)
      omega
    · simp only [if_true]
      have : truncR 23 = 23 := by rw [truncR_nonneg (by norm_num)]; norm_num
      omega
  have := key (decide (a ≤ 1 / 2 ^ 23)) (fun h => by simpa using h)
  intro hc
  unfold ebQuant at hc
  simp only [roundedL, roundedOps] at hc
  push_cast at hc this
  rw [hc] at this
  exact lt_irrefl _ this

/-- What the 3D theorems need about the modes: a bound at most `maxEb` that is always defined. -/
structure BoundLe (bound : Arr ℝ → Nat → Option ℝ) (n : Nat) (maxEb : ℝ) : Prop where
  defined : ∀ f p, p < n → (bound f p).isSome
  le : ∀ f p r, bound f p = some r → r ≤ maxEb

theorem run3Log {rT rD lg lgT exT : ℝ → ℝ} (A : LogArith rT rD lg lgT exT)
    (h23 : lg (2 ^ 23) = 23) (hmono : ∀ x, 1 ≤ x → x ≤ 2 ^ 23 → lg x ≤ 23)
    {n : Nat} {maxEb : ℝ} (h0 : 0 ≤ maxEb) (h1 : maxEb ≤ 1 / 2) {tiny : ℝ} {esc : Int}
    (hesc : esc = 0 ∨ esc = escMax (roundedL rT rD lg lgT exT).toDOps (Real.logb 2 2) (1 / 2 ^ 23))
    {pred : (Nat → ℝ) → Nat → ℝ} (hpred : ∀ f g p, (∀ q, q < p → f q = g q) → pred f p = pred g p)
    {bound : Arr ℝ → Nat → Option ℝ} (hB : BoundLe bound n maxEb) (data : Arr ℝ)
    (hm : ∀ c q, c < 3 → q < n → InRange (data c q) ∧ data c q ≠ 0) :
    Good (logMode3 (roundedL rT rD lg lgT exT) (Real.logb 2 2) (1 / 2 ^ 23) pred 2 32768)
      (planLog3 (roundedL rT rD lg lgT exT) tiny esc bound) n ∧
    ∃ s' str,
      VMode.compress (logMode3 (roundedL rT rD lg lgT exT) (Real.logb 2 2) (1 / 2 ^ 23) pred 2 32768)
        (planLog3 (roundedL rT rD lg lgT exT) tiny esc bound) n data = some (s', str) ∧
      ∀ c q, c < 3 → q < n → -99 ≤ s'.cod c q ∧ Close maxEb (data c q) (s'.val c q) := by
  set L := roundedL rT rD lg lgT exT with hL
  set M := logMode3 L (Real.logb 2 2) (1 / 2 ^ 23) pred 2 32768 with hMd
  have hM : LogMode M L := ⟨rfl, rfl, rfl, rfl, rfl, rfl⟩
  have r0 : rD (0 : ℝ) = 0 := by simpa using A.D.int 0 (by norm_num)
  have r1' : rD (1 : ℝ) = 1 := by simpa using A.D.pow2all 0
  have hplan : ∀ s p a id, planLog3 L tiny esc bound s p = some (.try a id) →
      ∃ req, 0 < req ∧ req ≤ maxEb ∧ a = lg (rD (1 + req)) := by
    intro s p a id hp
    rcases planLog3_cases hp with hh | ⟨req0, req, hreq, hor, hpos, hh⟩
    · cases hh
    · cases hh
      have hpos : 0 < req := by simpa [hL, roundedL, roundedOps, r0] using hpos
      refine ⟨req, hpos, ?_, by simp [hL, roundedL, roundedOps, r1']⟩
      rcases hor with rfl | h
      · exact hB.le _ _ _ hreq
      · have : req = 0 := by rw [h]; simpa [hL, roundedL, roundedOps] using r0
        linarith
  obtain ⟨s', str, h⟩ := VMode.compress_defined M (planLog3 L tiny esc bound) n data
    (fun s p hp => planLog3_defined (hB.defined _ _ hp))
  obtain ⟨w', hT⟩ := A.T
  have st := stateLog hT A.D (le_refl _) A.log2 (by norm_num) (le_refl _) A.expLog (le_refl _)
    (le_refl _) h0 (h1.trans (by norm_num)) hM hplan
    (fun s p a id hpn _ _ c hc => (hm c p hc hpn).2) h (fun c q hc hq => (hm c q hc hq).1)
  refine ⟨goodLog3 L (roundedL_laws ..) _ _ _ _ _ _ _ _ hpred hesc _ (fun s p a hp hpl => ?_),
    s', str, h, fun c q hc hq => ⟨(st c q hc hq).1 (hm c q hc hq).2,
      close_of (h1.trans (by norm_num)) (st c q hc hq).2⟩⟩
  refine no_collision_rounded A h23 hmono ?_
  obtain ⟨req, q0, q1, rfl⟩ := hplan s p a esc hpl
  refine (logEb_le A.D (by norm_num) A.log2 q0.le q1 (h1.trans (by norm_num))).trans ?_
  have : Real.logb 2 ((1 + 1 / 2 ^ 50) * (1 + maxEb)) ≤ 3 / 4 := by
    rw [Real.logb_le_iff_le_rpow (by norm_num) (mul_pos (by norm_num) (by linarith))]
    have e : (2 : ℝ) ^ (3 / 4 : ℝ) = (8 : ℝ) ^ (1 / 4 : ℝ) := by
      rw [show (8 : ℝ) = 2 ^ (3 : ℝ) by norm_num, ← Real.rpow_mul (by norm_num)]; norm_num
    have e2 : (8 / 5 : ℝ) ≤ (8 : ℝ) ^ (1 / 4 : ℝ) := by
      have : ((8 / 5 : ℝ) ^ (4 : ℕ)) ^ (1 / 4 : ℝ) ≤ (8 : ℝ) ^ (1 / 4 : ℝ) :=
        Real.rpow_le_rpow (by positivity) (by norm_num) (by norm_num)
      refine le_trans (le_of_eq ?_) this
      rw [← Real.rpow_natCast, ← Real.rpow_mul (by norm_num)]; norm_num
    rw [e]
    refine le_trans ?_ e2
    norm_num
    linarith
  norm_num at this ⊢
  linarith

/-- C56, 3D structured mode, partial.  The same for the 3D log mode and fields without zeros;
`log2` is assumed to be right at `2^23` and not above it before. -/
theorem C56_log3d_partial {rT rD lg lgT exT : ℝ → ℝ} (A : LogArith rT rD lg lgT exT)
    (h23 : lg (2 ^ 23) = 23) (hmono : ∀ x, 1 ≤ x → x ≤ 2 ^ 23 → lg x ≤ 23)
    (r1 r2 r3 : Nat) (maxEb tiny : ℝ) (h0 : 0 ≤ maxEb) (h1 : maxEb ≤ 1 / 2)
    (derive : (Nat → ℝ) → (Nat → ℝ) → (Nat → ℝ) → (Nat → ℝ) → ℝ) (data : Arr ℝ)
    (hm : ∀ c q, c < 3 → q < r1 * r2 * r3 → InRange (data c q) ∧ data c q ≠ 0) (m0 : Arr ℝ) :
    let L := roundedL rT rD lg lgT exT
    let M := logMode3 L (Real.logb 2 2) (1 / 2 ^ 23) (lorenzo3 L.toOps r2 r3) 2 32768
    ∃ s' str d,
      VMode.compress M (planLog3 L tiny (escMax L.toDOps (Real.logb 2 2) (1 / 2 ^ 23))
        (boundLog3 L.toDOps r1 r2 r3 maxEb derive)) (r1 * r2 * r3) data = some (s', str) ∧
      VMode.decompress M (logFin L (mapAt (signMaps L 3 (r1 * r2 * r3) data))) (r1 * r2 * r3) m0
        str = some d ∧
      ∀ c q, c < 3 → q < r1 * r2 * r3 → Close maxEb (data c q) (d c q) := by
  intro L M
  have hB : BoundLe (boundLog3 L.toDOps r1 r2 r3 maxEb derive) (r1 * r2 * r3) maxEb := by
    refine ⟨fun f p hp => required3_defined hp _, fun f p r hr => ?_⟩
    refine loop3_le_start (fun req idx a b c d hreq => ?_) _ _ (le_refl _) hr
    unfold minBody
    simp only
    split
    · exact hreq
    · rename_i hlt
      have : ¬ (req < derive a b c d) := by simpa [L, roundedL, roundedOps] using hlt
      exact (not_lt.1 this).trans hreq
  obtain ⟨G, s', str, h, hA⟩ := run3Log A h23 hmono h0 h1 (tiny := tiny) (Or.inr rfl)
    (lorenzo3_congr L.toOps r2 r3) hB data hm
  obtain ⟨d, hd, hd'⟩ := decLog (M := M) ⟨rfl, rfl, rfl, rfl, rfl, rfl⟩ G (m0 := m0) h
    (fun c q e hc hq _ _ => (hA c q hc hq).1)
  exact ⟨s', str, d, h, hd, fun c q hc hq => by rw [hd' c q hc hq]; exact (hA c q hc hq).2⟩

/-- C56, unstructured mode, partial. -/
theorem C56_unstructured_partial {rT rD lg lgT exT : ℝ → ℝ} (A : LogArith rT rD lg lgT exT)
    (h23 : lg (2 ^ 23) = 23) (hmono : ∀ x, 1 ≤ x → x ≤ 2 ^ 23 → lg x ≤ 23)
    (n : Nat) (inds : Nat → Int) (adj : Nat → List (Nat × Nat)) (maxEb tiny : ℝ) (h0 : 0 ≤ maxEb)
    (h1 : maxEb ≤ 1 / 2)
    (derive : (Nat → ℝ) → (Nat → ℝ) → (Nat → ℝ) → (Nat → ℝ) → ℝ) (data : Arr ℝ)
    (hm : ∀ c q, c < 3 → q < n → InRange (data c q) ∧ data c q ≠ 0) (m0 : Arr ℝ) :
    let L := roundedL rT rD lg lgT exT
    let M := logMode3 L (Real.logb 2 2) (1 / 2 ^ 23) (predPrev L.toOps) 2 32768
    ∃ s' str d,
      VMode.compress M (planLog3 L tiny 0
        (fun f p => some (boundU L.toDOps inds adj maxEb derive f p))) n data = some (s', str) ∧
      decompressU L M n m0 (signsU L n data) str = some d ∧
      ∀ c q, c < 3 → q < n → Close maxEb (data c q) (d c q) := by
  intro L M
  have hB : BoundLe (fun f p => some (boundU L.toDOps inds adj maxEb derive f p)) n maxEb := by
    refine ⟨fun f p hp => rfl, fun f p r hr => ?_⟩
    simp only [Option.some.injEq] at hr
    rw [← hr]
    unfold boundU
    have key : ∀ (l : List (Nat × Nat)) (req : ℝ), req ≤ maxEb →
        l.foldl (fun req x =>
          let q := fun k => (inds (4 * x.1 + (rotated x.2).getD k 0)).toNat
          let e := derive (fun c => f c (q 0)) (fun c => f c (q 1)) (fun c => f c (q 2))
            (fun c => f c (q 3))
          if L.lt req e then req else e) req ≤ maxEb := by
      intro l
      induction l with
      | nil => intro req hreq; exact hreq
      | cons x l ih =>
        intro req hreq
        rw [List.foldl_cons]
        refine ih _ ?_
        simp only
        split
        · exact hreq
        · rename_i hlt
          simp only [L, roundedL, roundedOps, decide_eq_true_eq, not_lt] at hlt
          exact hlt.trans hreq
    exact key _ _ (le_refl _)
  obtain ⟨G, s', str, h, hA⟩ := run3Log A h23 hmono h0 h1 (tiny := tiny) (Or.inl rfl)
    (predPrev_congr L.toOps) hB data hm
  obtain ⟨d, hd, hd'⟩ := lockstepU L (roundedL_laws ..) M rfl rfl _ n G data m0 s' str h
    (fun c q e hc hq _ _ => by
      simp only [L, roundedL, decide_eq_false_iff_not, not_lt]
      exact (hA c q hc hq).1)
  exact ⟨s', str, d, h, hd, fun c q hc hq => by rw [hd' c q hc hq]; exact (hA c q hc hq).2⟩

/-! ### IEEE arithmetic -/

/-- `log2f` of a number converted to `float`. -/
noncomputable def log2f (rnd : ℝ → ℤ) (x : ℝ) : ℝ := fl rnd 24 (Real.logb 2 (fl rnd 24 x))

theorem logb_near {x y η : ℝ} (hx : 0 < x) (h0 : 0 ≤ η) (h1 : η ≤ 1 / 100) (h : |y - x| ≤ η * x) :
    |Real.logb 2 y - Real.logb 2 x| ≤ 3 / 2 * η := by
  obtain ⟨a, b⟩ := abs_le.1 h
  have hy : 0 < y := by nlinarith
  have ht : 0 < y / x := div_pos hy hx
  have l2 := Real.log_two_gt_d9
  have e : Real.logb 2 y - Real.logb 2 x = Real.log (y / x) / Real.log 2 := by
    rw [Real.log_div hy.ne' hx.ne']; simp only [Real.logb]; ring
  have u1 : y / x ≤ 1 + η := by rw [div_le_iff₀ hx]; linarith
  have u2 : 1 - η ≤ y / x := by rw [le_div_iff₀ hx]; linarith
  have v1 : Real.log (y / x) ≤ η := (Real.log_le_sub_one_of_pos ht).trans (by linarith)
  have v2 : -(100 / 99 * η) ≤ Real.log (y / x) := by
    refine le_trans ?_ (Real.one_sub_inv_le_log_of_pos ht)
    have : (y / x)⁻¹ ≤ (1 - η)⁻¹ := inv_anti₀ (by linarith) u2
    have h3 : (1 - η)⁻¹ ≤ 1 + 100 / 99 * η := by
      rw [inv_le_iff_one_le_mul₀ (by linarith)]; nlinarith
    linarith
  rw [e, abs_le]
  constructor
  · rw [le_div_iff₀ (by linarith)]; nlinarith
  · rw [div_le_iff₀ (by linarith)]; nlinarith

/-- The hypotheses on the arithmetic are met by IEEE `float` and `double` data (`p` is the number
of significand bits) with correctly rounded functions, whatever the rounding rule. -/
theorem ieee_arith {rnd : ℝ → ℤ} (hr : IsIntRounding rnd) {p : ℕ} (hp : 24 ≤ p) :
    LogArith (fl rnd p) (fl rnd 53) (fun x => fl rnd 53 (Real.logb 2 x)) (log2f rnd)
      (fun y => fl rnd p ((2 : ℝ) ^ y)) := by
  have hF := fl_isFloat hr hp
  have hD := fl_isFloat hr (p := 53) (by norm_num)
  have h24 := fl_isFloat hr (p := 24) (by norm_num)
  have hl := IsLog2.rounded hr (p := 53) (by norm_num)
  refine ⟨⟨_, hF⟩, ⟨hD.toIsRounding, hD.pow2all, fun x => (hD.rel x).trans ?_⟩,
    ⟨hl.rep, fun x a b => (hl.upper x a b).trans ?_⟩, fun x a b => ?_, fun y _ _ => ?_⟩
  · refine mul_le_mul_of_nonneg_right ?_ (abs_nonneg _)
    norm_num
  · norm_num
  · have e24 : (2 : ℝ) ^ (1 - ((24 : ℕ) : ℤ)) = 1 / 2 ^ 23 := by norm_num
    have hx : 0 < x := lt_of_lt_of_le (zpow_pos (by norm_num) _) a
    have r1 := h24.rel x
    rw [abs_of_pos hx, e24] at r1
    have r2 := logb_near hx (by norm_num) (by norm_num) r1
    have r3 := h24.rel (Real.logb 2 (fl rnd 24 x))
    rw [e24] at r3
    have l1 : Real.logb 2 x ≤ 126 := by
      rw [Real.logb_le_iff_le_rpow (by norm_num) hx]
      have : (2 : ℝ) ^ (126 : ℝ) = (2 : ℝ) ^ (126 : ℤ) := by
        rw [← Real.rpow_intCast]; norm_num
      rw [this]; exact b
    have l2 : -126 ≤ Real.logb 2 x := by
      rw [Real.le_logb_iff_rpow_le (by norm_num) hx]
      have : (2 : ℝ) ^ (-126 : ℝ) = (2 : ℝ) ^ (-126 : ℤ) := by
        rw [← Real.rpow_intCast]; norm_num
      rw [this]; exact a
    have l3 : |Real.logb 2 (fl rnd 24 x)| ≤ 126 + 3 / 2 * (1 / 2 ^ 23) := by
      obtain ⟨c1, c2⟩ := abs_le.1 r2
      rw [abs_le]
      constructor <;> linarith
    have l4 := abs_sub_le (log2f rnd x) (Real.logb 2 (fl rnd 24 x)) (Real.logb 2 x)
    unfold log2f at l4 ⊢
    norm_num at r2 r3 l3 l4 ⊢
    linarith
  · have h2 : (0 : ℝ) < (2 : ℝ) ^ y := Real.rpow_pos_of_pos (by norm_num) _
    have := hF.rel ((2 : ℝ) ^ y)
    rw [abs_of_pos h2] at this
    refine this.trans (mul_le_mul_of_nonneg_right ?_ h2.le)
    have := zpow_le_zpow_right₀ (a := (2 : ℝ)) (by norm_num) (show 1 - (p : ℤ) ≤ -22 by omega)
    refine this.trans (by norm_num)

theorem ieee_log23 {rnd : ℝ → ℤ} (hr : IsIntRounding rnd) :
    fl rnd 53 (Real.logb 2 (2 ^ 23)) = 23 ∧
      ∀ x, 1 ≤ x → x ≤ 2 ^ 23 → fl rnd 53 (Real.logb 2 x) ≤ 23 := by
  have hD := fl_isFloat hr (p := 53) (by norm_num)
  have e : Real.logb 2 (2 ^ 23) = 23 := by rw [Real.logb_pow]; simp
  have f : fl rnd 53 23 = 23 := by simpa using hD.int 23 (by norm_num)
  refine ⟨by rw [e, f], fun x h1 h2 => ?_⟩
  have := hD.mono (Real.logb_le_logb_of_le (b := 2) (by norm_num) (by linarith) h2)
  rwa [e, f] at this

/-! ### The bound is exceeded -/

/-- The value of the counterexample, a `float`. -/
noncomputable def wit : ℝ := (2 ^ 19 + 1 : ℤ) * (2 : ℝ) ^ (81 : ℤ)

theorem wit_pos : 0 < wit := by unfold wit; positivity

theorem wit_eq : wit = (2 : ℝ) ^ (100 : ℕ) * (1 + 1 / 2 ^ 19) := by
  unfold wit; norm_num

/-- `log2f` cannot tell `wit` from `2^100`. -/
theorem log2f_wit {rnd : ℝ → ℤ} (hr : IsNearest rnd) : log2f rnd wit = 100 := by
  unfold log2f
  have hr' := hr.toIsIntRounding
  rw [fl_exact hr' (p := 24) (x := wit) (n := 2 ^ 19 + 1) (e := 81) rfl (by norm_num)]
  have e1 : Real.logb 2 wit = 100 + Real.logb 2 (1 + 1 / 2 ^ 19) := by
    rw [wit_eq, Real.logb_mul (by positivity) (by positivity), Real.logb_pow]
    simp
  have h0 : 0 < Real.logb 2 (1 + 1 / 2 ^ 19) := Real.logb_pos (by norm_num) (by norm_num)
  have h1 : Real.logb 2 (1 + 1 / 2 ^ 19) ≤ 3 / 2 * (1 / 2 ^ 19) := by
    have := logb_near (x := 1) (y := 1 + 1 / 2 ^ 19) (η := 1 / 2 ^ 19) (by norm_num) (by norm_num)
      (by norm_num) (by norm_num)
    rw [Real.logb_one, sub_zero] at this
    exact (le_abs_self _).trans this
  set t := Real.logb 2 (1 + 1 / 2 ^ 19) with ht
  have e2 : Real.logb 2 wit = (100 + t) * 2 ^ 17 * (2 : ℝ) ^ (-17 : ℤ) := by
    rw [e1]
    have : (2 : ℝ) ^ (-17 : ℤ) = 1 / 2 ^ 17 := by norm_num
    rw [this]; ring
  have hpos : 0 ≤ Real.logb 2 wit := by rw [e1]; linarith
  unfold fl
  rw [if_pos hpos, e2, flPos_eq (by norm_num) (by norm_num; linarith) (by norm_num; linarith)]
  have hh := abs_le.1 (hr.half ((100 + t) * 2 ^ 17))
  have : rnd ((100 + t) * 2 ^ 17) = 13107200 := by
    have h1' : t * 2 ^ 17 ≤ 3 / 8 := by norm_num at h1 ⊢; linarith
    have h0' : 0 < t * 2 ^ 17 := by positivity
    have e3 : (100 + t) * 2 ^ 17 = 13107200 + t * 2 ^ 17 := by ring
    rw [e3] at hh ⊢
    generalize t * 2 ^ 17 = t' at *
    have a1 : ((13107199 : ℤ) : ℝ) < rnd (13107200 + t') := by push_cast; linarith [hh.1]
    have a2 : (rnd (13107200 + t') : ℝ) < ((13107201 : ℤ) : ℝ) := by push_cast; linarith [hh.2]
    have b1 := Int.cast_lt.1 a1
    have b2 := Int.cast_lt.1 a2
    omega
  rw [this]; norm_num

/-- The bound code for `max_pwr_eb = 2^-20`. -/
theorem ebQuant_wit {rnd : ℝ → ℤ} (hr : IsIntRounding rnd) {rT lgT exT : ℝ → ℝ} :
    ebQuant (roundedL rT (fl rnd 53) (fun x => fl rnd 53 (Real.logb 2 x)) lgT exT).toDOps 2
      (Real.logb 2 2) (1 / 2 ^ 23) (fl rnd 53 (Real.logb 2 (fl rnd 53 (1 + 1 / 2 ^ 20)))) =
      (1 / 2 ^ 20, 3) := by
  have hD := fl_isFloat hr (p := 53) (by norm_num)
  have e2 : Real.logb 2 2 = 1 := Real.logb_self_eq_one (by norm_num)
  have ex : ∀ (n e : ℤ), |n| < 2 ^ 53 → fl rnd 53 (n * (2 : ℝ) ^ e) = n * (2 : ℝ) ^ e :=
    fun n e hn => fl_exact hr (p := 53) (n := n) (e := e) rfl hn
  have x1 : fl rnd 53 (1 + 1 / 2 ^ 20) = 1 + 1 / 2 ^ 20 := by
    have := ex (2 ^ 20 + 1) (-20) (by norm_num)
    norm_num at this ⊢
    exact this
  have x2 : fl rnd 53 (1 / 2 ^ 20) = 1 / 2 ^ 20 := by
    have := ex 1 (-20) (by norm_num)
    norm_num at this ⊢
    exact this
  have x3 : fl rnd 53 (3 / 2 ^ 21) = 3 / 2 ^ 21 := by
    have := ex 3 (-21) (by norm_num)
    norm_num at this ⊢
    exact this
  rw [x1]
  set a := fl rnd 53 (Real.logb 2 (1 + 1 / 2 ^ 20)) with ha
  have a1 : 1 / 2 ^ 20 ≤ a := by
    have h : (1 / 2 ^ 20 : ℝ) ≤ Real.logb 2 (1 + 1 / 2 ^ 20) := by
      rw [Real.le_logb_iff_rpow_le (by norm_num) (by norm_num)]
      exact rpow_two_le (by norm_num) (by norm_num)
    have := hD.mono h
    rwa [x2] at this
  have a2 : a ≤ 3 / 2 ^ 21 := by
    have h : Real.logb 2 (1 + 1 / 2 ^ 20) ≤ 3 / 2 ^ 21 := by
      have := logb_near (x := 1) (y := 1 + 1 / 2 ^ 20) (η := 1 / 2 ^ 20) (by norm_num)
        (by norm_num) (by norm_num) (by norm_num)
      rw [Real.logb_one, sub_zero] at this
      refine (le_abs_self _).trans (this.trans ?_)
      norm_num
    have := hD.mono h
    rwa [x3] at this
  have b1 : 8 ≤ fl rnd 53 (a / (1 / 2 ^ 23)) := by
    have := hD.mono (show (8 : ℝ) ≤ a / (1 / 2 ^ 23) by
      rw [div_div_eq_mul_div, div_one]; norm_num at a1 ⊢; linarith)
    have e8 : fl rnd 53 8 = 8 := by simpa using hD.int 8 (by norm_num)
    rwa [e8] at this
  have b2 : fl rnd 53 (a / (1 / 2 ^ 23)) ≤ 12 := by
    have := hD.mono (show a / (1 / 2 ^ 23) ≤ (12 : ℝ) by
      rw [div_div_eq_mul_div, div_one]; norm_num at a2 ⊢; linarith)
    have e8 : fl rnd 53 12 = 12 := by simpa using hD.int 12 (by norm_num)
    rwa [e8] at this
  have c1 : 3 ≤ fl rnd 53 (Real.logb 2 (fl rnd 53 (a / (1 / 2 ^ 23)))) := by
    have h : (3 : ℝ) ≤ Real.logb 2 (fl rnd 53 (a / (1 / 2 ^ 23))) := by
      rw [Real.le_logb_iff_rpow_le (by norm_num) (by linarith)]
      norm_num; norm_num at b1; exact b1
    have := hD.mono h
    have e3 : fl rnd 53 3 = 3 := by simpa using hD.int 3 (by norm_num)
    rwa [e3] at this
  have c2 : fl rnd 53 (Real.logb 2 (fl rnd 53 (a / (1 / 2 ^ 23)))) ≤ 15 / 4 := by
    have h : Real.logb 2 (fl rnd 53 (a / (1 / 2 ^ 23))) ≤ 15 / 4 := by
      rw [Real.logb_le_iff_le_rpow (by norm_num) (by linarith)]
      refine b2.trans ?_
      have e : (2 : ℝ) ^ (15 / 4 : ℝ) = (2 ^ 15 : ℝ) ^ (1 / 4 : ℝ) := by
        rw [← Real.rpow_natCast, ← Real.rpow_mul (by norm_num)]; norm_num
      rw [e]
      have : ((12 : ℝ) ^ (4 : ℕ)) ^ (1 / 4 : ℝ) ≤ (2 ^ 15 : ℝ) ^ (1 / 4 : ℝ) :=
        Real.rpow_le_rpow (by positivity) (by norm_num) (by norm_num)
      refine le_trans (le_of_eq ?_) this
      rw [← Real.rpow_natCast, ← Real.rpow_mul (by norm_num)]; norm_num
    have := hD.mono h
    have e3 : fl rnd 53 (15 / 4) = 15 / 4 := by
      have := ex 15 (-2) (by norm_num)
      norm_num at this ⊢
      exact this
    rwa [e3] at this
  have hid : fl rnd 53 (fl rnd 53 (Real.logb 2 (fl rnd 53 (a / (1 / 2 ^ 23))))) =
      fl rnd 53 (Real.logb 2 (fl rnd 53 (a / (1 / 2 ^ 23)))) := fl_idem hr (by norm_num) _
  have htr : truncR (fl rnd 53 (Real.logb 2 (fl rnd 53 (a / (1 / 2 ^ 23))))) = 3 := by
    rw [truncR_nonneg (by linarith), Int.floor_eq_iff]
    push_cast
    constructor <;> linarith
  have hle : ¬ a ≤ 1 / 2 ^ 23 := by
    have : (1 / 2 ^ 23 : ℝ) < 1 / 2 ^ 20 := by norm_num
    exact not_le.2 (this.trans_le a1)
  have r8 : fl rnd 53 8 = 8 := by simpa using hD.int 8 (by norm_num)
  unfold ebQuant
  rw [e2]
  simp only [roundedL, roundedOps, decide_eq_true_eq, if_neg hle, div_one, hid, htr]
  norm_num at r8 x2 ⊢
  rw [r8]
  norm_num
  exact x2

/-- A grid with a single row has no triangles. -/
theorem bound_row (maxEb : ℝ) (derive : Nat → ℝ → ℝ → ℝ → ℝ → ℝ → ℝ → ℝ) (f : Online2D.Field ℝ)
    (q : Nat) (hq : q = 0 ∨ q = 1) : requiredEb 1 2 maxEb minf derive f q = some maxEb := by
  have h0 : ∀ k, k ∈ [0, 1, 2, 3, 4, 5] → Mesh2D.inMesh 1 2 (0 / 2) (0 % 2) k = false := by decide
  have h1 : ∀ k, k ∈ [0, 1, 2, 3, 4, 5] → Mesh2D.inMesh 1 2 (1 / 2) (1 % 2) k = false := by decide
  have key : ∀ ks : List Nat, (∀ k ∈ ks, k ∈ [0, 1, 2, 3, 4, 5]) →
      requiredLoop 1 2 minf derive f q ks maxEb = some maxEb := by
    intro ks
    induction ks with
    | nil => intro _; rfl
    | cons k ks ih =>
      intro hks
      have hk : Mesh2D.inMesh 1 2 (q / 2) (q % 2) k = false := by
        rcases hq with rfl | rfl
        · exact h0 k (hks k (List.mem_cons_self ..))
        · exact h1 k (hks k (List.mem_cons_self ..))
      unfold requiredLoop
      rw [hk]
      simp only [Bool.false_eq_true, if_false]
      exact ih fun x hx => hks x (List.mem_cons_of_mem _ hx)
  exact key _ fun _ h => h

/-- C56 without slack fails, for `float` (`p = 24`) and for `double` data (`p = 53`).  On a grid of
two vertices at which both components are `2^100 (1 + 2^-19)`, with correctly rounded arithmetic
and library functions and whatever the bounds of the triangles, the second vertex comes back as
`2^100`: the relative error is about `2^-19`, the user asked for `2^-20`. -/
theorem C56_bound_exceeded {rnd : ℝ → ℤ} (hr : IsNearest rnd) {p : ℕ} (hp : 24 ≤ p)
    (derive : Nat → ℝ → ℝ → ℝ → ℝ → ℝ → ℝ → ℝ) (m0 : Arr ℝ) :
    let L := roundedL (fl rnd p) (fl rnd 53) (fun x => fl rnd 53 (Real.logb 2 x)) (log2f rnd)
      (fun y => fl rnd p ((2 : ℝ) ^ y))
    let M := mode2 L (Real.logb 2 2) (1 / 2 ^ 23) 2 2 32768
    let m : Online2D.Field ℝ := ⟨fun _ => wit, fun _ => wit⟩
    ∃ s' str d,
      VMode.compress M (plan2 L (requiredEb 1 2 (1 / 2 ^ 20) minf derive)) (1 * 2) (arr2 m) =
        some (s', str) ∧
      VMode.decompress M (logFin L (mapAt (signMaps L 2 (1 * 2) (arr2 m)))) (1 * 2) m0 str =
        some d ∧
      1 / 2 ^ 20 * |m.u 1| < |d 0 1 - m.u 1| := by
  intro L M m
  have hr' := hr.toIsIntRounding
  have hT := fl_isFloat hr' hp
  have hD := fl_isFloat hr' (p := 53) (by norm_num)
  have t0 : fl rnd p 0 = 0 := by simpa using hT.int 0 (by norm_num)
  have t100 : fl rnd p 100 = 100 := by simpa using hT.int 100 (by norm_num)
  have d0 : fl rnd 53 0 = 0 := by simpa using hD.int 0 (by norm_num)
  have d1 : fl rnd 53 1 = 1 := by simpa using hD.int 1 (by norm_num)
  have d2 : fl rnd 53 2 = 2 := by simpa using hD.int 2 (by norm_num)
  have d100 : fl rnd 53 100 = 100 := by simpa using hD.int 100 (by norm_num)
  have dcap : fl rnd 53 65536 = 65536 := by simpa using hD.int 65536 (by norm_num)
  have dh : fl rnd 53 (-(1 / 2)) = -(1 / 2) := by
    rw [hD.odd]
    have := hD.pow2all (-1)
    norm_num at this ⊢
    exact this
  set bound : Online2D.Field ℝ → Nat → Option ℝ := requiredEb 1 2 (1 / 2 ^ 20) minf derive with hb
  set s0 := initState M (arr2 m) with hs0
  have hval : ∀ c q, s0.val c q = wit := by
    intro c q
    show (if c = 0 then wit else wit) = wit
    split <;> rfl
  have hcod : ∀ c q, s0.cod c q = 100 := by
    intro c q
    have : s0.cod c q = logFwd L (s0.val c q) := rfl
    rw [this, hval, logFwd_rounded wit_pos.ne', abs_of_pos wit_pos, log2f_wit hr]
  have hplan : ∀ q, q = 0 ∨ q = 1 → plan2 L bound s0 q =
      some (.try (fl rnd 53 (Real.logb 2 (fl rnd 53 (1 + 1 / 2 ^ 20)))) 0) := by
    intro q hq
    have hbq : bound (field2 s0.val) q = some (1 / 2 ^ 20) := bound_row _ _ _ q hq
    have hz : L.isZero wit = false := decide_eq_false wit_pos.ne'
    have hlt : L.lt (L.ofInt 0) (1 / 2 ^ 20) = true := by
      simp only [L, roundedL, roundedOps, Int.cast_zero, d0]
      norm_num
    unfold plan2
    rw [hbq]
    simp only [hval, hz, hlt]
    simp [L, roundedL, roundedOps, d1]
  have hq := ebQuant_wit hr' (rT := fl rnd p) (lgT := log2f rnd)
    (exT := fun y => fl rnd p ((2 : ℝ) ^ y))
  -- first vertex
  have hpred0 : ∀ c, M.pred (s0.cod c) 0 = 0 := by
    intro c
    show Online2D.lorenzo L.toOps 2 (s0.cod c) 0 = 0
    simp [Online2D.lorenzo, L, roundedL, roundedOps, t0]
  have hpred1 : ∀ c, M.pred (s0.cod c) 1 = 100 := by
    intro c
    show Online2D.lorenzo L.toOps 2 (s0.cod c) 1 = 100
    simp [Online2D.lorenzo, L, roundedL, roundedOps, t100, hcod]
  have henc0 : ∀ c, encComp M (s0.cod c) 0 (1 / 2 ^ 20) = none := by
    intro c
    have hl : linQuant L.toDOps 100 (1 / 2 ^ 20) 65536 32768 = none := by
      have h1 : (65536 : ℝ) ≤ fl rnd 53 (fl rnd 53 (|(100 : ℝ)| / (1 / 2 ^ 20)) + 1) := by
        have h2 : (65536 : ℝ) ≤ fl rnd 53 (|(100 : ℝ)| / (1 / 2 ^ 20)) := by
          have := hD.mono (show (65536 : ℝ) ≤ |(100 : ℝ)| / (1 / 2 ^ 20) by norm_num)
          rwa [dcap] at this
        have := hD.mono (show (65536 : ℝ) ≤ fl rnd 53 (|(100 : ℝ)| / (1 / 2 ^ 20)) + 1 by linarith)
        rwa [dcap] at this
      unfold linQuant
      simp only [L, roundedL, roundedOps, Int.cast_one, Int.cast_ofNat, d1, dcap,
        decide_eq_true_eq, if_neg (not_lt.2 h1)]
    have hdiff : M.O.toD (M.O.subT (s0.cod c 0) (M.pred (s0.cod c) 0)) = 100 := by
      rw [hpred0, hcod]
      show fl rnd p (100 - 0) = 100
      rw [sub_zero, t100]
    have hl' : linQuant M.O.toDOps 100 (1 / 2 ^ 20) M.capacity M.radius = none := hl
    unfold encComp
    simp only [hdiff, hl']
  have henc1 : ∀ c, encComp M (s0.cod c) 1 (1 / 2 ^ 20) = some (32768, 100) := by
    intro c
    have hl : linQuant L.toDOps 0 (1 / 2 ^ 20) 65536 32768 = some 32768 := by
      have ht : truncR (-(1 / 2)) = 0 := by
        rw [truncR_neg, truncR_nonneg (by norm_num)]; norm_num
      unfold linQuant
      simp only [L, roundedL, roundedOps, Int.cast_one, Int.cast_ofNat, Int.cast_zero, d0, d1, d2,
        dcap, abs_zero, zero_div, zero_add, decide_eq_true_eq, lt_irrefl, if_false]
      rw [if_pos (by norm_num), show (-1 / 2 : ℝ) = -(1 / 2) by ring, dh, ht]
      rfl
    have hdiff : M.O.toD (M.O.subT (s0.cod c 1) (M.pred (s0.cod c) 1)) = 0 := by
      rw [hpred1, hcod]
      show fl rnd p (100 - 100) = 0
      rw [sub_self, t0]
    have hl' : linQuant M.O.toDOps 0 (1 / 2 ^ 20) M.capacity M.radius = some 32768 := hl
    have hdec : M.O.ofD (M.O.add (M.O.toD (M.pred (s0.cod c) 1))
        (linOffset M.O.toDOps (1 / 2 ^ 20) M.radius 32768)) = 100 := by
      rw [hpred1]
      show fl rnd p (fl rnd 53 (100 + fl rnd 53 (fl rnd 53 ((2 * ((32768 : Int) - 32768) : Int) : ℝ) *
        (1 / 2 ^ 20)))) = 100
      norm_num [d0, d100, t100]
    have hchk : M.O.le (1 / 2 ^ 20) (M.O.abs (M.O.toD (M.O.subT 100 (s0.cod c 1)))) = false := by
      rw [hcod]
      show decide ((1 / 2 ^ 20 : ℝ) ≤ |fl rnd p (100 - 100)|) = false
      rw [sub_self, t0]
      norm_num
    unfold encComp
    simp only [hdiff, hl', hdec, hchk]
    simp
  have hr2 : List.range M.K = [0, 1] := rfl
  have hq' : ebQuant M.O.toDOps M.base M.logBase M.thr
      (fl rnd 53 (Real.logb 2 (fl rnd 53 (1 + 1 / 2 ^ 20)))) = (1 / 2 ^ 20, 3) := hq
  have hv0 : encVertex M (plan2 L bound) s0 0 = some (s0, .esc 0 (col M.K s0.val 0)) := by
    unfold encVertex
    rw [hplan 0 (Or.inl rfl)]
    simp only [hq', hr2, encComps, henc0]
    rfl
  have hv1 : encVertex M (plan2 L bound) s0 1 =
      some (⟨setCol s0.cod 1 [100, 100], setCol s0.val 1
        (List.zipWith M.back (col M.K s0.val 1) [100, 100])⟩, .coded 3 [32768, 32768]) := by
    unfold encVertex
    rw [hplan 1 (Or.inr rfl)]
    simp only [hq', hr2, encComps, henc1]
    rfl
  have hc : VMode.compress M (plan2 L bound) (1 * 2) (arr2 m) =
      some (⟨setCol s0.cod 1 [100, 100], setCol s0.val 1
        (List.zipWith M.back (col M.K s0.val 1) [100, 100])⟩,
        ⟨[0, 3], [32768, 32768, 32768, 32768], [wit, wit]⟩) := by
    simp only [VMode.compress, scanEnc, ← hs0, hv0, hv1, Nat.zero_add]
    rfl
  obtain ⟨d, hd, hA⟩ := decLog (M := M) ⟨rfl, rfl, rfl, rfl, rfl, rfl⟩
    (good2 L (roundedL_laws ..) _ _ 2 2 32768 bound _) (m0 := m0) hc
    (fun c q e hc hq _ _ => by
      have hc2 : c < 2 := hc
      have : setCol s0.cod 1 [100, 100] c q = 100 := by
        unfold setCol
        split
        · rcases (show c = 0 ∨ c = 1 by omega) with rfl | rfl <;> rfl
        · exact hcod c q
      simp only [this]
      norm_num)
  refine ⟨_, _, d, hc, hd, ?_⟩
  have hdv : d 0 1 = (2 : ℝ) ^ (100 : ℕ) := by
    rw [hA 0 1 (by show 0 < 2; omega) (by omega)]
    have e1 : setCol s0.val 1 (List.zipWith M.back (col M.K s0.val 1) [100, 100]) 0 1 =
        logBack L (s0.val 0 1) 100 := rfl
    simp only [e1, hval]
    have hpos : L.pos wit = true := decide_eq_true wit_pos
    unfold logBack
    rw [hpos]
    simp only [if_true]
    show fl rnd p ((2 : ℝ) ^ (100 : ℝ)) = _
    have e2 : (2 : ℝ) ^ (100 : ℝ) = (2 : ℝ) ^ (100 : ℤ) := by
      rw [← Real.rpow_intCast]; norm_num
    rw [e2, hT.pow2all]
    norm_num
  have hm1 : m.u 1 = wit := rfl
  rw [hdv, hm1, abs_of_pos wit_pos, wit_eq]
  have : (2 : ℝ) ^ (100 : ℕ) - 2 ^ (100 : ℕ) * (1 + 1 / 2 ^ 19) = -(2 ^ (100 : ℕ) * (1 / 2 ^ 19)) := by
    ring
  rw [this, abs_neg, abs_of_pos (by positivity)]
  norm_num

/-- IEEE `float` data: a 2D field of four vertices with zeros and a large value. -/
example (m0 : Arr ℝ) :
    let L := roundedL (fl nearest 24) (fl nearest 53) (fun x => fl nearest 53 (Real.logb 2 x))
      (log2f nearest) (fun y => fl nearest 24 ((2 : ℝ) ^ y))
    let m : Online2D.Field ℝ := ⟨fun q => [-1, 7, 2 ^ 100, 0].getD q 0, fun q => [-1, 7, 0, 1].getD q 0⟩
    ∃ s' str d,
      VMode.compress (mode2 L (Real.logb 2 2) (1 / 2 ^ 23) 2 2 32768)
        (plan2 L (requiredEb 2 2 (1 / 10) minf (fun _ a b _ _ _ _ => a - b))) (2 * 2) (arr2 m) =
        some (s', str) ∧
      VMode.decompress (mode2 L (Real.logb 2 2) (1 / 2 ^ 23) 2 2 32768)
        (logFin L (mapAt (signMaps L 2 (2 * 2) (arr2 m)))) (2 * 2) m0 str = some d ∧
      ∀ q, q < 2 * 2 → Close (1 / 10) (m.u q) (d 0 q) ∧ Close (1 / 10) (m.v q) (d 1 q) := by
  intro L m
  refine C56_log2d_partial (ieee_arith nearest_rounding (by norm_num)) 2 2 (1 / 10) (by norm_num)
    (by norm_num) _ m (fun q hq => ?_) m0
  have hz : (2 : ℝ) ^ (-97 : ℤ) ≤ 1 := by norm_num
  have hz' : (7 : ℝ) ≤ (2 : ℝ) ^ (126 : ℤ) := by norm_num
  have hz2 : (1 : ℝ) ≤ (2 : ℝ) ^ (126 : ℤ) := by norm_num
  have hq' : q = 0 ∨ q = 1 ∨ q = 2 ∨ q = 3 := by omega
  rcases hq' with rfl | rfl | rfl | rfl
  all_goals
    simp only [m, InRange, List.getD_cons_zero, List.getD_cons_succ, abs_neg, abs_one]
    norm_num

/-- IEEE `double` data on a 2 by 2 by 2 grid, and the same values as an unstructured mesh with one
cell, without zeros and with both signs. -/
example (m0 : Arr ℝ) :
    let L := roundedL (fl nearest 53) (fl nearest 53) (fun x => fl nearest 53 (Real.logb 2 x))
      (log2f nearest) (fun y => fl nearest 53 ((2 : ℝ) ^ y))
    let M := logMode3 L (Real.logb 2 2) (1 / 2 ^ 23) (lorenzo3 L.toOps 2 2) 2 32768
    let U := logMode3 L (Real.logb 2 2) (1 / 2 ^ 23) (predPrev L.toOps) 2 32768
    let data : Arr ℝ := fun c q => (-1 : ℝ) ^ (c + q) * ((q : ℝ) + 1)
    let derive : (Nat → ℝ) → (Nat → ℝ) → (Nat → ℝ) → (Nat → ℝ) → ℝ := fun a b _ _ => a 0 - b 1
    (∃ s' str d,
      VMode.compress M (planLog3 L (1 / 10 ^ 6) (escMax L.toDOps (Real.logb 2 2) (1 / 2 ^ 23))
        (boundLog3 L.toDOps 2 2 2 (1 / 10) derive)) (2 * 2 * 2) data = some (s', str) ∧
      VMode.decompress M (logFin L (mapAt (signMaps L 3 (2 * 2 * 2) data))) (2 * 2 * 2) m0
        str = some d ∧
      ∀ c q, c < 3 → q < 2 * 2 * 2 → Close (1 / 10) (data c q) (d c q)) ∧
    ∃ s' str d,
      VMode.compress U (planLog3 L (1 / 10 ^ 10) 0
        (fun f p => some (boundU L.toDOps (fun k => k) (fun q => [(0, q)]) (1 / 10) derive f p))) 4
        data = some (s', str) ∧
      decompressU L U 4 m0 (signsU L 4 data) str = some d ∧
      ∀ c q, c < 3 → q < 4 → Close (1 / 10) (data c q) (d c q) := by
  intro L M U data derive
  have hm : ∀ c q, q < 8 → InRange (data c q) ∧ data c q ≠ 0 := by
    intro c q hq
    have h1 : (1 : ℝ) ≤ (q : ℝ) + 1 := by linarith [Nat.cast_nonneg (α := ℝ) q]
    have h8 : (q : ℝ) + 1 ≤ 8 := by
      have : (q : ℝ) ≤ 7 := by exact_mod_cast (by omega : q ≤ 7)
      linarith
    have e : |data c q| = (q : ℝ) + 1 := by
      show |(-1 : ℝ) ^ (c + q) * ((q : ℝ) + 1)| = _
      rw [abs_mul, abs_pow, abs_neg, abs_one, one_pow, one_mul, abs_of_pos (by linarith)]
    refine ⟨Or.inr ?_, fun h => ?_⟩
    · rw [e]
      exact ⟨le_trans (by norm_num) h1, h8.trans (by norm_num)⟩
    · rw [h, abs_zero] at e; linarith
  have A := ieee_arith nearest_rounding (p := 53) (by norm_num)
  have hl := ieee_log23 nearest_rounding
  exact ⟨C56_log3d_partial A hl.1 hl.2 2 2 2 (1 / 10) (1 / 10 ^ 6) (by norm_num) (by norm_num)
      derive data (fun c q _ hq => hm c q hq) m0,
    C56_unstructured_partial A hl.1 hl.2 4 (fun k => k) (fun q => [(0, q)]) (1 / 10) (1 / 10 ^ 10)
      (by norm_num) (by norm_num) derive data (fun c q _ hq => hm c q (by omega)) m0⟩

end CpSZ.Rounded
