import Verif.Offline2D.Real
import Verif.Block.Toy
import Verif.Online2D.Bytes
/-
Properties C33, C34, C35 and C46: the 2D offline modes, and sizes of buffers.
-/

namespace CpSZ.Offline2D

open CpSZ.Block CpSZ.Online2D

variable {T F D : Type}

/-! ### C33: bounds of compressor and decompressor -/

/-- C33 in exact arithmetic, all cases of the relative mode (code: base 4): the decompressor
re-derives the bound of a component exactly if `|x| * eb` is not strictly between the threshold
and `base` times the threshold. -/
theorem C33_relative_iff (base : Nat) (hb : 2 ≤ base) (thr : ℝ) (ht : 0 < thr) (x eb : ℝ) :
    decBound realD (parR base thr) (quantRel realO (parR base thr) x eb).2 =
      (quantRel realO (parR base thr) x eb).1 ↔ ¬ (thr < |x| * eb ∧ |x| * eb < base * thr) := by
  rw [quantRel_fst hb ht]
  exact agree_iff hb ht _

/-- C33 in exact arithmetic, all cases of the logarithmic mode (code: base 2). -/
theorem C33_log_iff (base : Nat) (hb : 2 ≤ base) (thr : ℝ) (ht : 0 < thr) (eb : ℝ) :
    decBound realD (parR base thr) (quantLog realO (parR base thr) eb).2 =
      (quantLog realO (parR base thr) eb).1 ↔
      ¬ (thr < Real.logb 2 (1 + eb) ∧ Real.logb 2 (1 + eb) < base * thr) :=
  agree_iff hb ht _

-- Both directions of the equivalence occur: bound 3 with threshold 2, and bound 9.
example : ¬ (decBound realD (parR 4 2) (quantRel realO (parR 4 2) 1 3).2 =
    (quantRel realO (parR 4 2) 1 3).1) ∧
    decBound realD (parR 4 2) (quantRel realO (parR 4 2) 3 3).2 =
      (quantRel realO (parR 4 2) 3 3).1 := by
  rw [C33_relative_iff 4 (by norm_num) 2 (by norm_num),
    C33_relative_iff 4 (by norm_num) 2 (by norm_num)]
  norm_num

/-- C33 for whole streams of the relative mode and any arithmetic, provided the bounds agree:
every component decodes to a value that the block codec accepted for its bound, in particular
exactly where the bound is zero.  Missing for the full statement: the bounds do not always
agree, see `C33_relative_mismatch`. -/
theorem C33_relative_stream_partial (O : OOps T D) (Q : QPar D) (B : BOps T F D) (f : Fmt T F D)
    (hskip : f.skip = f.cT.size) (E : Envs) (U V : Nat → T) (eb : Nat → D) (r1 r2 bs : Nat)
    (indep : Bool) (hbase : Q.base < 2 ^ 32)
    (h1 : 0 < r1) (h2 : 0 < r2) (hb : 0 < bs) (hb31 : bs < 2 ^ 31) (hn : r1 * r2 < 2 ^ 58)
    (hfit : Fits E.eb 2048 (codesRel O Q U V eb (r1 * r2)))
    (hU : ∀ p < r1 * r2, decBound O.d Q (quantRel O Q (U p) (eb p)).2 =
      (quantRel O Q (U p) (eb p)).1)
    (hV : ∀ p < r1 * r2, decBound O.d Q (quantRel O Q (V p) (eb p)).2 =
      (quantRel O Q (V p) (eb p)).1)
    (hcU : ∀ p < r1 * r2, B.isZero (quantRel O Q (U p) (eb p)).1 = false → ∀ diff q,
      linQuant B.O.toDOps diff (quantRel O Q (U p) (eb p)).1 65536 32768 = some q →
        0 < q ∧ q < 65536)
    (hcV : ∀ p < r1 * r2, B.isZero (quantRel O Q (V p) (eb p)).1 = false → ∀ diff q,
      linQuant B.O.toDOps diff (quantRel O Q (V p) (eb p)).1 65536 32768 = some q →
        0 < q ∧ q < 65536)
    (hdU : DepthOK E.u2 131072 (outEb2 B U (fun i => (quantRel O Q (U i) (eb i)).1) r1 r2 bs).ty)
    (hdV : DepthOK E.v2 131072 (outEb2 B V (fun i => (quantRel O Q (V i) (eb i)).1) r1 r2 bs).ty) :
    ∃ res, compressOff O Q B f E U V eb r1 r2 bs indep = some res ∧
      (res.bytes.length < 2 ^ 64 → ∀ rest o1 o2, ∃ U' V',
        decompressOff O Q.logBase B f r1 r2 o1 o2 (res.bytes ++ rest) = some (U', V') ∧
        ∀ p < r1 * r2,
          (B.isZero (quantRel O Q (U p) (eb p)).1 = true → U' p = U p) ∧
          (U' p = U p ∨ B.O.le (B.O.dist (U' p) (U p)) (quantRel O Q (U p) (eb p)).1 = true) ∧
          (B.isZero (quantRel O Q (V p) (eb p)).1 = true → V' p = V p) ∧
          (V' p = V p ∨ B.O.le (B.O.dist (V' p) (V p)) (quantRel O Q (V p) (eb p)).1 = true)) := by
  obtain ⟨res, e, -, h⟩ := rel_stream O Q B f hskip E U V eb r1 r2 bs indep hbase h1 h2 hb hb31 hn
    hfit hU hV hcU hcV hdU hdV
  exact ⟨res, e, h⟩

/-- C33 for whole streams of the logarithmic mode and any arithmetic, provided the bounds
agree: every component decodes to the sign of the original and the power of a logarithm that
the block codec accepted.  Missing: as for `C33_relative_stream_partial`. -/
theorem C33_log_stream_partial (O : OOps T D) (Q : QPar D) (B : BOps T F D) (f : Fmt T F D)
    (hskip : f.skip = f.cT.size) (E : Envs) (U V : Nat → T) (eb : Nat → D) (r1 r2 bs : Nat)
    (indep : Bool) (hbase : Q.base < 2 ^ 32)
    (h1 : 0 < r1) (h2 : 0 < r2) (hb : 0 < bs) (hb31 : bs < 2 ^ 31) (hn : r1 * r2 < 2 ^ 58)
    (hfit : Fits E.eb 2048 (codesLog O Q eb (r1 * r2)))
    (hE : ∀ p < r1 * r2, decBound O.d Q (quantLog O Q (eb p)).2 = (quantLog O Q (eb p)).1)
    (hc : ∀ p < r1 * r2, B.isZero (quantLog O Q (eb p)).1 = false → ∀ diff q,
      linQuant B.O.toDOps diff (quantLog O Q (eb p)).1 65536 32768 = some q → 0 < q ∧ q < 65536)
    (hdU : DepthOK E.u2 131072 (outEb2 B (fun i => logOf O (U i))
      (fun i => (quantLog O Q (eb i)).1) r1 r2 bs).ty)
    (hdV : DepthOK E.v2 131072 (outEb2 B (fun i => logOf O (V i))
      (fun i => (quantLog O Q (eb i)).1) r1 r2 bs).ty) :
    ∃ res, compressLog O Q B f E U V eb r1 r2 bs indep = some res ∧
      (res.bytes.length < 2 ^ 64 → ∀ rest o1 o2, ∃ U' V',
        decompressLog O Q.logBase B f r1 r2 o1 o2 (res.bytes ++ rest) = some (U', V') ∧
        ∀ p < r1 * r2, ∃ l m, U' p = post O (signOf O (U p)) l ∧ V' p = post O (signOf O (V p)) m ∧
          (B.isZero (quantLog O Q (eb p)).1 = true → l = logOf O (U p) ∧ m = logOf O (V p)) ∧
          (l = logOf O (U p) ∨
            B.O.le (B.O.dist l (logOf O (U p))) (quantLog O Q (eb p)).1 = true) ∧
          (m = logOf O (V p) ∨
            B.O.le (B.O.dist m (logOf O (V p))) (quantLog O Q (eb p)).1 = true)) := by
  obtain ⟨res, e, -, h⟩ := log_stream O Q B f hskip E U V eb r1 r2 bs indep hbase h1 h2 hb hb31 hn
    hfit hE hc hdU hdV
  exact ⟨res, e, h⟩

/-! ### A concrete stream -/

/-- Saturating integers; the "logarithm" is the identity. -/
def satO : OOps W W where
  d := satQ.toDOps
  absMul x e := satQ.mul (satQ.abs x) e
  log1p e := sat (1 + e.toInt)
  zero := 0#64
  isZero x := x == 0#64
  pos x := decide (0 < x.toInt)
  neg x := sat (-x.toInt)
  log2f x := x
  exp2 x := x
  low := sat (-100)
  isLow x := decide (x.toInt < -99)

def exU : Nat → W := fun p => sat ((p : Int) * 3 - 7)
def exV : Nat → W := fun p => sat (40 - (p : Int) * p)
def exQ : QPar W := ⟨4, 2#64, 1#64⟩

theorem exDepth (E : Env) (data prec : Nat → W) (h : ((outEb2 satB data prec 3 4 2).ty.all
    fun x => decide (0 ≤ x) && decide (x < 131072)) = true) :
    DepthOK E 131072 (outEb2 satB data prec 3 4 2).ty := by
  have hty : (outEb2 satB data prec 3 4 2).ty.length = 12 := rfl
  refine depthOK_of_short E 131072 _ ?_ (by rw [hty]; omega) (by norm_num) ?_
  · intro h
    rw [h] at hty
    cases hty
  · intro t ht
    have := List.all_eq_true.1 h t ht
    simpa using this

theorem exCodes (p : W) (h : (p == 0#64 || decide (0 < p.toInt)) = true)
    (hz : satB.isZero p = false) (diff : W) (q : Int)
    (hq : linQuant satB.O.toDOps diff p 65536 32768 = some q) : 0 < q ∧ q < 65536 := by
  have hp : 0 < p.toInt := by
    simp only [satB] at hz
    simpa [hz] using h
  have := satQ_codes p hp 32768 (by norm_num) 32768 (by norm_num) diff q hq
  omega

/-- A 3 x 4 grid with lossless and lossy components: the hypotheses of
`C33_relative_stream_partial` hold. -/
theorem ex_rel_stream (E : Envs) : ∃ res,
    compressOff satO exQ satB (satFmt 8) E exU exV (fun _ => 1#64) 3 4 2 false = some res :=
  (C33_relative_stream_partial satO exQ satB (satFmt 8) rfl E exU exV (fun _ => 1#64) 3 4 2 false
    (by decide) (by decide) (by decide) (by decide) (by decide) (by decide)
    (fits_of_short _ _ _ (by decide) (by decide) (by norm_num) (by decide +kernel))
    (by decide +kernel) (by decide +kernel)
    (fun p hp => exCodes _ (by revert p; decide +kernel))
    (fun p hp => exCodes _ (by revert p; decide +kernel))
    (exDepth _ _ _ (by decide +kernel)) (exDepth _ _ _ (by decide +kernel))).imp fun _ h => h.1

example : (quantRel satO exQ (exU 2) 1#64).2 = 0 ∧ (quantRel satO exQ (exU 9) 1#64).2 = 10 := by
  decide +kernel

/-- The hypotheses of `C33_log_stream_partial` hold. -/
theorem ex_log_stream (E : Envs) : ∃ res,
    compressLog satO exQ satB (satFmt 8) E exU exV (fun p => BitVec.ofNat 64 (p % 3 * 4)) 3 4 2
      false =
      some res :=
  (C33_log_stream_partial satO exQ satB (satFmt 8) rfl E exU exV
    (fun p => BitVec.ofNat 64 (p % 3 * 4)) 3 4 2 false
    (by decide) (by decide) (by decide) (by decide) (by decide) (by decide)
    (fits_of_short _ _ _ (by decide) (by decide) (by norm_num) (by decide +kernel))
    (by decide +kernel)
    (fun p hp => exCodes _ (by revert p; decide +kernel))
    (exDepth _ _ _ (by decide +kernel)) (exDepth _ _ _ (by decide +kernel))).imp fun _ h => h.1

/-! ### C33 is false in the window -/

theorem quantize_far (x prec : ℝ) (hx : 65536 ≤ |x| / prec) :
    quantize realB.O 0 x prec 65536 32768 = (0, x, [x]) := by
  have hl : linQuant realB.O.toDOps (realB.O.diff x 0) prec 65536 32768 = none := by
    unfold linQuant
    rw [if_neg]
    simp only [realB, roundedB, roundedQ, roundedOps, id, decide_eq_true_eq, sub_zero]
    push_cast
    linarith
  unfold quantize
  rw [hl]

theorem quantize_200 (x prec : ℝ) (h : 0 < prec) :
    quantize realB.O x (x + 200 * prec) prec 65536 32768 = (32868, x + 200 * prec, []) := by
  have hl : linQuant realB.O.toDOps (realB.O.diff (x + 200 * prec) x) prec 65536 32768 =
      some 32868 := by
    have hd : realB.O.diff (x + 200 * prec) x = 200 * prec := by
      simp [realB, roundedB, roundedQ, roundedOps]
    rw [hd]
    unfold linQuant
    have e : |200 * prec| / prec + 1 = 201 := by
      rw [abs_of_pos (by linarith), mul_div_assoc, div_self h.ne']
      norm_num
    simp only [realB, roundedB, roundedQ, roundedOps, id]
    push_cast
    rw [e]
    norm_num [truncR, h]
  unfold quantize
  rw [hl]
  have ha : realB.O.addTo x (linOffset realB.O.toDOps prec 32768 32868) = x + 200 * prec := by
    simp [realB, roundedB, roundedQ, roundedOps, linOffset]
  dsimp only
  rw [ha, if_pos]
  simp [realB, roundedB, roundedQ, roundedOps, h.le]

/-- One row of two points, with different bounds on the two sides. -/
theorem runEb_pair (B : BOps T F D) (data : Nat → T) (pc pd : Nat → D) (out0 : Nat → T)
    (q0 q1 : Int) (v0 v1 w0 w1 : T) (u0 u1 : List T)
    (h0 : B.isZero (pc 0) = false) (h1 : B.isZero (pc 1) = false)
    (e0 : quantize B.O (B.lor2 B.zeroT B.zeroT B.zeroT) (data 0) (pc 0) 65536 32768 = (q0, v0, u0))
    (e1 : quantize B.O (B.lor2 v0 B.zeroT B.zeroT) (data 1) (pc 1) 65536 32768 = (q1, v1, u1))
    (d0 : recover B.O (B.lor2 B.zeroT B.zeroT B.zeroT) (pd 0) q0 32768 (u0 ++ u1) = some (w0, u1))
    (d1 : recover B.O (B.lor2 w0 B.zeroT B.zeroT) (pd 1) q1 32768 u1 = some (w1, [])) :
    runEb B data pc pd 1 2 6 out0 = some (upd (upd out0 0 w0) 1 w1) := by
  unfold runEb outEb2
  rw [Pwr.plan_pair.1, Pwr.plan_pair.2]
  simp [runEnc, encEv, encPt, cfg2, lorAt2, initSt, upd, Out.app, Out.nil, Cfg.stores, e0, e1,
    runDec, decEv, Pwr.recoverMean_none, d0, d1, h0, h1]

/-- Compressor bound `thr`, decompressor bound zero: the second of two values is lost. -/
theorem runEb_lost (thr x : ℝ) (ht : 0 < thr) (hx : 65536 ≤ |x| / thr) (data : Nat → ℝ)
    (hd0 : data 0 = x) (hd1 : data 1 = x + 200 * thr) (pc pd : Nat → ℝ)
    (hc : ∀ p < 2, pc p = thr) (hd : ∀ p < 2, pd p = 0) (out0 : Nat → ℝ) :
    ∃ out, runEb realB data pc pd 1 2 6 out0 = some out ∧ out 0 = x ∧ out 1 = x := by
  have hlor : ∀ x, realB.lor2 x realB.zeroT realB.zeroT = x := fun x => by simp [realB, roundedB]
  have hz : realB.isZero thr = false := by simp [realB, roundedB, ht.ne']
  have c0 := hc 0 (by omega)
  have c1 := hc 1 (by omega)
  have g0 := hd 0 (by omega)
  have g1 := hd 1 (by omega)
  have z0 : realB.zeroT = (0 : ℝ) := rfl
  refine ⟨_, runEb_pair realB data pc pd out0 0 32868 x (x + 200 * thr) x x [x] []
    (by rw [c0]; exact hz) (by rw [c1]; exact hz)
    (by rw [hlor, c0, hd0, z0]; exact quantize_far x thr hx)
    (by rw [hlor, c1, hd1]; exact quantize_200 x thr ht)
    (Pwr.recover_z _ _ _ _ _ _)
    (by
      rw [hlor, Pwr.recover_nz _ _ _ _ _ _ (by norm_num), g1]
      simp [realB, roundedB, roundedQ, roundedOps, linOffset]), ?_, ?_⟩ <;> simp [upd]

theorem vertexEb_row (z : Nat → Bool → Bool × Bool × Bool) (u v : Nat → ℝ) (r2 : Nat) (e : ℝ)
    (p : Nat) : vertexEb z u v 1 r2 e p = e := rfl

/-- Code and bound in the window. -/
theorem window {base : Nat} (hb : 2 ≤ base) {thr x : ℝ} (ht : 0 < thr) (h1 : thr < x)
    (h2 : x < base * thr) : ebQuant realD base (Real.logb 2 base) thr x = (thr, 0) := by
  have hs := ebQuant_spec base (by exact_mod_cast hb) thr x ht
  simp only [Int.cast_natCast] at hs
  obtain ⟨s1, s2, s3, -⟩ := hs
  set r := ebQuant realD base (Real.logb 2 base) thr x with hr
  have hn := agree_iff hb ht x
  rw [← hr] at hn
  have hne : decBound realD (parR base thr) r.2 ≠ r.1 := fun h => hn.1 h ⟨h1, h2⟩
  have hr2 : r.2 = 0 := by
    by_contra h
    apply hne
    unfold decBound parR
    rw [if_neg h]
    have := (s3 h1).1
    simp only [realD] at this ⊢
    exact this.symm
  have := (s3 h1).1
  rw [hr2] at this
  refine Prod.ext ?_ hr2
  simpa using this

/-- C33 is false for the relative mode, in exact arithmetic and with the settings of the code
(base 4, threshold `2^-52`): with the user's bound at twice the threshold, the field
`(1, 1 + 200 * 2^-52)` of one row is compressed with bound `2^-52`, the decompressor uses bound
zero, and the second value decodes with an error of 200 thresholds, about a hundred times its
bound. -/
theorem C33_relative_mismatch (z : Nat → Bool → Bool × Bool × Bool) (out0 : Nat → ℝ) :
    ∃ (thr : ℝ) (u v : Nat → ℝ) (out : Nat → ℝ), thr = 2 ^ (-52 : ℤ) ∧
      runRel realO (parR 4 thr) realB u (vertexEb z u v 1 2 (2 * thr)) 1 2 6 out0 = some out ∧
      |out 1 - u 1| = 200 * thr ∧ 50 * ((2 * thr) * |u 1|) < |out 1 - u 1| := by
  set thr : ℝ := 2 ^ (-52 : ℤ) with hthr
  have ht : 0 < thr := by positivity
  have htn : thr = 1 / 4503599627370496 := by rw [hthr]; norm_num
  set u : Nat → ℝ := fun p => if p = 0 then 1 else 1 + 200 * thr with hu
  have hw : ∀ p < 2, thr < |u p| * (2 * thr) ∧ |u p| * (2 * thr) < (4 : Nat) * thr := by
    intro p hp
    rw [htn] at hu ⊢
    interval_cases p <;> norm_num [hu, abs_of_pos]
  have hq : ∀ p < 2, quantRel realO (parR 4 thr) (u p) (2 * thr) = (thr, 0) := fun p hp => by
    rw [quantRel_fst (by norm_num) ht]
    exact window (by norm_num) ht (hw p hp).1 (hw p hp).2
  obtain ⟨out, ho, o0, o1⟩ := runEb_lost thr 1 ht (by rw [htn]; norm_num) u rfl rfl
    (fun i => (quantRel realO (parR 4 thr) (u i) (vertexEb z u u 1 2 (2 * thr) i)).1)
    (fun i => decBound realO.d (parR 4 thr)
      (quantRel realO (parR 4 thr) (u i) (vertexEb z u u 1 2 (2 * thr) i)).2)
    (fun p hp => by rw [vertexEb_row, hq p hp])
    (fun p hp => by
      rw [vertexEb_row, hq p hp]
      simp [decBound, realO, realD]) out0
  have u1 : u 1 = 1 + 200 * thr := rfl
  refine ⟨thr, u, u, out, rfl, ho, ?_, ?_⟩
  · rw [o1, u1, show (1 : ℝ) - (1 + 200 * thr) = -(200 * thr) by ring, abs_neg,
      abs_of_pos (by linarith)]
  · rw [o1, u1, show (1 : ℝ) - (1 + 200 * thr) = -(200 * thr) by ring, abs_neg,
      abs_of_pos (by linarith), abs_of_pos (by linarith), htn]
    norm_num

/-- C33 is false for the logarithmic mode, in exact arithmetic and with the settings of the
code (base 2, threshold `2^-52`): the second value of one row decodes to the first one, with a
relative error above fifty times its bound. -/
theorem C33_log_mismatch (z : Nat → Bool → Bool × Bool × Bool) (out0 : Nat → ℝ) :
    ∃ (thr e : ℝ) (u v : Nat → ℝ) (out : Nat → ℝ), thr = 2 ^ (-52 : ℤ) ∧ 0 < e ∧
      runLog realO (parR 2 thr) realB u (vertexEb z u v 1 2 e) 1 2 6 out0 = some out ∧
      out 1 = u 0 ∧ 50 * (e * |u 1|) < |out 1 - u 1| := by
  obtain ⟨thr, hthr⟩ : ∃ t : ℝ, t = 2 ^ (-52 : ℤ) := ⟨_, rfl⟩
  have ht : 0 < thr := by rw [hthr]; positivity
  have htn : thr = 1 / 4503599627370496 := by rw [hthr]; norm_num
  set e : ℝ := (2 : ℝ) ^ (3 / 2 * thr) - 1 with he
  have he0 : 0 < e := by
    rw [he, sub_pos]
    exact Real.one_lt_rpow (by norm_num) (by linarith)
  have hle : Real.logb 2 (1 + e) = 3 / 2 * thr := by
    rw [he, add_sub_cancel]
    exact Real.logb_rpow (by norm_num) (by norm_num)
  set u : Nat → ℝ := fun p => if p = 0 then 2 else (2 : ℝ) ^ (1 + 200 * thr) with hu
  have hup : ∀ p, 0 < u p := by
    intro p
    rw [hu]
    dsimp only
    split
    · norm_num
    · exact Real.rpow_pos_of_pos (by norm_num) _
  have hlog : ∀ p, logOf realO (u p) = Real.logb 2 (u p) := by
    intro p
    simp [logOf, realO, (hup p).ne', hup p]
  have l0 : logOf realO (u 0) = 1 := by
    rw [hlog]
    show Real.logb 2 2 = 1
    exact Real.logb_self_eq_one (by norm_num)
  have l1 : logOf realO (u 1) = 1 + 200 * thr := by
    rw [hlog]
    exact Real.logb_rpow (by norm_num) (by norm_num)
  have hq : quantLog realO (parR 2 thr) e = (thr, 0) :=
    window (base := 2) (thr := thr) (x := Real.logb 2 (1 + e)) (by norm_num) ht (by rw [hle]; linarith)
      (by rw [hle]; push_cast; linarith)
  obtain ⟨out, ho, o0, o1⟩ := runEb_lost thr 1 ht (by rw [htn]; norm_num)
    (fun i => logOf realO (u i)) l0 l1
    (fun i => (quantLog realO (parR 2 thr) (vertexEb z u u 1 2 e i)).1)
    (fun i => decBound realO.d (parR 2 thr)
      (quantLog realO (parR 2 thr) (vertexEb z u u 1 2 e i)).2)
    (fun p _ => by rw [vertexEb_row, hq])
    (fun p _ => by
      rw [vertexEb_row, hq]
      simp [decBound, realO, realD]) out0
  have hout : post realO (signOf realO (u 1)) (out 1) = 2 := by
    rw [o1]
    have hs : signOf realO (u 1) = true := by
      simp [signOf, realO, (hup 1).ne', hup 1]
    rw [hs]
    simp [post, realO]
    norm_num
  refine ⟨thr, e, u, u, _, hthr, he0, by unfold runLog; rw [ho]; rfl, hout, ?_⟩
  beta_reduce
  rw [hout]
  have hpow : 1 + (133 : ℕ) * e ≤ (2 : ℝ) ^ (200 * thr) := by
    refine (one_add_mul_le_pow (by linarith) 133).trans ?_
    rw [show 1 + e = (2 : ℝ) ^ (3 / 2 * thr) by rw [he]; ring, ← Real.rpow_mul_natCast (by norm_num)]
    apply Real.rpow_le_rpow_of_exponent_le (by norm_num)
    push_cast
    linarith
  have u1 : u 1 = 2 * (2 : ℝ) ^ (200 * thr) := by
    show (2 : ℝ) ^ (1 + 200 * thr) = _
    rw [Real.rpow_add (by norm_num), Real.rpow_one]
  have hub : u 1 < 4 := by
    show (2 : ℝ) ^ (1 + 200 * thr) < 4
    rw [show (4 : ℝ) = 2 ^ (2 : ℝ) by norm_num]
    apply Real.rpow_lt_rpow_of_exponent_lt (by norm_num)
    rw [htn]
    norm_num
  have h3 : 2 + 266 * e ≤ u 1 := by
    rw [u1]
    push_cast at hpow
    linarith
  rw [abs_of_pos (hup 1), abs_of_neg (by linarith)]
  have key : ∀ x y : ℝ, 0 < y → 2 + 266 * y ≤ x → x < 4 → 50 * (y * x) < -(2 - x) := by
    intro x y h1 h2 h3
    nlinarith
  exact key _ _ he0 h3 hub

/-! ### C34: critical points survive -/

theorem Near.le {e m x x' : ℝ} (h : Near e x x') (hm : 0 ≤ m) (he : e ≤ m) :
    |x' - x| ≤ m * |x| := by
  rcases h.mono he with rfl | h
  · simpa using mul_nonneg hm (abs_nonneg _)
  · exact h.le

/-- C34: whatever the coefficients of the position and the outcome of divisions by zero, a
triangle whose six components each change by a relative error below the bound derived for it
has a critical point after the change exactly if it had one before. -/
theorem C34_triangle (z1 z2 z3 : Bool) (c0 c1 c2 c3 : ℝ) (u0 v0 u1 v1 u2 v2 : ℝ)
    (u0' v0' u1' v1' u2' v2' : ℝ)
    (hu0 : |u0' - u0| < offlineEb z1 z2 z3 c0 c1 c2 c3 u0 u1 u2 v0 v1 v2 * |u0| ∨ u0' = u0)
    (hu1 : |u1' - u1| < offlineEb z1 z2 z3 c0 c1 c2 c3 u0 u1 u2 v0 v1 v2 * |u1| ∨ u1' = u1)
    (hu2 : |u2' - u2| < offlineEb z1 z2 z3 c0 c1 c2 c3 u0 u1 u2 v0 v1 v2 * |u2| ∨ u2' = u2)
    (hv0 : |v0' - v0| < offlineEb z1 z2 z3 c0 c1 c2 c3 u0 u1 u2 v0 v1 v2 * |v0| ∨ v0' = v0)
    (hv1 : |v1' - v1| < offlineEb z1 z2 z3 c0 c1 c2 c3 u0 u1 u2 v0 v1 v2 * |v1| ∨ v1' = v1)
    (hv2 : |v2' - v2| < offlineEb z1 z2 z3 c0 c1 c2 c3 u0 u1 u2 v0 v1 v2 * |v2| ∨ v2' = v2) :
    HasCP (u0, v0) (u1, v1) (u2, v2) ↔ HasCP (u0', v0') (u1', v1') (u2', v2') :=
  cp_kept hu0.symm hu1.symm hu2.symm hv0.symm hv1.symm hv2.symm

/-- The bound of the triangle `(1, 0), (-1, 1), (-1, -1)`, which has a critical point, is 1/3. -/
theorem ex_bound (z1 z2 z3 : Bool) : offlineEb z1 z2 z3 0 (-1) (-1) 1 1 (-1) (-1) 0 1 (-1) = 1 / 3 := by
  have r1 : ∀ x : ℝ, root 1 x = x := fun x => by simp [root]
  norm_num [offlineEb, flag, keepSgn, posSum, negSum, keepDelta, keepDet, minf, r1]

-- A change of all nonzero components of that triangle.
example : HasCP (1, 0) (-1, 1) (-1, -1) ↔ HasCP (5 / 4, 0) (-3 / 4, 6 / 5) (-13 / 10, -4 / 5) := by
  apply C34_triangle false false false 0 (-1) (-1) 1 <;> rw [ex_bound] <;>
    norm_num [abs_of_pos, abs_of_neg]

/-- C34 at the level of the grid, with the bounds that the compressor computes: if every
component changes by a relative error below the bound of its vertex, every triangle of the
mesh keeps its critical point or keeps having none. -/
theorem C34_grid (z : Nat → Bool → Bool × Bool × Bool) (r1 r2 : Nat) (maxEb : ℝ)
    (f f' : Online2D.Field ℝ)
    (h : ∀ p < r1 * r2,
      (|f'.u p - f.u p| < vertexEb z f.u f.v r1 r2 maxEb p * |f.u p| ∨ f'.u p = f.u p) ∧
      (|f'.v p - f.v p| < vertexEb z f.u f.v r1 r2 maxEb p * |f.v p| ∨ f'.v p = f.v p)) :
    ∀ t : Tri, t.inGrid r1 r2 → (t.hasCP r2 f ↔ t.hasCP r2 f') := fun t ht =>
  (grid_kept (fun p hp => ⟨(h p hp).1.symm, (h p hp).2.symm⟩) t ht).1

/-- The relative mode end to end in exact arithmetic, decompressor after compressor, base 4:
the user's relative bound holds, and no triangle gains or loses a critical point.  Missing for
all fields: bounds between the threshold and four times the threshold (see
`C33_relative_mismatch`), and bounds that are exactly a power of four times the threshold,
where the error is only known to be at most, not below, the bound. -/
theorem C34_relative_run_partial (z : Nat → Bool → Bool × Bool × Bool) (thr : ℝ) (ht : 0 < thr)
    (f : Online2D.Field ℝ) (maxEb : ℝ) (r1 r2 bs : Nat) (h1 : 0 < r1) (h2 : 0 < r2)
    (hbs : 0 < bs)
    (hcu : ∀ p < r1 * r2, Clear 4 thr (|f.u p| * vertexEb z f.u f.v r1 r2 maxEb p))
    (hcv : ∀ p < r1 * r2, Clear 4 thr (|f.v p| * vertexEb z f.u f.v r1 r2 maxEb p))
    (o1 o2 : Nat → ℝ) :
    ∃ U' V',
      runRel realO (parR 4 thr) realB f.u (vertexEb z f.u f.v r1 r2 maxEb) r1 r2 bs o1 = some U' ∧
      runRel realO (parR 4 thr) realB f.v (vertexEb z f.u f.v r1 r2 maxEb) r1 r2 bs o2 = some V' ∧
      (0 ≤ maxEb → ∀ p < r1 * r2, |U' p - f.u p| ≤ maxEb * |f.u p| ∧
        |V' p - f.v p| ≤ maxEb * |f.v p|) ∧
      ∀ t : Tri, t.inGrid r1 r2 → (t.hasCP r2 f ↔ t.hasCP r2 ⟨U', V'⟩) := by
  obtain ⟨U', eu, nu⟩ := runRel_near (by norm_num) ht f.u _ r1 r2 bs h1 h2 hbs hcu o1
  obtain ⟨V', ev, nv⟩ := runRel_near (by norm_num) ht f.v _ r1 r2 bs h1 h2 hbs hcv o2
  refine ⟨U', V', eu, ev, fun hm p hp => ⟨?_, ?_⟩, fun t ht' =>
    (grid_kept (f := f) (f' := ⟨U', V'⟩) (fun p hp => ⟨nu p hp, nv p hp⟩) t ht').1⟩
  · exact Near.le (nu p hp) hm (ebSweep_le _ _ _ _ _)
  · exact Near.le (nv p hp) hm (ebSweep_le _ _ _ _ _)

/-- The logarithmic mode end to end in exact arithmetic, base 2.  Missing for all fields: the
bounds as in `C34_relative_run_partial`, and values of magnitude below `2^-98`
(see `C34_log_small_lost`). -/
theorem C34_log_run_partial (z : Nat → Bool → Bool × Bool × Bool) (thr : ℝ) (ht : 0 < thr)
    (f : Online2D.Field ℝ) (maxEb : ℝ) (hm : 0 ≤ maxEb) (hm1 : maxEb < 1) (r1 r2 bs : Nat)
    (h1 : 0 < r1) (h2 : 0 < r2) (hbs : 0 < bs)
    (hc : ∀ p < r1 * r2, Clear 2 thr (Real.logb 2 (1 + vertexEb z f.u f.v r1 r2 maxEb p)))
    (hu : ∀ p < r1 * r2, f.u p = 0 ∨ (2 : ℝ) ^ (-98 : ℤ) ≤ |f.u p|)
    (hv : ∀ p < r1 * r2, f.v p = 0 ∨ (2 : ℝ) ^ (-98 : ℤ) ≤ |f.v p|)
    (o1 o2 : Nat → ℝ) :
    ∃ U' V',
      runLog realO (parR 2 thr) realB f.u (vertexEb z f.u f.v r1 r2 maxEb) r1 r2 bs o1 = some U' ∧
      runLog realO (parR 2 thr) realB f.v (vertexEb z f.u f.v r1 r2 maxEb) r1 r2 bs o2 = some V' ∧
      (∀ p < r1 * r2, |U' p - f.u p| ≤ maxEb * |f.u p| ∧ |V' p - f.v p| ≤ maxEb * |f.v p|) ∧
      ∀ t : Tri, t.inGrid r1 r2 → (t.hasCP r2 f ↔ t.hasCP r2 ⟨U', V'⟩) := by
  have heb : ∀ p < r1 * r2, 0 ≤ vertexEb z f.u f.v r1 r2 maxEb p ∧
      vertexEb z f.u f.v r1 r2 maxEb p < 1 := fun p _ =>
    ⟨vertexEb_nonneg z f.u f.v r1 r2 maxEb hm p, (ebSweep_le _ _ _ _ _).trans_lt hm1⟩
  obtain ⟨U', eu, nu⟩ := runLog_near (by norm_num) ht f.u _ r1 r2 bs h1 h2 hbs heb hc hu o1
  obtain ⟨V', ev, nv⟩ := runLog_near (by norm_num) ht f.v _ r1 r2 bs h1 h2 hbs heb hc hv o2
  refine ⟨U', V', eu, ev, fun p hp => ⟨?_, ?_⟩, fun t ht' =>
    (grid_kept (f := f) (f' := ⟨U', V'⟩) (fun p hp => ⟨nu p hp, nv p hp⟩) t ht').1⟩
  · exact Near.le (nu p hp) hm (ebSweep_le _ _ _ _ _)
  · exact Near.le (nv p hp) hm (ebSweep_le _ _ _ _ _)

/-! #### A concrete field -/

/-- A 2 x 2 grid with vectors `(1,0) (2,-1) / (-1,1) (-1,-1)`. -/
noncomputable def exF : Online2D.Field ℝ :=
  ⟨fun p => if p = 0 then 1 else if p = 1 then 2 else -1,
    fun p => if p = 0 then 0 else if p = 2 then 1 else -1⟩

theorem ex_false (z : Nat → Bool → Bool × Bool × Bool) : triBound z exF.u exF.v 2 0 false = 1 / 3 := by
  unfold triBound
  rw [coefC_false]
  simpa [exF, cellOff] using ex_bound _ _ _

theorem ex_true (z : Nat → Bool → Bool × Bool × Bool) : 1 ≤ triBound z exF.u exF.v 2 0 true := by
  unfold triBound
  rw [coefC_true]
  simp only [exF, cellOff]
  unfold offlineEb
  norm_num [flag, keepSgn, posSum, negSum, minf, maxf]

theorem foldl_same {α β : Type} (F : β → α → β) (l : List α) (b : β) (h : ∀ x ∈ l, F b x = b) :
    l.foldl F b = b := by
  induction l with
  | nil => rfl
  | cons x l ih =>
    rw [List.foldl_cons, h x (by simp)]
    exact ih fun y hy => h y (by simp [hy])

/-- Bounds of triangles above the user's bound have no effect. -/
theorem ebSweep_const (cur : Nat → Bool → ℝ) (r1 r2 : Nat) (e : ℝ)
    (h : ∀ i j k, i + 1 < r1 → j + 1 < r2 → e < cur (i * r2 + j) k) :
    ebSweep realD.lt cur r1 r2 e = fun _ => e := by
  unfold ebSweep
  refine foldl_same _ _ _ fun i hi => foldl_same _ _ _ fun j hj => foldl_same _ _ _ fun k _ => ?_
  have := h i j k (by have := List.mem_range.1 hi; omega) (by have := List.mem_range.1 hj; omega)
  unfold lower
  refine foldl_same _ _ _ fun p _ => ?_
  funext q
  simp [realD, this]

theorem ex_vertexEb (z : Nat → Bool → Bool × Bool × Bool) (e : ℝ) (he : e < 1 / 3) :
    vertexEb z exF.u exF.v 2 2 e = fun _ => e := by
  have h1 := ex_false z
  have h2 := ex_true z
  refine ebSweep_const _ 2 2 e fun i j k hi hj => ?_
  obtain rfl : i = 0 := by omega
  obtain rfl : j = 0 := by omega
  cases k
  · show e < triBound z exF.u exF.v 2 0 false
    linarith
  · show e < triBound z exF.u exF.v 2 0 true
    linarith

theorem clear_ex (base : Nat) (hb : base = 2 ∨ base = 4) (a : Nat) (x : ℝ) (hx : x = 3 * a / 10) :
    Clear base (2 ^ (-52 : ℤ)) x := by
  subst hx
  have e : (2 : ℝ) ^ (-52 : ℤ) = 1 / 4503599627370496 := by norm_num
  rw [e]
  rcases Nat.eq_zero_or_pos a with rfl | ha
  · left
    norm_num
  · right
    have ha' : (1 : ℝ) ≤ a := by exact_mod_cast ha
    have hb' : (base : ℝ) ≤ 4 := by
      rcases hb with rfl | rfl <;> norm_num
    refine ⟨by linarith, fun k h => ?_⟩
    have h' : 3 * (a * 4503599627370496) = 10 * base ^ k := by
      have : (3 : ℝ) * (a * 4503599627370496) = 10 * base ^ k := by
        field_simp at h
        linarith
      exact_mod_cast this
    have hd : 3 ∣ 10 * base ^ k := Dvd.intro _ h'
    clear h h'
    have h3 := (Nat.prime_three.dvd_mul.1 hd).resolve_left (by norm_num)
    have := Nat.prime_three.dvd_of_dvd_pow h3
    rcases hb with rfl | rfl <;> omega

-- The field has a critical point in one triangle and none in the other; bound 3/10.
example (z : Nat → Bool → Bool × Bool × Bool) (o1 o2 : Nat → ℝ) :
    ∃ U' V',
      runRel realO (parR 4 (2 ^ (-52 : ℤ))) realB exF.u (vertexEb z exF.u exF.v 2 2 (3 / 10))
        2 2 6 o1 = some U' ∧
      runRel realO (parR 4 (2 ^ (-52 : ℤ))) realB exF.v (vertexEb z exF.u exF.v 2 2 (3 / 10))
        2 2 6 o2 = some V' ∧
      ∀ t : Tri, t.inGrid 2 2 → (t.hasCP 2 exF ↔ t.hasCP 2 ⟨U', V'⟩) := by
  have h := ex_vertexEb z (3 / 10) (by norm_num)
  have hu : ∀ p < 2 * 2, Clear 4 (2 ^ (-52 : ℤ))
      (|exF.u p| * vertexEb z exF.u exF.v 2 2 (3 / 10) p) := fun p hp => by
    rw [h]
    have hp : p < 4 := hp
    refine clear_ex 4 (by norm_num) (if p = 1 then 2 else 1) _ ?_
    interval_cases p <;> norm_num [exF]
  have hv : ∀ p < 2 * 2, Clear 4 (2 ^ (-52 : ℤ))
      (|exF.v p| * vertexEb z exF.u exF.v 2 2 (3 / 10) p) := fun p hp => by
    rw [h]
    have hp : p < 4 := hp
    refine clear_ex 4 (by norm_num) (if p = 0 then 0 else 1) _ ?_
    interval_cases p <;> norm_num [exF]
  obtain ⟨U', V', e1, e2, -, h3⟩ := C34_relative_run_partial z (2 ^ (-52 : ℤ)) (by positivity) exF
    (3 / 10) 2 2 6 (by norm_num) (by norm_num) (by norm_num) hu hv o1 o2
  exact ⟨U', V', e1, e2, h3⟩

example : (⟨0, 0, false⟩ : Tri).hasCP 2 exF ∧ ¬ (⟨0, 0, true⟩ : Tri).hasCP 2 exF := by
  constructor
  · refine ⟨1 / 2, 1 / 4, 1 / 4, ?_⟩
    norm_num [Tri.vec, Tri.verts, gridVal, exF]
  · rintro ⟨a, b, c, ha, hb, hc, hs, e1, e2⟩
    norm_num [Tri.vec, Tri.verts, gridVal, exF] at e1 e2
    linarith

-- The same field in the logarithmic mode with bound `2^0.3 - 1`.
example (z : Nat → Bool → Bool × Bool × Bool) (o1 o2 : Nat → ℝ) :
    ∃ U' V',
      runLog realO (parR 2 (2 ^ (-52 : ℤ))) realB exF.u
        (vertexEb z exF.u exF.v 2 2 ((2 : ℝ) ^ (3 / 10 : ℝ) - 1)) 2 2 6 o1 = some U' ∧
      runLog realO (parR 2 (2 ^ (-52 : ℤ))) realB exF.v
        (vertexEb z exF.u exF.v 2 2 ((2 : ℝ) ^ (3 / 10 : ℝ) - 1)) 2 2 6 o2 = some V' ∧
      ∀ t : Tri, t.inGrid 2 2 → (t.hasCP 2 exF ↔ t.hasCP 2 ⟨U', V'⟩) := by
  have hlo : (1 : ℝ) < (2 : ℝ) ^ (3 / 10 : ℝ) := Real.one_lt_rpow (by norm_num) (by norm_num)
  have hhi : (2 : ℝ) ^ (3 / 10 : ℝ) < 4 / 3 := by
    have h0 : (0 : ℝ) ≤ (2 : ℝ) ^ (3 / 10 : ℝ) := by linarith
    refine lt_of_pow_lt_pow_left₀ 10 (by norm_num) ?_
    rw [← Real.rpow_mul_natCast (by norm_num)]
    norm_num
  have hl : Real.logb 2 (1 + ((2 : ℝ) ^ (3 / 10 : ℝ) - 1)) = 3 * (1 : Nat) / 10 := by
    rw [add_sub_cancel, Real.logb_rpow (by norm_num) (by norm_num)]
    norm_num
  have hsm : (2 : ℝ) ^ (-98 : ℤ) ≤ 1 := by
    apply zpow_le_one_of_nonpos₀ <;> norm_num
  generalize (2 : ℝ) ^ (3 / 10 : ℝ) = y at *
  have h := ex_vertexEb z (y - 1) (by linarith)
  obtain ⟨U', V', e1, e2, -, h3⟩ := C34_log_run_partial z (2 ^ (-52 : ℤ)) (by positivity) exF
    (y - 1) (by linarith) (by linarith) 2 2 6 (by norm_num) (by norm_num) (by norm_num)
    (fun p _ => by rw [h]; exact clear_ex 2 (by norm_num) 1 _ hl)
    (fun p hp => by
      right
      refine hsm.trans ?_
      have hp : p < 4 := hp
      interval_cases p <;> norm_num [exF])
    (fun p hp => by
      have hp : p < 4 := hp
      interval_cases p
      · left; simp [exF]
      all_goals
        right
        refine hsm.trans ?_
        norm_num [exF]) o1 o2
  exact ⟨U', V', e1, e2, h3⟩

/-- The logarithmic mode loses small values, in exact arithmetic and for every bound and
threshold: a constant field `(x, x)` with `0 < x < 2^-99` on a 2 x 2 grid decodes to zero, so
both triangles gain a critical point.  (Logarithms below -99 mark zeros.) -/
theorem C34_log_small_lost (z : Nat → Bool → Bool × Bool × Bool) (thr : ℝ) (ht : 0 < thr)
    (x maxEb : ℝ) (hm : 0 ≤ maxEb) (hx0 : 0 < x) (hx : Real.logb 2 x < -99) (o1 o2 : Nat → ℝ) :
    ∃ U' V',
      runLog realO (parR 2 thr) realB (fun _ => x)
        (vertexEb z (fun _ => x) (fun _ => x) 2 2 maxEb) 2 2 6 o1 = some U' ∧
      runLog realO (parR 2 thr) realB (fun _ => x)
        (vertexEb z (fun _ => x) (fun _ => x) 2 2 maxEb) 2 2 6 o2 = some V' ∧
      ∀ t : Tri, t.inGrid 2 2 → ¬ t.hasCP 2 ⟨fun _ => x, fun _ => x⟩ ∧ t.hasCP 2 ⟨U', V'⟩ := by
  have htri : ∀ p k, triBound z (fun _ => x) (fun _ => x) 2 p k = 0 := by
    intro p k
    unfold triBound offlineEb
    dsimp only
    rw [if_pos (by ring)]
  have hv : ∀ p < 4, vertexEb z (fun _ => x) (fun _ => x) 2 2 maxEb p = 0 := by
    intro p hp
    have h0 := vertexEb_nonneg z (fun _ => x) (fun _ => x) 2 2 maxEb hm p
    have hle : ∀ k, ∀ o ∈ cellOff 2 k,
        vertexEb z (fun _ => x) (fun _ => x) 2 2 maxEb o ≤ 0 := by
      intro k o ho
      have := ebSweep_tri (triBound z (fun _ => x) (fun _ => x) 2) 2 2 maxEb 0 0 k (by norm_num)
        (by norm_num) o ho
      rw [htri] at this
      simpa [vertexEb] using this
    refine le_antisymm ?_ h0
    interval_cases p
    · exact hle false 0 (by simp [cellOff])
    · exact hle true 1 (by simp [cellOff])
    · exact hle false 2 (by simp [cellOff])
    · exact hle false 3 (by simp [cellOff])
  have hq : ∀ p < 2 * 2, quantLog realO (parR 2 thr)
      (vertexEb z (fun _ => x) (fun _ => x) 2 2 maxEb p) = (0, 0) := by
    intro p hp
    rw [hv p hp]
    refine quant_zero (base := 2) (thr := thr) (x := Real.logb 2 (1 + 0)) (by norm_num) ht ?_
    simpa using ht.le
  have hlog : logOf realO x = Real.logb 2 x := by simp [logOf, realO, hx0.ne', hx0]
  have run : ∀ o : Nat → ℝ, ∃ out, runLog realO (parR 2 thr) realB (fun _ => x)
      (vertexEb z (fun _ => x) (fun _ => x) 2 2 maxEb) 2 2 6 o = some out ∧
      ∀ p < 4, out p = 0 := by
    intro o
    obtain ⟨out, ho, ha⟩ := runEb_exact (fun _ => logOf realO x)
      (fun i => (quantLog realO (parR 2 thr)
        (vertexEb z (fun _ => x) (fun _ => x) 2 2 maxEb i)).1)
      (fun i => decBound realO.d (parR 2 thr) (quantLog realO (parR 2 thr)
        (vertexEb z (fun _ => x) (fun _ => x) 2 2 maxEb i)).2) 2 2 6 (by norm_num) (by norm_num)
      (by norm_num)
      (fun p hp => by rw [hq p hp]; simp [decBound, realO, realD])
      (fun p hp => by rw [hq p hp]) o
    refine ⟨_, by unfold runLog; rw [ho]; rfl, fun p hp => ?_⟩
    have h1 := ha p hp
    rw [hq p hp] at h1
    have h2 : out p = Real.logb 2 x := by
      rw [← hlog]
      have := abs_nonpos_iff.1 h1
      linarith
    simp only
    rw [h2]
    simp [post, realO, hx]
  obtain ⟨U', eu, hu⟩ := run o1
  obtain ⟨V', ev, hv'⟩ := run o2
  refine ⟨U', V', eu, ev, fun t ht' => ⟨?_, ?_⟩⟩
  · rintro ⟨a, b, c, -, -, -, hs, e1, -⟩
    simp only [Tri.vec, gridVal] at e1
    have : (a + b + c) * x = 0 := by linarith
    rw [hs, one_mul] at this
    exact hx0.ne' this
  · obtain ⟨i, j, up⟩ := t
    obtain ⟨hi, hj⟩ := ht'
    simp only at hi hj
    obtain rfl : i = 0 := by omega
    obtain rfl : j = 0 := by omega
    refine ⟨1, 0, 0, by norm_num, le_rfl, le_rfl, by norm_num, ?_, ?_⟩
    · have := hu 0 (by norm_num)
      cases up <;> simp [Tri.vec, Tri.verts, gridVal, this]
    · have := hv' 0 (by norm_num)
      cases up <;> simp [Tri.vec, Tri.verts, gridVal, this]

-- `x = 2^-100`.
example : (0 : ℝ) < 2 ^ (-100 : ℝ) ∧ Real.logb 2 ((2 : ℝ) ^ (-100 : ℝ)) < -99 := by
  rw [Real.logb_rpow (by norm_num) (by norm_num)]
  exact ⟨Real.rpow_pos_of_pos (by norm_num) _, by norm_num⟩

/-! ### C46: types of critical points -/

/-- C46 for critical points inside a triangle: with changes below the bounds of the compressor,
the Jacobian keeps everything that decides the type.  Missing: critical points on an edge, for
which it is false, see `C46_edge_type_lost`. -/
theorem C46_grid_partial (z : Nat → Bool → Bool × Bool × Bool) (r1 r2 : Nat) (maxEb : ℝ)
    (f f' : Online2D.Field ℝ)
    (h : ∀ p < r1 * r2,
      (|f'.u p - f.u p| < vertexEb z f.u f.v r1 r2 maxEb p * |f.u p| ∨ f'.u p = f.u p) ∧
      (|f'.v p - f.v p| < vertexEb z f.u f.v r1 r2 maxEb p * |f.v p| ∨ f'.v p = f.v p))
    (t : Tri) (ht : t.inGrid r1 r2)
    (hin : InnerCP (t.vec r2 f 0) (t.vec r2 f 1) (t.vec r2 f 2)) (J J' : Jac)
    (hJ : t.isJac r2 f J) (hJ' : t.isJac r2 f' J') : SameType J J' :=
  (grid_kept (fun p hp => ⟨(h p hp).1.symm, (h p hp).2.symm⟩) t ht).2 hin J J' hJ hJ'

/-- The changed field for the example. -/
noncomputable def exF' : Online2D.Field ℝ :=
  ⟨fun p => if p = 0 then 6 / 5 else if p = 1 then 3 / 2 else -4 / 5,
    fun p => if p = 0 then 0 else if p = 2 then 5 / 4 else -1⟩

-- Five components change; the critical point is a saddle before and after.
example (z : Nat → Bool → Bool × Bool × Bool) (J J' : Jac)
    (hJ : (⟨0, 0, false⟩ : Tri).isJac 2 exF J) (hJ' : (⟨0, 0, false⟩ : Tri).isJac 2 exF' J') :
    SameType J J' := by
  refine C46_grid_partial z 2 2 (3 / 10) exF exF' (fun p hp => ?_) ⟨0, 0, false⟩
    ⟨by norm_num, by norm_num⟩ ?_
    J J' hJ hJ'
  · rw [ex_vertexEb z _ (by norm_num)]
    have hp : p < 4 := hp
    interval_cases p <;> norm_num [exF, exF', abs_of_pos, abs_of_neg]
  · refine ⟨1 / 2, 1 / 4, 1 / 4, ?_⟩
    norm_num [Tri.vec, Tri.verts, gridVal, exF]

/-- C46 is false for a critical point on an edge.  Triangle `(0, 1), (1, 3), (0, -1)` of the
upper left cell has its critical point on the edge between the first and third vertex, so the
first minor is zero.  `det / 0 >= 1` fails when the quotient is minus infinity (`z1 = false`;
this is the case in IEEE arithmetic, where the minor is `+0` and the determinant negative), and
the bound is 1 although the type is only preserved up to a third.  Changing one component from
3 to 1 turns a repelling focus into an attracting focus. -/
theorem C46_edge_type_lost (z2 z3 : Bool) : ∃ (J J' : Jac),
    HasCP (0, 1) (1, 3) (0, -1) ∧ HasCP (0, 1) (1, 1) (0, -1) ∧
    |(1 : ℝ) - 3| < offlineEb false z2 z3 (coefC false).1 (coefC false).2.1 (coefC false).2.2.1
      (coefC false).2.2.2 0 1 0 1 3 (-1) * |3| ∧
    (⟨0, 0, false⟩ : Tri).isJac 2 ⟨fun p => if p = 2 then 1 else 0,
      fun p => if p = 0 then 1 else if p = 2 then 3 else -1⟩ J ∧
    (⟨0, 0, false⟩ : Tri).isJac 2 ⟨fun p => if p = 2 then 1 else 0,
      fun p => if p = 0 then 1 else if p = 2 then 1 else -1⟩ J' ∧
    0 < J.det ∧ 0 < J'.det ∧ 0 < J.tr ∧ J'.tr < 0 ∧ cpType J ≠ cpType J' := by
  refine ⟨⟨-1, 1, -4, 2⟩, ⟨-1, 1, -2, 0⟩, ⟨1 / 2, 0, 1 / 2, by norm_num⟩,
    ⟨1 / 2, 0, 1 / 2, by norm_num⟩, ?_, ?_, ?_, by norm_num [Jac.det], by norm_num [Jac.det],
    by norm_num [Jac.tr], by norm_num [Jac.tr], ?_⟩
  · rw [coefC_false]
    norm_num [offlineEb, flag, keepSgn, posSum, negSum, minf, maxf]
  · intro P hP Q hQ
    simp only [Tri.verts, List.mem_cons, List.not_mem_nil, or_false, Bool.false_eq_true,
      if_false] at hP hQ
    rcases hP with rfl | rfl | rfl <;> rcases hQ with rfl | rfl | rfl <;> norm_num [gridVal]
  · intro P hP Q hQ
    simp only [Tri.verts, List.mem_cons, List.not_mem_nil, or_false, Bool.false_eq_true,
      if_false] at hP hQ
    rcases hP with rfl | rfl | rfl <;> rcases hQ with rfl | rfl | rfl <;> norm_num [gridVal]
  · have h1 : cpType ⟨-1, 1, -4, 2⟩ = .repellingFocus := by
      norm_num [cpType, Jac.disc, Jac.tr, Jac.det]
    have h2 : cpType ⟨-1, 1, -2, 0⟩ = .attractingFocus := by
      norm_num [cpType, Jac.disc, Jac.tr, Jac.det]
    rw [h1, h2]
    decide

end CpSZ.Offline2D
