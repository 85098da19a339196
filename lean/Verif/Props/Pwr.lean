import Verif.Pwr
import Verif.Block.Toy
/-
Property C40: the codec with a point-wise relative bound.
-/

namespace CpSZ.Pwr

open CpSZ.Block

variable {T F D : Type}

/-- Any arithmetic: the stream of `sz_compress_2d_pwr` has the reported size, and from it
`sz_decompress_2d_pwr` computes each value by thresholding, exponentiating and signing a
logarithm that the block codec accepted, with the threshold and the sign of the compressor. -/
theorem C40_stream (P : POps T D) (B : BOps T F D) (f : Fmt T F D) (hskip : f.skip = f.cT.size)
    (E1 E2 : Env) (data : Nat → T) (prec : D) (r1 r2 bs : Nat) (indep : Bool)
    (sel : Nat → Nat → Nat → Nat → Option (List F))
    (h1 : 0 < r1) (h2 : 0 < r2) (hb : 0 < bs) (hb31 : bs < 2 ^ 31) (hn : r1 * r2 < 2 ^ 58)
    (hsel : ∀ o sx sy sz c, sel o sx sy sz = some c → c.length = 3)
    (hcode : ∀ diff q, linQuant B.O.toDOps diff (logPrecision P data (r1 * r2) prec) 32768 16384 =
      some q → 0 < q ∧ q < 32768)
    (hcoef : ∀ p ∈ regPrecs B 3 (logPrecision P data (r1 * r2) prec) bs, ∀ diff q,
      linQuant B.C.toDOps diff p 65536 32768 = some q → 0 < q ∧ q < 65536)
    (hd1 : (out2 B (logData P data (r1 * r2) prec) (logPrecision P data (r1 * r2) prec) r1 r2 bs
        sel).coefs.length ≠ 0 →
      DepthOK E1 131072 (out2 B (logData P data (r1 * r2) prec)
        (logPrecision P data (r1 * r2) prec) r1 r2 bs sel).rty)
    (hd2 : DepthOK E2 65536 (out2 B (logData P data (r1 * r2) prec)
      (logPrecision P data (r1 * r2) prec) r1 r2 bs sel).ty) :
    ∃ inner bytes, compress2 B f E1 E2 (logData P data (r1 * r2) prec)
        (logPrecision P data (r1 * r2) prec) r1 r2 bs indep sel = some inner ∧
      compressPwr P B f E1 E2 data prec r1 r2 bs indep sel = some bytes ∧
      bytes.length = f.cT.size + ((r1 * r2 - 1) / 8 + 1) + inner.length ∧
      ∀ rest out0, ∃ out, decompressPwr P B f r1 r2 out0 (bytes ++ rest) = some out ∧
        ∀ p < r1 * r2, ∃ l, out p = post P (threshold P data (r1 * r2) prec)
            (P.lt (data p) P.zero) l ∧
          (l = logData P data (r1 * r2) prec p ∨
            B.O.le (B.O.dist l (logData P data (r1 * r2) prec p))
              (logPrecision P data (r1 * r2) prec) = true) := by
  have hn0 : 0 < r1 * r2 := Nat.mul_pos h1 h2
  obtain ⟨inner, e, r⟩ := C44_roundtrip_2d B f hskip E1 E2 (logData P data (r1 * r2) prec)
    (logPrecision P data (r1 * r2) prec) r1 r2 bs indep sel h1 h2 hb hb31 hn hsel hcode hcoef
    hd1 hd2
  refine ⟨inner, _, e, by unfold compressPwr; rw [e], ?_, fun rest out0 => ?_⟩
  · have hl := (C08_sign_bitmap_roundtrip (signs P data (r1 * r2)) [] (by
      intro h
      have := signs_length P data (r1 * r2)
      rw [h] at this
      simp at this
      omega)).1
    rw [signs_length] at hl
    rw [List.length_append, List.length_append, f.cT.enc_length, hl]
    omega
  · obtain ⟨out, ho, ha⟩ := r rest out0
    refine ⟨_, by
      unfold decompressPwr
      rw [List.append_assoc, readVar_enc]
      simp only [Option.bind_eq_bind, Option.bind_some]
      rw [List.append_assoc, signs_read P data _ hn0]
      simp only [Option.bind_some]
      rw [ho]
      rfl, fun p hp => ⟨out p, ?_, ha p hp⟩⟩
    rw [signs_get P data _ p hp]
    rfl

/-- The same for the pair with one bound per point; the logarithmic bounds travel outside
the stream.  Where the logarithmic bound is zero the block codec returns the logarithm
itself. -/
theorem C40_stream_with_eb (P : POps T D) (B : BOps T F D) (f : Fmt T F D)
    (hskip : f.skip = f.cT.size) (E1 E2 : Env) (data : Nat → T) (ebs : Nat → D)
    (r1 r2 bs : Nat) (indep : Bool)
    (h1 : 0 < r1) (h2 : 0 < r2) (hb : 0 < bs) (hb31 : bs < 2 ^ 31) (hn : r1 * r2 < 2 ^ 58)
    (hcode : ∀ p < r1 * r2, B.isZero (logEbs P data ebs p) = false → ∀ diff q,
      linQuant B.O.toDOps diff (logEbs P data ebs p) 65536 32768 = some q → 0 < q ∧ q < 65536)
    (hd : DepthOK E2 131072 (outEb2 B (logDataEb P data ebs (r1 * r2)) (logEbs P data ebs)
      r1 r2 bs).ty) :
    ∃ inner bytes, compressEb2 B f E1 E2 (logDataEb P data ebs (r1 * r2)) (logEbs P data ebs)
        r1 r2 bs indep = some inner ∧
      compressPwrEb P B f E1 E2 data ebs r1 r2 bs indep = some bytes ∧
      bytes.length = f.cT.size + ((r1 * r2 - 1) / 8 + 1) + inner.length ∧
      ∀ rest out0, ∃ out,
        decompressPwrEb P B f (logEbs P data ebs) r1 r2 out0 (bytes ++ rest) = some out ∧
        ∀ p < r1 * r2, ∃ l, out p = postEb P (thrScan P data ebs (r1 * r2))
            (P.lt (data p) P.zero) l ∧
          (B.isZero (logEbs P data ebs p) = true → l = logDataEb P data ebs (r1 * r2) p) ∧
          (l = logDataEb P data ebs (r1 * r2) p ∨
            B.O.le (B.O.dist l (logDataEb P data ebs (r1 * r2) p)) (logEbs P data ebs p) =
              true) := by
  have hn0 : 0 < r1 * r2 := Nat.mul_pos h1 h2
  obtain ⟨inner, e, r⟩ := C31_roundtrip B f hskip E1 E2 (logDataEb P data ebs (r1 * r2))
    (logEbs P data ebs) r1 r2 bs indep h1 h2 hb hb31 hn hcode hd
  refine ⟨inner, _, e, by unfold compressPwrEb; rw [e], ?_, fun rest out0 => ?_⟩
  · have hl := (C08_sign_bitmap_roundtrip (signs P data (r1 * r2)) [] (by
      intro h
      have := signs_length P data (r1 * r2)
      rw [h] at this
      simp at this
      omega)).1
    rw [signs_length] at hl
    rw [List.length_append, List.length_append, f.cT.enc_length, hl]
    omega
  · obtain ⟨out, ho, ha⟩ := r rest out0
    refine ⟨_, by
      unfold decompressPwrEb
      rw [List.append_assoc, readVar_enc]
      simp only [Option.bind_eq_bind, Option.bind_some]
      rw [List.append_assoc, signs_read P data _ hn0]
      simp only [Option.bind_some]
      rw [ho]
      rfl, fun p hp => ⟨out p, ?_, (ha p hp).1, (ha p hp).2⟩⟩
    rw [signs_get P data _ p hp]
    rfl

/-! ### Exact arithmetic -/

/-- Exact arithmetic, every field and every selection of regression blocks, when the
logarithmic precision is positive: nonzero values keep their sign and are within the relative
bound; zeros decode to zero or to a value not larger than the smallest magnitude of the
field.  Missing for the full claim, and false: zeros always decode to zero
(`C40_zero_lost`), and the case of a precision too small for the type
(`C40_small_precision_lost`). -/
theorem C40_exact_partial (eps : ℝ) (heps : 0 ≤ eps) (data : Nat → ℝ) (prec : ℝ)
    (hprec : 0 ≤ prec) (r1 r2 bs : Nat) (h1 : 0 < r1) (h2 : 0 < r2) (hb : 0 < bs)
    (_hnz : ∃ i < r1 * r2, data i ≠ 0)
    (hlp : 0 < logPrecision (realP eps) data (r1 * r2) prec)
    (sel : Nat → Nat → Nat → Nat → Option (List ℝ))
    (hsel : ∀ o sx sy sz c, sel o sx sy sz = some c → c.length = 3) (out0 : Nat → ℝ) :
    ∃ out, runPwr (realP eps) realB data prec r1 r2 bs sel out0 = some out ∧
      ∀ p < r1 * r2,
        (0 < data p → 0 < out p) ∧ (data p < 0 → out p < 0) ∧
        (data p ≠ 0 → |out p - data p| ≤ prec * |data p|) ∧
        (data p = 0 → out p = 0 ∨ ∀ i < r1 * r2, data i ≠ 0 → |out p| < |data i|) := by
  obtain ⟨d, hd, ha⟩ := C44_exact (logData (realP eps) data (r1 * r2) prec)
    (logPrecision (realP eps) data (r1 * r2) prec) hlp r1 r2 bs h1 h2 hb sel hsel out0
  have hrun : run2 realB (logData (realP eps) data (r1 * r2) prec)
      (logPrecision (realP eps) data (r1 * r2) prec) r1 r2 bs sel out0 = some d.out := by
    unfold run2
    have hz : realB.zeroT = 0 := rfl
    rw [hz, hd]
    rfl
  obtain ⟨hM, hR⟩ := logRange_real eps data (r1 * r2)
  refine ⟨fun p => post (realP eps) (threshold (realP eps) data (r1 * r2) prec)
    (signOf (realP eps) (data p)) (d.out p), by unfold runPwr; rw [hrun]; rfl, fun p hp => ?_⟩
  beta_reduce
  have hap := ha p hp
  generalize hlpd : logPrecision (realP eps) data (r1 * r2) prec = lp at *
  have hle : lp ≤ Real.logb 2 (1 + prec) := by
    rw [← hlpd]
    unfold logPrecision
    simp only [realP] at hM ⊢
    have := mul_nonneg hM heps
    linarith
  have hthr : threshold (realP eps) data (r1 * r2) prec =
      (logRange (realP eps) data (r1 * r2)).2 - 1.0001 * lp := by
    unfold threshold
    rw [hlpd]
    rfl
  have hnz : data p ≠ 0 → (realP eps).lt (d.out p) (threshold (realP eps) data (r1 * r2) prec) =
      false ∧ |d.out p - Real.logb 2 (|data p|)| ≤ lp := by
    intro h
    have hld : logData (realP eps) data (r1 * r2) prec p = Real.logb 2 |data p| := by
      unfold logData
      rw [if_neg (by simpa [realP] using h), logOf_real eps _ h]
    rw [hld] at hap
    refine ⟨?_, hap⟩
    rw [hthr]
    have := (hR p hp h).2
    have := (abs_le.1 hap).1
    simp only [realP, decide_eq_false_iff_not, not_lt] at *
    linarith
  refine ⟨fun h => ?_, fun h => ?_, fun h => ?_, fun h => ?_⟩
  · have hs : signOf (realP eps) (data p) = false := by simp [signOf, realP, h.le]
    rw [hs]
    unfold post
    rw [(hnz h.ne').1]
    simpa [realP] using Real.rpow_pos_of_pos (by norm_num : (0 : ℝ) < 2) (d.out p)
  · have hs : signOf (realP eps) (data p) = true := by simp [signOf, realP, h]
    rw [hs]
    unfold post
    rw [(hnz h.ne).1]
    simpa [realP] using Real.rpow_pos_of_pos (by norm_num : (0 : ℝ) < 2) (d.out p)
  · have key := rel_of_log (data p) (d.out p) lp prec h hprec (hnz h).2 hle
    unfold post
    rw [(hnz h).1]
    rcases lt_or_gt_of_ne h with hs | hs
    · have e : signOf (realP eps) (data p) = true := by simp [signOf, realP, hs]
      rw [e]
      simp only [realP, if_true, Bool.false_eq_true, if_false]
      rw [abs_of_neg hs] at key ⊢
      rw [← abs_neg]
      have : -(-(2 : ℝ) ^ d.out p - data p) = (2 : ℝ) ^ d.out p - -data p := by ring
      rw [this]
      exact key
    · have e : signOf (realP eps) (data p) = false := by simp [signOf, realP, hs.le]
      rw [e]
      simp only [realP, Bool.false_eq_true, if_false]
      rw [abs_of_pos hs] at key ⊢
      exact key
  · have hld : logData (realP eps) data (r1 * r2) prec p =
        (logRange (realP eps) data (r1 * r2)).2 - 2.0001 * lp := by
      unfold logData
      rw [if_pos (by simpa [realP] using h), hlpd]
      rfl
    rw [hld] at hap
    have e : signOf (realP eps) (data p) = false := by simp [signOf, realP, h]
    rw [e]
    unfold post
    by_cases hlt : d.out p < threshold (realP eps) data (r1 * r2) prec
    · left
      simp [realP] at hlt ⊢
      exact fun h' => absurd hlt (not_lt.2 h')
    · right
      intro i hi hdi
      have hpos := Real.rpow_pos_of_pos (by norm_num : (0 : ℝ) < 2) (d.out p)
      have : (realP eps).lt (d.out p) (threshold (realP eps) data (r1 * r2) prec) = false := by
        simpa [realP] using hlt
      rw [this]
      simp only [realP, Bool.false_eq_true, if_false, abs_of_pos hpos]
      rw [← Real.rpow_logb (by norm_num : (0 : ℝ) < 2) (by norm_num) (abs_pos.2 hdi)]
      apply Real.rpow_lt_rpow_of_exponent_lt (by norm_num)
      have h3 := (abs_le.1 hap).2
      have h4 := (hR i hi hdi).2
      simp only [realP] at h4 h3 ⊢
      linarith

/-- Zeros decode to zero when the block codec reconstructs their logarithm strictly within
the precision. -/
theorem C40_zero_exact (eps : ℝ) (data : Nat → ℝ) (prec : ℝ) (n : Nat) (p : Nat)
    (hz : data p = 0) (v : ℝ)
    (hv : |v - logData (realP eps) data n prec p| < logPrecision (realP eps) data n prec) :
    post (realP eps) (threshold (realP eps) data n prec) (decide (data p < 0)) v = 0 := by
  have hld : logData (realP eps) data n prec p =
      (logRange (realP eps) data n).2 - 2.0001 * logPrecision (realP eps) data n prec := by
    unfold logData
    rw [if_pos (by simpa [realP] using hz)]
    rfl
  have hthr : threshold (realP eps) data n prec =
      (logRange (realP eps) data n).2 - 1.0001 * logPrecision (realP eps) data n prec := rfl
  rw [hld] at hv
  unfold post
  have : (realP eps).lt v (threshold (realP eps) data n prec) = true := by
    rw [hthr]
    have := (abs_lt.1 hv).2
    simp only [realP, decide_eq_true_eq] at *
    linarith
  rw [this]
  simp [realP]

/-- Exact arithmetic, one bound per point, fields that do not start with a zero: zeros decode
to zero; a nonzero value with a positive logarithmic bound keeps its sign, and where its
magnitude is at least one (or the type has no rounding) it is within its relative bound.
Missing, and false: values whose logarithmic bound is zero (`C40_with_eb_value_lost`) and the
bound of values below one (`C40_with_eb_bound_exceeded`). -/
theorem C40_exact_with_eb_partial (eps : ℝ) (heps : 0 ≤ eps) (data ebs : Nat → ℝ)
    (r1 r2 bs : Nat) (h1 : 0 < r1) (h2 : 0 < r2) (hb : 0 < bs)
    (_h0 : data 0 ≠ 0) (hebs : ∀ p < r1 * r2, 0 ≤ ebs p) (out0 : Nat → ℝ) :
    ∃ out, runPwrEb (realP eps) realB data ebs r1 r2 bs out0 = some out ∧
      ∀ p < r1 * r2,
        (data p = 0 → out p = 0) ∧
        (0 < logEbs (realP eps) data ebs p →
          (0 < data p → 0 < out p) ∧ (data p < 0 → out p < 0) ∧
          (eps = 0 ∨ 1 ≤ |data p| → |out p - data p| ≤ ebs p * |data p|)) := by
  have hz0 : (realP eps).zeroD = 0 := rfl
  have hpos : ∀ p, 0 ≤ logEbs (realP eps) data ebs p := by
    intro p
    unfold logEbs
    split
    · exact le_of_eq hz0.symm
    · exact le_max_right (_ : ℝ) 0
  obtain ⟨d, hd, ha⟩ := C31_exact (logDataEb (realP eps) data ebs (r1 * r2))
    (logEbs (realP eps) data ebs) r1 r2 bs h1 h2 hb (fun p _ => hpos p) out0
  have hrun : runEb2 realB (logDataEb (realP eps) data ebs (r1 * r2))
      (logEbs (realP eps) data ebs) r1 r2 bs out0 = some d.out := by
    unfold runEb2
    have hz : realB.zeroT = 0 := rfl
    have ht : realB.tenth = 1 / 10 := rfl
    rw [hz, ht, hd]
    rfl
  refine ⟨fun p => postEb (realP eps) (thrScan (realP eps) data ebs (r1 * r2))
    (signOf (realP eps) (data p)) (d.out p), by unfold runPwrEb; rw [hrun]; rfl,
    fun p hp => ?_⟩
  beta_reduce
  refine ⟨fun h => ?_, fun hl => ?_⟩
  · have hap := ha p hp
    have e1 : logEbs (realP eps) data ebs p = 0 := by
      unfold logEbs
      rw [if_pos (by simpa [realP] using h), hz0]
    have e2 : logDataEb (realP eps) data ebs (r1 * r2) p =
        thrScan (realP eps) data ebs (r1 * r2) := by
      unfold logDataEb
      rw [if_pos (by simpa [realP] using h)]
    rw [e1, e2] at hap
    have := sub_eq_zero.1 (abs_nonpos_iff.1 hap)
    rw [this]
    simp [postEb, realP]
  · have hne : data p ≠ 0 := by
      intro h
      unfold logEbs at hl
      rw [if_pos (by simpa [realP] using h), hz0] at hl
      exact lt_irrefl _ hl
    have hap := ha p hp
    have e2 : logDataEb (realP eps) data ebs (r1 * r2) p = Real.logb 2 |data p| := by
      unfold logDataEb
      rw [if_neg (by simpa [realP] using hne), logOf_real eps _ hne]
    rw [e2] at hap
    have hthr := (thrScan_real eps data ebs (r1 * r2)).2 p hp hne
    have hneq : (realP eps).eq (d.out p) (thrScan (realP eps) data ebs (r1 * r2)) = false := by
      have := (abs_le.1 hap).1
      simp only [realP, decide_eq_false_iff_not]
      intro h
      simp only [realP] at h hthr hl this
      linarith
    have hpw := Real.rpow_pos_of_pos (by norm_num : (0 : ℝ) < 2) (d.out p)
    refine ⟨fun h => ?_, fun h => ?_, fun h => ?_⟩
    · have hs : signOf (realP eps) (data p) = false := by simp [signOf, realP, h.le]
      rw [hs]
      unfold postEb
      rw [hneq]
      simpa [realP] using hpw
    · have hs : signOf (realP eps) (data p) = true := by simp [signOf, realP, h]
      rw [hs]
      unfold postEb
      rw [hneq]
      simpa [realP] using hpw
    · have hle : logEbs (realP eps) data ebs p ≤ Real.logb 2 (1 + ebs p) := by
        have e1 : logEbs (realP eps) data ebs p =
            max (Real.logb 2 (1 + ebs p) - Real.logb 2 |data p| * eps) 0 := by
          unfold logEbs logEbOf
          rw [if_neg (by simpa [realP] using hne), logOf_real eps _ hne]
          rfl
        rw [e1]
        apply max_le
        · have : 0 ≤ Real.logb 2 |data p| * eps := by
            rcases h with h | h
            · rw [h, mul_zero]
            · exact mul_nonneg (Real.logb_nonneg (by norm_num) h) heps
          linarith
        · exact Real.logb_nonneg (by norm_num) (by linarith [hebs p hp])
      have key := rel_of_log (data p) (d.out p) _ (ebs p) hne (hebs p hp) hap hle
      unfold postEb
      rw [hneq]
      rcases lt_or_gt_of_ne hne with hs | hs
      · have e : signOf (realP eps) (data p) = true := by simp [signOf, realP, hs]
        rw [e]
        simp only [realP, if_true, Bool.false_eq_true, if_false]
        rw [abs_of_neg hs] at key ⊢
        rw [← abs_neg]
        have : -(-(2 : ℝ) ^ d.out p - data p) = (2 : ℝ) ^ d.out p - -data p := by ring
        rw [this]
        exact key
      · have e : signOf (realP eps) (data p) = false := by simp [signOf, realP, hs.le]
        rw [e]
        simp only [realP, Bool.false_eq_true, if_false]
        rw [abs_of_pos hs] at key ⊢
        exact key

/-! ### What fails -/

theorem quantize_even (lp : ℝ) (h : 0 < lp) :
    quantize realB.O 0 (1 * lp) lp 32768 16384 = (16385, 2 * lp, []) := by
  have hl : linQuant realB.O.toDOps (1 * lp) lp 32768 16384 = some 16385 := by
    unfold linQuant
    have e : |1 * lp| / lp + 1 = 2 := by
      rw [one_mul, abs_of_pos h, div_self h.ne']
      norm_num
    simp only [realB, roundedB, roundedQ, roundedOps, id]
    push_cast
    rw [e]
    norm_num [truncR, h]
  unfold quantize
  have hd : realB.O.diff (1 * lp) 0 = 1 * lp := by
    simp [realB, roundedB, roundedQ, roundedOps]
  rw [hd, hl]
  have ha : realB.O.addTo 0 (linOffset realB.O.toDOps lp 16384 16385) = 2 * lp := by
    simp [realB, roundedB, roundedQ, roundedOps, linOffset]
  dsimp only
  rw [ha, if_pos]
  simp only [realB, roundedB, roundedQ, roundedOps, id, decide_eq_true_eq]
  rw [show 2 * lp - 1 * lp = lp by ring, abs_of_pos h]

/-- C40 is false for zeros, in exact arithmetic and at every positive logarithmic precision
`lp`: the zero of the field `[0, 2^(3.0001 lp)]` decodes to `4^lp`.  Its logarithm is placed
`2.0001 lp` below the smallest one, the block codec may move it by `lp`, and the comparison
with the threshold is strict. -/
theorem C40_zero_lost (eps lp : ℝ) (heps : 0 ≤ eps) (hlp : 0 < lp) (out0 : Nat → ℝ) :
    ∃ (data : Nat → ℝ) (prec : ℝ) (out : Nat → ℝ), 0 < prec ∧ data 0 = 0 ∧ data 1 ≠ 0 ∧
      logPrecision (realP eps) data (1 * 2) prec = lp ∧
      runPwr (realP eps) realB data prec 1 2 6 (fun _ _ _ _ => none) out0 = some out ∧
      out 0 = (2 : ℝ) ^ (2 * lp) ∧ out 0 ≠ 0 := by
  set v : ℝ := (2 : ℝ) ^ (3.0001 * lp) with hv
  have hv0 : 0 < v := Real.rpow_pos_of_pos (by norm_num) _
  have hlog : Real.logb 2 v = 3.0001 * lp := Real.logb_rpow (by norm_num) (by norm_num)
  have hl0 : 0 < 3.0001 * lp := by positivity
  set data : Nat → ℝ := fun i => if i = 0 then 0 else v with hdata
  set prec : ℝ := (2 : ℝ) ^ (lp + 3.0001 * lp * eps) - 1 with hprec
  have hp1 : Real.logb 2 (1 + prec) = lp + 3.0001 * lp * eps := by
    rw [hprec, add_sub_cancel]
    exact Real.logb_rpow (by norm_num) (by norm_num)
  have hrange : logRange (realP eps) data (1 * 2) = (3.0001 * lp, 3.0001 * lp) := by
    have hmm : minMax (realP eps) data 1 = (0, v) := by
      simp [minMax, realP, hdata, hv0, not_lt.2 hv0.le]
    have hs : startAbs (realP eps) 0 v = 3.0001 * lp := by
      simp [startAbs, realP, abs_of_pos hv0, hlog, abs_of_pos hl0]
    have hlo : logOf (realP eps) v = 3.0001 * lp := by
      rw [logOf_real eps v hv0.ne', abs_of_pos hv0, hlog]
    unfold logRange
    rw [show 1 * 2 - 1 = 1 from rfl, hmm]
    dsimp only
    rw [hs]
    have hsc : logScan (realP eps) data (3.0001 * lp, 3.0001 * lp) (1 * 2) =
        (3.0001 * lp, 3.0001 * lp) := by
      show logScan (realP eps) data (3.0001 * lp, 3.0001 * lp) 2 = _
      unfold logScan
      rw [show data 1 = v from rfl, hlo]
      unfold logScan
      rw [show data 0 = 0 from rfl]
      simp [realP, logScan]
    rw [hsc]
    simp [realP, abs_of_pos hl0]
  have hlpd : logPrecision (realP eps) data (1 * 2) prec = lp := by
    unfold logPrecision
    rw [hrange]
    show Real.logb 2 (1 + prec) - 3.0001 * lp * eps = lp
    rw [hp1]
    ring
  have hthr : threshold (realP eps) data (1 * 2) prec = 2 * lp := by
    unfold threshold
    rw [hlpd, hrange]
    show 3.0001 * lp - 1.0001 * lp = 2 * lp
    ring
  have hd0 : logData (realP eps) data (1 * 2) prec 0 = 1 * lp := by
    unfold logData
    rw [if_pos (by simp [realP, hdata]), hlpd, hrange]
    show 3.0001 * lp - 2.0001 * lp = 1 * lp
    ring
  have hd1 : logData (realP eps) data (1 * 2) prec 1 = 3.0001 * lp := by
    unfold logData
    rw [if_neg (by simp [realP, hdata, hv0.ne']), show data 1 = v from rfl,
      logOf_real eps v hv0.ne', abs_of_pos hv0, hlog]
  have hlor : ∀ x, realB.lor2 x realB.zeroT realB.zeroT = x := fun x => by simp [realB, roundedB]
  obtain ⟨q1, v1, u1, e1⟩ : ∃ q1 v1 u1, quantize realB.O (2 * lp) (3.0001 * lp) lp 32768 16384 =
      (q1, v1, u1) := ⟨_, _, _, rfl⟩
  have hd1' : recover realB.O (2 * lp) lp q1 16384 u1 = some (v1, []) := by
    have := recover_quantize realB.O (2 * lp) (3.0001 * lp) lp 32768 16384 [] (fun q h => by
      have := linQuant_range (rT := id) (lg := Real.logb 2) IsRounding.id _ lp 16384 hlp
        (by norm_num) q h
      omega)
    rw [e1, List.append_nil] at this
    exact this
  have hrun := run2_pair realB (logData (realP eps) data (1 * 2) prec) lp out0 16385 q1 (2 * lp) v1
    [] u1 (by rw [hlor, hd0]; exact quantize_even lp hlp) (by rw [hlor, hd1]; exact e1)
    (by
      rw [hlor, recover_nz _ _ _ _ _ _ (by norm_num)]
      simp [realB, roundedB, roundedQ, roundedOps, linOffset])
    (by rw [hlor]; exact hd1')
  refine ⟨data, prec, _, ?_, rfl, hv0.ne', hlpd, by unfold runPwr; rw [hlpd, hrun]; rfl, ?_⟩
  · rw [hprec, sub_pos]
    exact Real.one_lt_rpow (by norm_num) (by positivity)
  · have hpw := Real.rpow_pos_of_pos (by norm_num : (0 : ℝ) < 2) (2 * lp)
    have : post (realP eps) (threshold (realP eps) data (1 * 2) prec)
        (signOf (realP eps) (data 0)) (2 * lp) = (2 : ℝ) ^ (2 * lp) := by
      rw [hthr]
      simp [post, realP, signOf, hdata]
    refine ⟨?_, ?_⟩
    · simpa [upd] using this
    · have h' : (2 : ℝ) ^ (2 * lp) ≠ 0 := hpw.ne'
      rw [← this] at h'
      simpa [upd] using h'

/-- C40 is false when the precision is below the resolution of the type at the magnitudes of
the field: then the logarithmic precision is negative, the threshold lies above the smallest
logarithm, and a constant nonzero field decodes to zero. -/
theorem C40_small_precision_lost (eps x prec : ℝ) (hx : x ≠ 0)
    (hp : Real.logb 2 (1 + prec) < |Real.logb 2 (|x|)| * eps) (out0 : Nat → ℝ) :
    ∃ out, runPwr (realP eps) realB (fun _ => x) prec 1 2 6 (fun _ _ _ _ => none) out0 =
      some out ∧ out 0 = 0 ∧ out 1 = 0 := by
  set l := Real.logb 2 |x| with hl
  have hlo : logOf (realP eps) x = l := logOf_real eps x hx
  have hrange : logRange (realP eps) (fun _ => x) (1 * 2) = (|l|, l) := logRange_const eps x hx 1
  have hlpd : logPrecision (realP eps) (fun _ => x) (1 * 2) prec =
      Real.logb 2 (1 + prec) - |l| * eps := by
    unfold logPrecision
    rw [hrange]
    rfl
  have hneg : Real.logb 2 (1 + prec) - |l| * eps < 0 := by linarith
  have hthr : threshold (realP eps) (fun _ => x) (1 * 2) prec =
      l - 1.0001 * (Real.logb 2 (1 + prec) - |l| * eps) := by
    unfold threshold
    rw [hlpd, hrange]
    rfl
  have hd : ∀ i, logData (realP eps) (fun _ => x) (1 * 2) prec i = l := by
    intro i
    unfold logData
    rw [if_neg (by simpa [realP] using hx), hlo]
  have hrun := run2_pair realB (logData (realP eps) (fun _ => x) (1 * 2) prec)
    (Real.logb 2 (1 + prec) - |l| * eps) out0 0 0 l l [l] [l]
    (by rw [hd]; exact quantize_neg _ _ _ hneg _ _)
    (by rw [hd]; exact quantize_neg _ _ _ hneg _ _)
    (recover_z _ _ _ _ _ _) (recover_z _ _ _ _ _ _)
  have hz : ∀ s, post (realP eps) (threshold (realP eps) (fun _ => x) (1 * 2) prec) s l = 0 := by
    intro s
    have : (realP eps).lt l (threshold (realP eps) (fun _ => x) (1 * 2) prec) = true := by
      rw [hthr]
      simp only [realP, decide_eq_true_eq]
      linarith
    unfold post
    rw [this]
    cases s <;> simp [realP]
  refine ⟨_, by unfold runPwr; rw [hlpd, hrun]; rfl, ?_, ?_⟩
  · simpa [upd] using hz (signOf (realP eps) x)
  · simpa [upd] using hz (signOf (realP eps) x)

-- Values near 16 in single precision with a requested relative bound of `2^-25`.
example (out0 : Nat → ℝ) : ∃ out, runPwr (realP (2 ^ (-23 : ℝ))) realB (fun _ => 16) (2 ^ (-25 : ℝ))
    1 2 6 (fun _ _ _ _ => none) out0 = some out ∧ out 0 = 0 ∧ out 1 = 0 := by
  refine C40_small_precision_lost _ 16 _ (by norm_num) ?_ out0
  have h16 : Real.logb 2 |(16 : ℝ)| = 4 := by
    rw [abs_of_pos (by norm_num), show (16 : ℝ) = 2 ^ (4 : ℝ) by norm_num]
    exact Real.logb_rpow (by norm_num) (by norm_num)
  rw [h16, abs_of_pos (by norm_num)]
  have e1 : (4 : ℝ) * 2 ^ (-23 : ℝ) = 16 * 2 ^ (-25 : ℝ) := by
    rw [show (-23 : ℝ) = -25 + 2 by norm_num, Real.rpow_add (by norm_num)]
    norm_num
  have hy : (0 : ℝ) < 2 ^ (-25 : ℝ) := Real.rpow_pos_of_pos (by norm_num) _
  rw [e1]
  generalize (2 : ℝ) ^ (-25 : ℝ) = y at *
  have hlog : Real.log (1 + y) ≤ y := by
    have := Real.log_le_sub_one_of_pos (show 0 < 1 + y by linarith)
    linarith
  have h2 : (1 / 2 : ℝ) ≤ Real.log 2 := by
    have := Real.one_sub_inv_le_log_of_pos (by norm_num : (0 : ℝ) < 2)
    linarith
  unfold Real.logb
  rw [div_lt_iff₀ (by linarith)]
  nlinarith

/-- C40 is false with one bound per point: where the smallest magnitude has bound zero, its
logarithm coincides with the threshold that marks zeros.  A constant field of any value of
magnitude at least one with bounds zero decodes to zero. -/
theorem C40_with_eb_value_lost (eps x : ℝ) (heps : 0 ≤ eps) (hx : 1 ≤ |x|) (out0 : Nat → ℝ) :
    ∃ out, runPwrEb (realP eps) realB (fun _ => x) (fun _ => 0) 1 2 6 out0 = some out ∧
      out 0 = 0 ∧ out 1 = 0 := by
  have hx0 : x ≠ 0 := by
    intro h
    rw [h, abs_zero] at hx
    linarith
  set l := Real.logb 2 |x| with hl
  have hl0 : 0 ≤ l := Real.logb_nonneg (by norm_num) hx
  have hlo : logOf (realP eps) x = l := logOf_real eps x hx0
  have hmag := (mag_pos eps x).2 hx0
  have heb0 : logEbOf (realP eps) x 0 = 0 := by
    unfold logEbOf
    rw [hlo]
    show max (Real.logb 2 (1 + 0) - l * eps) 0 = 0
    apply max_eq_right
    simp only [add_zero, Real.logb_one]
    nlinarith [mul_nonneg hl0 heps]
  have heb : ∀ i, logEbs (realP eps) (fun _ => x) (fun _ => 0) i = 0 := by
    intro i
    unfold logEbs
    rw [if_neg (by simpa [realP] using hx0), heb0]
  have hthr : thrScan (realP eps) (fun _ => x) (fun _ => 0) (1 * 2) = l := by
    show thrScan (realP eps) (fun _ => x) (fun _ => 0) 2 = l
    unfold thrScan
    dsimp only
    rw [if_pos hmag, hlo, heb0]
    unfold thrScan
    dsimp only
    rw [if_pos hmag, hlo, heb0]
    simp [thrScan, realP, ← hl]
  have hd : ∀ i, logDataEb (realP eps) (fun _ => x) (fun _ => 0) (1 * 2) i = l := by
    intro i
    unfold logDataEb
    rw [if_neg (by simpa [realP] using hx0), hlo]
  have hrun := runEb2_pair realB (logDataEb (realP eps) (fun _ => x) (fun _ => 0) (1 * 2))
    (logEbs (realP eps) (fun _ => x) (fun _ => 0)) out0 0 0 l l [l] [l]
    (by rw [hd, heb, if_pos (by simp [realB, roundedB])])
    (by rw [hd, heb, if_pos (by simp [realB, roundedB])])
    (recover_z _ _ _ _ _ _) (recover_z _ _ _ _ _ _)
  have hz : ∀ s, postEb (realP eps) (thrScan (realP eps) (fun _ => x) (fun _ => 0) (1 * 2)) s l =
      0 := by
    intro s
    rw [hthr]
    cases s <;> simp [postEb, realP]
  refine ⟨_, by unfold runPwrEb; rw [hrun]; rfl, ?_, ?_⟩
  · simpa [upd] using hz (signOf (realP eps) x)
  · simpa [upd] using hz (signOf (realP eps) x)

/-- C40 is false with one bound per point below magnitude one: the allowance for rounding,
`log_data * epsilon`, is negative there and enlarges the bound.  With all bounds zero and the
machine epsilon of `float` the second value of `[2^-100, 2^(-100 + 2^-18)]` decodes to the
first. -/
theorem C40_with_eb_bound_exceeded (out0 : Nat → ℝ) :
    ∃ out, runPwrEb (realP (1 / 2 ^ 23)) realB
        (fun i => if i = 0 then (2 : ℝ) ^ (-100 : ℝ) else (2 : ℝ) ^ (-100 + 1 / 2 ^ 18 : ℝ))
        (fun _ => 0) 1 2 6 out0 = some out ∧
      out 1 = (2 : ℝ) ^ (-100 : ℝ) ∧ out 1 ≠ (2 : ℝ) ^ (-100 + 1 / 2 ^ 18 : ℝ) := by
  set data : Nat → ℝ :=
    fun i => if i = 0 then (2 : ℝ) ^ (-100 : ℝ) else (2 : ℝ) ^ (-100 + 1 / 2 ^ 18 : ℝ) with hdata
  set P := realP (1 / 2 ^ 23) with hP
  have hpos : ∀ i, 0 < data i := by
    intro i
    simp only [hdata]
    split <;> exact Real.rpow_pos_of_pos (by norm_num) _
  have hl : ∀ i, Real.logb 2 |data i| = if i = 0 then -100 else -100 + 1 / 2 ^ 18 := by
    intro i
    rw [abs_of_pos (hpos i)]
    simp only [hdata]
    split <;> exact Real.logb_rpow (by norm_num) (by norm_num)
  have hlo : ∀ i, logOf P (data i) = if i = 0 then -100 else -100 + 1 / 2 ^ 18 := fun i => by
    rw [hP, logOf_real _ _ (hpos i).ne', hl]
  have hz : ∀ i, P.isZero (data i) = false := fun i => by simpa [hP, realP] using (hpos i).ne'
  have heb : ∀ i, logEbs P data (fun _ => 0) i =
      if i = 0 then 100 / 2 ^ 23 else (100 - 1 / 2 ^ 18) / 2 ^ 23 := by
    intro i
    unfold logEbs logEbOf
    rw [hz, hlo]
    simp only [Bool.false_eq_true, if_false]
    show max (Real.logb 2 (1 + 0) - (if i = 0 then -100 else -100 + 1 / 2 ^ 18) * (1 / 2 ^ 23)) 0 = _
    simp only [add_zero, Real.logb_one]
    split
    · rw [max_eq_left (by norm_num)]; norm_num
    · rw [max_eq_left (by norm_num)]; norm_num
  have hd : ∀ i, logDataEb P data (fun _ => 0) (1 * 2) i =
      if i = 0 then -100 else -100 + 1 / 2 ^ 18 := fun i => by
    unfold logDataEb
    rw [hz, hlo]
    simp
  have hthr : thrScan P data (fun _ => 0) (1 * 2) < -100 := by
    have := (thrScan_real (1 / 2 ^ 23) data (fun _ => 0) (1 * 2)).2 0 (by norm_num) (hpos 0).ne'
    rw [← hP, heb, hl] at this
    norm_num at this ⊢
    linarith
  have hlor : ∀ x, realB.lor2 x realB.zeroT realB.zeroT = x := fun x => by simp [realB, roundedB]
  have hlor0 : realB.lor2 realB.zeroT realB.zeroT realB.zeroT = 0 := by simp [realB, roundedB]
  have hq0 : quantize realB.O 0 (-100) (100 / 2 ^ 23) 65536 32768 = (0, -100, [-100]) := by
    have : linQuant realB.O.toDOps (realB.O.diff (-100) 0) (100 / 2 ^ 23) 65536 32768 = none := by
      unfold linQuant
      simp only [realB, roundedB, roundedQ, roundedOps, id]
      norm_num
    unfold quantize
    rw [this]
  have hq1 : quantize realB.O (-100) (-100 + 1 / 2 ^ 18) ((100 - 1 / 2 ^ 18) / 2 ^ 23) 65536 32768 =
      (32768, -100, []) := by
    have : linQuant realB.O.toDOps (realB.O.diff (-100 + 1 / 2 ^ 18) (-100))
        ((100 - 1 / 2 ^ 18) / 2 ^ 23) 65536 32768 = some 32768 := by
      unfold linQuant
      simp only [realB, roundedB, roundedQ, roundedOps, id]
      norm_num [truncR, abs_of_pos]
    unfold quantize
    rw [this]
    have ha : realB.O.addTo (-100) (linOffset realB.O.toDOps ((100 - 1 / 2 ^ 18) / 2 ^ 23) 32768
        32768) = -100 := by
      simp [realB, roundedB, roundedQ, roundedOps, linOffset]
    dsimp only
    rw [ha, if_pos]
    simp only [realB, roundedB, roundedQ, roundedOps, id, decide_eq_true_eq]
    rw [abs_le]
    constructor <;> norm_num
  have hrun := runEb2_pair realB (logDataEb P data (fun _ => 0) (1 * 2))
    (logEbs P data (fun _ => 0)) out0 0 32768 (-100) (-100) [-100] []
    (by
      rw [hd, heb, hlor0, if_neg (by simp [realB, roundedB])]
      simpa using hq0)
    (by
      rw [hd, heb, hlor, if_neg (by simp [realB, roundedB]; norm_num)]
      simpa using hq1)
    (recover_z _ _ _ _ _ _)
    (by
      rw [hlor, recover_nz _ _ _ _ _ _ (by norm_num)]
      simp [realB, roundedB, roundedQ, roundedOps, linOffset])
  have hpost : postEb P (thrScan P data (fun _ => 0) (1 * 2)) (signOf P (data 1)) (-100) =
      (2 : ℝ) ^ (-100 : ℝ) := by
    have hs : signOf P (data 1) = false := by simp [signOf, hP, realP, (hpos 1).le]
    have he : P.eq (-100) (thrScan P data (fun _ => 0) (1 * 2)) = false := by
      simpa [hP, realP] using hthr.ne'
    unfold postEb
    rw [hs, he]
    rfl
  refine ⟨_, by unfold runPwrEb; rw [hrun]; rfl, ?_, ?_⟩
  · simpa [upd] using hpost
  · have : (2 : ℝ) ^ (-100 : ℝ) ≠ (2 : ℝ) ^ (-100 + 1 / 2 ^ 18 : ℝ) :=
      (Real.rpow_lt_rpow_of_exponent_lt (by norm_num) (by norm_num)).ne
    rw [← hpost] at this
    simpa [upd] using this

/-- C40 is false for a field of zeros.  The hypotheses list what IEEE arithmetic does there:
`a = |log2 0|` is infinite and stays infinite through `max_abs_log_data`; the logarithmic
precision is minus infinity, with which no comparison `fabs(x) <= precision` succeeds; the value
stored for zeros and the threshold are infinite again, and `inf < inf` fails.  Every point
then decodes to `exp2(inf)`. -/
theorem C40_all_zero_lost (P : POps T D) (B : BOps T F D) (f : Fmt T F D)
    (hskip : f.skip = f.cT.size) (E1 E2 : Env) (prec : D) (r1 r2 bs : Nat) (indep : Bool)
    (h1 : 0 < r1) (h2 : 0 < r2) (hb : 0 < bs) (hb31 : bs < 2 ^ 31) (hn : r1 * r2 < 2 ^ 58)
    (hz : P.isZero P.zero = true) (hz' : P.lt P.zero P.zero = false) (inf : T) (ninf : D)
    (ha : P.abs (P.log2 (P.abs P.zero)) = inf) (hi : P.abs inf = inf)
    (hl : P.logPrec prec inf = ninf) (hle : ∀ x y, B.O.le (B.O.dist x y) ninf = false)
    (hb2 : P.below2 inf ninf = inf) (hb1 : P.below1 inf ninf = inf) (hlt : P.lt inf inf = false)
    (hcode : ∀ diff q, linQuant B.O.toDOps diff ninf 32768 16384 = some q → 0 < q ∧ q < 32768)
    (hcoef : ∀ p ∈ regPrecs B 3 ninf bs, ∀ diff q,
      linQuant B.C.toDOps diff p 65536 32768 = some q → 0 < q ∧ q < 65536)
    (hd1 : (out2 B (fun _ => inf) ninf r1 r2 bs (fun _ _ _ _ => none)).coefs.length ≠ 0 →
      DepthOK E1 131072 (out2 B (fun _ => inf) ninf r1 r2 bs (fun _ _ _ _ => none)).rty)
    (hd2 : DepthOK E2 65536 (out2 B (fun _ => inf) ninf r1 r2 bs (fun _ _ _ _ => none)).ty) :
    ∃ bytes, compressPwr P B f E1 E2 (fun _ => P.zero) prec r1 r2 bs indep
        (fun _ _ _ _ => none) = some bytes ∧
      ∀ rest out0, ∃ out, decompressPwr P B f r1 r2 out0 (bytes ++ rest) = some out ∧
        ∀ p < r1 * r2, out p = P.exp2 inf := by
  have hmm : ∀ k, minMax P (fun _ => P.zero) k = (P.zero, P.zero) := by
    intro k
    induction k with
    | zero => rfl
    | succ k ih => simp only [minMax, ih, hz']; rfl
  have hsc : ∀ k s, logScan P (fun _ => P.zero) s k = s := by
    intro k s
    induction k with
    | zero => rfl
    | succ k ih => simp [logScan, ih, hz']
  have hrange : ∀ n, logRange P (fun _ => P.zero) n = (inf, inf) := by
    intro n
    unfold logRange
    rw [hmm]
    simp only [startAbs, hz, if_true, ha, hsc, hi, hlt, Bool.false_eq_true, if_false]
  have hlp : logPrecision P (fun _ => P.zero) (r1 * r2) prec = ninf := by
    unfold logPrecision
    rw [hrange, hl]
  have hld : logData P (fun _ => P.zero) (r1 * r2) prec = fun _ => inf := by
    funext i
    unfold logData
    rw [if_pos hz, hlp, hrange, hb2]
  have hthr : threshold P (fun _ => P.zero) (r1 * r2) prec = inf := by
    unfold threshold
    rw [hlp, hrange, hb1]
  obtain ⟨inner, bytes, -, hc, -, hd⟩ := C40_stream P B f hskip E1 E2 (fun _ => P.zero) prec r1 r2 bs
    indep (fun _ _ _ _ => none) h1 h2 hb hb31 hn (fun _ _ _ _ _ h => by cases h)
    (by rw [hlp]; exact hcode) (by rw [hlp]; exact hcoef) (by rw [hlp, hld]; exact hd1)
    (by rw [hlp, hld]; exact hd2)
  refine ⟨bytes, hc, fun rest out0 => ?_⟩
  obtain ⟨out, ho, hp⟩ := hd rest out0
  refine ⟨out, ho, fun p hpn => ?_⟩
  obtain ⟨l, e, h | h⟩ := hp p hpn
  · rw [e, h, hld, hthr]
    simp [post, hz', hlt]
  · rw [hlp, hle] at h
    cases h

/-! ### The hypotheses can be met -/

-- `C40_exact_partial` with the epsilon of `float`: values of magnitude 16, bound 1.
example (out0 : Nat → ℝ) : ∃ out, runPwr (realP (1 / 2 ^ 23)) realB (fun _ => -16) 1 3 4 2
    (fun _ _ _ _ => none) out0 = some out ∧ ∀ p < 3 * 4, out p < 0 ∧ |out p - -16| ≤ 16 := by
  have hlp : 0 < logPrecision (realP (1 / 2 ^ 23)) (fun _ => -16) (3 * 4) 1 := by
    unfold logPrecision
    rw [logRange_const _ (-16) (by norm_num) 11]
    show 0 < Real.logb 2 (1 + 1) - |Real.logb 2 (|(-16 : ℝ)|)| * (1 / 2 ^ 23)
    have h16 : Real.logb 2 |(-16 : ℝ)| = 4 := by
      rw [abs_of_neg (by norm_num), show -(-16 : ℝ) = 2 ^ (4 : ℝ) by norm_num]
      exact Real.logb_rpow (by norm_num) (by norm_num)
    rw [h16, show (1 + 1 : ℝ) = 2 ^ (1 : ℝ) by norm_num,
      Real.logb_rpow (by norm_num) (by norm_num), abs_of_pos (by norm_num)]
    norm_num
  obtain ⟨out, h, h'⟩ := C40_exact_partial (1 / 2 ^ 23) (by norm_num) (fun _ => -16) 1 (by norm_num)
    3 4 2 (by norm_num) (by norm_num) (by norm_num) ⟨0, by norm_num, by norm_num⟩ hlp
    (fun _ _ _ _ => none) (fun _ _ _ _ _ h => by cases h) out0
  refine ⟨out, h, fun p hp => ⟨(h' p hp).2.1 (by norm_num), ?_⟩⟩
  have := (h' p hp).2.2.1 (by norm_num)
  norm_num at this ⊢
  exact this

-- `C40_exact_with_eb_partial`: alternating values and zeros, bounds 1.
example (out0 : Nat → ℝ) : ∃ out, runPwrEb (realP (1 / 2 ^ 23)) realB
    (fun i => if i % 2 = 0 then -1 else 0) (fun _ => 1) 3 4 2 out0 = some out ∧
      out 0 < 0 ∧ out 1 = 0 := by
  obtain ⟨out, h, h'⟩ := C40_exact_with_eb_partial (1 / 2 ^ 23) (by norm_num)
    (fun i => if i % 2 = 0 then -1 else 0) (fun _ => 1) 3 4 2 (by norm_num) (by norm_num)
    (by norm_num) (by norm_num) (fun _ _ => by norm_num) out0
  refine ⟨out, h, ((h' 0 (by norm_num)).2 ?_).2.1 (by norm_num),
    (h' 1 (by norm_num)).1 (by norm_num)⟩
  unfold logEbs logEbOf
  rw [if_neg (by simp [realP]), logOf_real _ _ (by norm_num)]
  show 0 < max (Real.logb 2 (1 + 1) - Real.logb 2 |if 0 % 2 = 0 then -1 else 0| * (1 / 2 ^ 23)) 0
  rw [show (1 + 1 : ℝ) = 2 ^ (1 : ℝ) by norm_num, Real.logb_rpow (by norm_num) (by norm_num)]
  norm_num

/-- A computable stand-in for the transcendental functions: the logarithm is the magnitude
itself. -/
def toyP : POps W W where
  zero := 0#64
  zeroD := 0#64
  isZero x := x == 0#64
  lt a b := decide (a.toInt < b.toInt)
  eq a b := a == b
  neg x := -x
  abs x := if x.toInt < 0 then -x else x
  log2 x := x
  exp2 x := x
  logPrec p _ := p
  below2 m lp := m - 2#64 * lp - 1#64
  below1 m lp := m - lp - 1#64
  logEb e _ := e
  lower t l e := if t.toInt < (l - e - 1#64).toInt then t else l - e - 1#64

def exField : Nat → W := fun i => if i % 3 = 0 then 0#64 else if i % 3 = 1 then 100#64 else -108#64

-- `C40_stream`: zeros, positive and negative values.
example (E1 E2 : Env) : ∃ bytes,
    compressPwr toyP satB (satFmt 8) E1 E2 exField 4#64 2 4 2 false (fun _ _ _ _ => none) =
      some bytes ∧
    ∀ rest out0, ∃ out, decompressPwr toyP satB (satFmt 8) 2 4 out0 (bytes ++ rest) = some out := by
  obtain ⟨_, bytes, -, h, -, h'⟩ := C40_stream toyP satB (satFmt 8) rfl E1 E2 exField 4#64 2 4 2
    false (fun _ _ _ _ => none) (by decide) (by decide) (by decide) (by decide) (by decide)
    (fun _ _ _ _ _ h => by cases h)
    (fun diff q h => by
      have := satQ_codes 4#64 (by decide) 16384 (by norm_num) 16384 (by norm_num) diff q h
      omega)
    (fun p hp diff q h => by
      have : p = 4#64 := by simpa [regPrecs, satB, logPrecision, toyP] using hp
      subst this
      have := satQ_codes 4#64 (by decide) 32768 (by norm_num) 32768 (by norm_num) diff q h
      omega)
    (fun h => absurd (by decide +kernel) h)
    (depthOK_of_short E2 _ _ (by decide +kernel) (by decide +kernel) (by norm_num)
      (by decide +kernel))
  exact ⟨bytes, h, fun rest out0 => let ⟨out, ho, _⟩ := h' rest out0; ⟨out, ho⟩⟩

/-- Integers with two special values: `2^40` for infinity and `-1` for minus infinity, by
which nothing is divisible. -/
def infQ : QOps W W W :=
  { satQ with div := fun a b => if b.toInt ≤ 0 then 0#64 else satQ.div a b }

theorem infQ_codes (r : Int) (diff : W) (q : Int)
    (h : linQuant infQ.toDOps diff (-1#64) (2 * r + 2) (r + 1) = some q) : q = r + 1 := by
  unfold linQuant at h
  have hd : ∀ a, infQ.div a (-1#64) = 0#64 := fun a => by
    show (if (-1#64 : W).toInt ≤ 0 then 0#64 else satQ.div a (-1#64)) = 0#64
    rfl
  have hone : infQ.add 0#64 (infQ.ofInt 1) = 1#64 := by decide
  rw [hd, hone] at h
  dsimp only at h
  have e1 : infQ.trunc (infQ.div 1#64 (infQ.ofInt 2)) = 0 := by decide
  have e2 : infQ.trunc (infQ.div (infQ.neg 1#64) (infQ.ofInt 2)) = 0 := by decide
  split at h
  · injection h with h
    split at h
    · rw [e1] at h; omega
    · rw [e2] at h; omega
  · cases h

-- `C40_all_zero_lost`: a field of eight zeros decodes to eight infinities.
example (E1 E2 : Env) : ∃ bytes,
    compressPwr { toyP with
        log2 := fun x => if x == 0#64 then 0x10000000000#64 else x
        logPrec := fun p m => if m == 0x10000000000#64 then -1#64 else p
        below2 := fun m _ => m
        below1 := fun m _ => m }
      { satB with O := infQ, C := infQ } (satFmt 8) E1 E2 (fun _ => 0#64) 4#64 2 4 2 false
      (fun _ _ _ _ => none) = some bytes ∧
    ∀ rest out0, ∃ out, decompressPwr { toyP with
        log2 := fun x => if x == 0#64 then 0x10000000000#64 else x
        logPrec := fun p m => if m == 0x10000000000#64 then -1#64 else p
        below2 := fun m _ => m
        below1 := fun m _ => m }
      { satB with O := infQ, C := infQ } (satFmt 8) 2 4 out0 (bytes ++ rest) = some out ∧
      ∀ p < 2 * 4, out p = 0x10000000000#64 := by
  refine C40_all_zero_lost _ { satB with O := infQ, C := infQ } (satFmt 8) rfl E1 E2 4#64 2 4 2
    false (by decide) (by decide) (by decide) (by decide) (by decide) (by decide) (by decide)
    0x10000000000#64 (-1#64) (by decide) (by decide) (by decide) ?_ (by decide) (by decide)
    (by decide) ?_ ?_ (fun h => absurd (by decide +kernel) h) ?_
  · intro x y
    show decide ((sat |x.toInt - y.toInt|).toInt ≤ (-1#64 : W).toInt) = false
    rw [sat_toInt, decide_eq_false_iff_not, not_le, show (-1#64 : W).toInt = -1 from rfl]
    have := abs_nonneg (x.toInt - y.toInt)
    omega
  · intro diff q h
    have := infQ_codes 16383 diff q h
    omega
  · intro p hp diff q h
    have : p = -1#64 := by simpa [regPrecs, satB] using hp
    subst this
    have := infQ_codes 32767 diff q h
    omega
  · exact depthOK_of_short E2 _ _ (by decide +kernel) (by decide +kernel) (by norm_num)
      (by decide +kernel)

-- `C40_stream_with_eb` on the same field.
example (E1 E2 : Env) : ∃ bytes,
    compressPwrEb toyP satB (satFmt 8) E1 E2 exField (fun _ => 4#64) 2 4 2 false = some bytes ∧
    ∀ rest out0, ∃ out, decompressPwrEb toyP satB (satFmt 8)
      (logEbs toyP exField (fun _ => 4#64)) 2 4 out0 (bytes ++ rest) = some out := by
  obtain ⟨_, bytes, -, h, -, h'⟩ := C40_stream_with_eb toyP satB (satFmt 8) rfl E1 E2 exField
    (fun _ => 4#64) 2 4 2 false (by decide) (by decide) (by decide) (by decide) (by decide)
    (fun p _ hz diff q h => by
      have h4 : logEbs toyP exField (fun _ => 4#64) p = 4#64 := by
        unfold logEbs at hz ⊢
        split
        · rename_i hc
          rw [if_pos hc] at hz
          cases hz
        · rfl
      rw [h4] at h
      have := satQ_codes 4#64 (by decide) 32768 (by norm_num) 32768 (by norm_num) diff q h
      omega)
    (depthOK_of_short E2 _ _ (by decide +kernel) (by decide +kernel) (by norm_num)
      (by decide +kernel))
  exact ⟨bytes, h, fun rest out0 => let ⟨out, ho, _⟩ := h' rest out0; ⟨out, ho⟩⟩

end CpSZ.Pwr
