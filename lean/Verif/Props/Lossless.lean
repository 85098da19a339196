import Verif.Lossless
import Verif.Props.Block
import Verif.Props.Sizes

/-!
# C69, C70: the lossless stage and the drivers with one bound per point
-/

namespace CpSZ.Lossless

open CpSZ.Block

/-! ### C69: the lossless stage -/

theorem estimate_bounds {rD : ℝ → ℝ} {u : ℝ} (hr : IsFloat rD u) (hu : u ≤ 1 / 2 ^ 52) (n : Nat)
    (hn : 100 ≤ n) :
    (n : ℝ) * (6 / 5) * (1 - 1 / 10 ^ 15) < estimate rD n + 1 ∧
      (estimate rD n : ℝ) ≤ n * (6 / 5) * (1 + 1 / 10 ^ 15) := by
  have hn' : (100 : ℝ) ≤ n := by exact_mod_cast hn
  have hu0 := hr.u_nonneg
  have h1 := abs_le.1 (hr.rel n)
  rw [abs_of_nonneg (by linarith : (0 : ℝ) ≤ n)] at h1
  have hun : u * (n : ℝ) ≤ 1 / 2 ^ 52 * n := mul_le_mul_of_nonneg_right hu (by linarith)
  have hc : (0 : ℝ) < c12 := by unfold c12; norm_num
  have h0 : 0 ≤ rD n * c12 := mul_nonneg (by norm_num at hun; linarith) hc.le
  have h2 := abs_le.1 (hr.rel (rD n * c12))
  rw [abs_of_nonneg h0] at h2
  have hun2 : u * (rD n * c12) ≤ 1 / 2 ^ 52 * (rD n * c12) := mul_le_mul_of_nonneg_right hu h0
  have hy0 : 0 ≤ rD (rD n * c12) := by norm_num at hun2 h0 ⊢; linarith
  unfold estimate
  rw [if_neg (by omega)]
  have f1 := Nat.floor_le hy0
  have f2 := Nat.lt_floor_add_one (rD (rD n * c12))
  unfold c12 at *
  norm_num at *
  constructor <;> linarith

/-- C69, capacity.  For every length below 100 or above 320 bytes the block that
`sz_lossless_compress` allocates is at least as large as `ZSTD_compressBound` asks for. -/
theorem C69_capacity {rD : ℝ → ℝ} {u : ℝ} (hr : IsFloat rD u) (hu : u ≤ 1 / 2 ^ 52) (n : Nat)
    (hn : n < 100 ∨ 320 < n) : compressBound n ≤ estimate rD n := by
  rcases hn with hn | hn
  · unfold estimate compressBound
    rw [if_pos hn, if_pos (by omega)]
    omega
  · have h := (estimate_bounds hr hu n (by omega)).1
    generalize estimate rD n = e at h
    have hb : compressBound n * 2 ^ 11 ≤ n * 2056 + (2 ^ 17 - n) ∨
        compressBound n * 2 ^ 8 ≤ n * 257 := by
      unfold compressBound
      split <;> omega
    by_cases hbig : n ≤ 10 ^ 9
    · have h5 : 6 * n - 1 < 5 * (e + 1) := by
        have hn' : (n : ℝ) ≤ 10 ^ 9 := by exact_mod_cast hbig
        have : ((6 * n : ℕ) : ℝ) - 1 < ((5 * (e + 1) : ℕ) : ℝ) := by
          push_cast
          norm_num at h ⊢
          linarith
        have : ((6 * n : ℕ) : ℝ) < ((5 * (e + 1) + 1 : ℕ) : ℝ) := by push_cast at this ⊢; linarith
        have := Nat.cast_lt.1 this
        omega
      unfold compressBound
      split <;> omega
    · have hc : compressBound n * 2 ^ 8 ≤ n * 257 := by
        unfold compressBound
        rw [if_neg (by omega)]
        omega
      have hc' : (compressBound n : ℝ) * 2 ^ 8 ≤ n * 257 := by exact_mod_cast hc
      have hn' : (10 ^ 9 : ℝ) ≤ n := by exact_mod_cast (by omega : 10 ^ 9 ≤ n)
      have : (compressBound n : ℝ) ≤ e := by
        norm_num at h hc'
        have hn'' : (1000000000 : ℝ) ≤ n := by norm_num at hn' ⊢; exact_mod_cast hn'
        linarith
      exact_mod_cast this

/-- C69, the gap.  For every length from 100 to 319 bytes the block is smaller than
`ZSTD_compressBound` asks for. -/
theorem C69_gap {rD : ℝ → ℝ} {u : ℝ} (hr : IsFloat rD u) (hu : u ≤ 1 / 2 ^ 52) (n : Nat)
    (h1 : 100 ≤ n) (h2 : n < 320) : estimate rD n < compressBound n := by
  have h := (estimate_bounds hr hu n h1).2
  generalize estimate rD n = e at h
  have h5 : 5 * e ≤ 6 * n := by
    have hn' : (n : ℝ) ≤ 320 := by exact_mod_cast h2.le
    have : ((5 * e : ℕ) : ℝ) < ((6 * n + 1 : ℕ) : ℝ) := by
      push_cast
      norm_num at h ⊢
      linarith
    have := Nat.cast_lt.1 this
    omega
  unfold compressBound
  rw [if_pos (by omega)]
  omega

theorem fresh_length (junk : Nat → Byte) (n : Nat) : (fresh junk n).length = n := by
  simp [fresh]

theorem over_take (x b : List Byte) : (over x b).take x.length = x := by
  simp [over]

theorem over_full (x b : List Byte) (h : b.length = x.length) : over x b = x := by
  simp [over, ← h]

theorem over_length (x b : List Byte) (h : x.length ≤ b.length) :
    (over x b).length = b.length := by
  simp [over]; omega

/-- C69, round trip.  Whenever `ZSTD_compress` succeeds, the two wrappers give back the buffer,
whatever was in the freshly allocated blocks. -/
theorem through_of_ok {Z : Zstd} (hZ : Contract Z) (cap : Nat → Nat) (j1 j2 : Nat → Byte)
    (data y : List Byte) (h : Z.compress 3 (cap data.length) data = .ok y) :
    through Z cap j1 j2 data = some data := by
  have hl := hZ.fits _ _ _ _ h
  unfold through losslessCompress losslessDecompress
  simp only [if_true, h]
  rw [over_length _ _ (by rw [fresh_length]; exact hl), fresh_length, if_pos hl, over_take,
    hZ.inverse _ _ _ _ h _ le_rfl]
  simp only [over_full _ _ (fresh_length j2 data.length)]

/-- **C69** If zstd keeps the promises of its manual, every buffer of fewer than 100 or more than 320
bytes passes through `sz_lossless_compress` and `sz_lossless_decompress` unchanged. -/
theorem C69_roundtrip {Z : Zstd} (hZ : Contract Z) {rD : ℝ → ℝ} {u : ℝ} (hr : IsFloat rD u)
    (hu : u ≤ 1 / 2 ^ 52) (j1 j2 : Nat → Byte) (data : List Byte)
    (hn : data.length < 100 ∨ 320 < data.length) :
    through Z (estimate rD) j1 j2 data = some data := by
  obtain ⟨y, hy⟩ := hZ.succeeds 3 _ data (C69_capacity hr hu _ hn)
  exact through_of_ok hZ _ j1 j2 data y hy

/-- C69, failures are not noticed.  If `ZSTD_compress` fails, its error code is returned as a size,
and decompressing with that size reads beyond the block. -/
theorem C69_error_unchecked {Z : Zstd} (hZ : Contract Z) (cap : Nat → Nat) (j1 j2 : Nat → Byte)
    (level : Nat) (data : List Byte) (e target : Nat) (hcap : cap data.length < 2 ^ 64 - 120)
    (h : Z.compress level (cap data.length) data = .error e) :
    ∃ buf, losslessCompress Z cap j1 ZSTD_COMPRESSOR level data = (e, some buf) ∧
      losslessDecompress Z j2 ZSTD_COMPRESSOR buf e target = none := by
  refine ⟨fresh j1 (cap data.length), ?_, ?_⟩
  · simp [losslessCompress, h]
  · have := hZ.error _ _ _ _ h
    unfold losslessDecompress
    rw [if_pos rfl, fresh_length, if_neg (by omega)]

/-- C69: the size that `sz_lossless_decompress` returns is the one it was asked for, also if zstd
reports an error or delivers fewer bytes. -/
theorem C69_size_says_nothing (Z : Zstd) (junk : Nat → Byte) (buf : List Byte)
    (cmpSize target : Nat) (s : Nat) (p : Option (List Byte))
    (h : losslessDecompress Z junk ZSTD_COMPRESSOR buf cmpSize target = some (s, p)) :
    s = target ∧ (∀ e, Z.decompress target (buf.take cmpSize) = .error e →
      p = some (fresh junk target)) := by
  unfold losslessDecompress at h
  rw [if_pos rfl] at h
  split at h
  · split at h
    · rename_i x hx
      cases h
      exact ⟨rfl, fun e he => by rw [hx] at he; cases he⟩
    · cases h
      exact ⟨rfl, fun _ _ => rfl⟩
  · cases h

/-- C69: `sz_lossless_decompress65536bytes` returns a buffer of at most 65536 bytes followed by
zeros. -/
theorem C69_first_bytes {Z : Zstd} (hZ : Contract Z) (cap : Nat → Nat) (j1 : Nat → Byte)
    (level : Nat) (data y : List Byte) (hlen : data.length ≤ 65536)
    (h : Z.compress level (cap data.length) data = .ok y) :
    ∃ buf, losslessCompress Z cap j1 ZSTD_COMPRESSOR level data = (y.length, some buf) ∧
      losslessDecompress64k Z ZSTD_COMPRESSOR buf y.length =
        some (65536, some (data ++ List.replicate (65536 - data.length) 0)) := by
  refine ⟨over y (fresh j1 (cap data.length)), by simp [losslessCompress, h], ?_⟩
  have hl := hZ.fits _ _ _ _ h
  unfold losslessDecompress64k
  rw [if_pos rfl, over_length _ _ (by rw [fresh_length]; exact hl), fresh_length, if_pos hl,
    over_take, hZ.inverse _ _ _ _ h _ hlen]
  have hrep : ∀ m k : Nat, (fresh (fun _ => 0) m).drop k = List.replicate (m - k) 0 := by
    intro m k
    simp [fresh, List.map_const']
  simp only [over, hrep]

/-- A compressor that stores the buffer behind a header byte but insists on the documented
capacity. -/
def strict : Zstd where
  compress _ cap x := if compressBound x.length ≤ cap then .ok (0x28 :: x) else .error (2 ^ 64 - 70)
  decompress cap y := match y with
    | [] => .error (2 ^ 64 - 72)
    | _ :: x => if x.length ≤ cap then .ok x else .error (2 ^ 64 - 70)

theorem strict_contract : Contract strict where
  fits l cap x y h := by
    simp only [strict] at h
    split at h
    · rename_i hc
      cases h
      rw [List.length_cons]
      unfold compressBound at hc
      split at hc <;> omega
    · cases h
  succeeds l cap x h := ⟨0x28 :: x, by simp only [strict, if_pos h]⟩
  inverse l cap x y h cap' hc := by
    simp only [strict] at h
    split at h
    · cases h
      simp only [strict, if_pos hc]
    · cases h
  dfits cap x y h := by
    simp only [strict] at h
    split at h
    · cases h
    · split at h
      · cases h; assumption
      · cases h
  error l cap x e h := by
    simp only [strict] at h
    split at h
    · cases h
    · cases h; omega

/-- C69: between 100 and 319 bytes the promises of the manual do not suffice: some compressor that
keeps them fails on every such buffer, and the drivers go on with the error code. -/
theorem C69_gap_witness : ∃ Z, Contract Z ∧ ∀ (rD : ℝ → ℝ) (u : ℝ), IsFloat rD u → u ≤ 1 / 2 ^ 52 →
    ∀ (j1 j2 : Nat → Byte) (data : List Byte), 100 ≤ data.length → data.length < 320 →
      through Z (estimate rD) j1 j2 data = none := by
  refine ⟨strict, strict_contract, fun rD u hr hu j1 j2 data h1 h2 => ?_⟩
  have hg := C69_gap hr hu _ h1 h2
  have hb : compressBound data.length < 2 ^ 64 - 120 := by
    unfold compressBound; split <;> omega
  obtain ⟨buf, hc, hd⟩ := C69_error_unchecked strict_contract (estimate rD) j1 j2 3 data
    (2 ^ 64 - 70) data.length (by omega) (by simp only [strict, if_neg (not_le.2 hg)])
  unfold through
  rw [hc]
  simp only
  rw [hd]

-- A buffer of 1000 bytes meets the hypotheses of `C69_roundtrip`.
example (j1 j2 : Nat → Byte) :
    through strict (estimate id) j1 j2 (List.replicate 1000 7) = some (List.replicate 1000 7) :=
  C69_roundtrip strict_contract IsFloat.id (by norm_num) j1 j2 _
    (Or.inr (by rw [List.length_replicate]; omega))

-- `double` rounding is covered.
example (n : Nat) (hn : 320 < n) : compressBound n ≤ estimate (fl nearest 53) n :=
  C69_capacity (fl_isFloat nearest_isNearest.toIsIntRounding (by norm_num)) (by norm_num) n
    (Or.inr hn)

/-! ### C70: the drivers' own checks never fire -/

variable {T F D : Type}

/-- **C70** For any arithmetic in which distances are symmetric, `x > p` excludes `x <= p`, and the
distance of a value to itself does not exceed its bound: if the stream passes the lossless stage, `main`
of test/sz_compress_2d_with_eb.cpp runs to its end and never reports a violated bound. -/
theorem C70_check_silent (B : BOps T F D) (f : Fmt T F D) (hskip : f.skip = f.cT.size)
    (gt : D → D → Bool) (hgt : ∀ x p, B.O.le x p = true → gt x p = false)
    (hsym : ∀ a b, B.O.dist a b = B.O.dist b a)
    (Z : Zstd) (hZ : Contract Z) (cap : Nat → Nat) (j1 j2 : Nat → Byte)
    (E1 E2 : Env) (data : Nat → T) (prec : Nat → D) (r1 r2 : Nat)
    (hself : ∀ p < r1 * r2, gt (B.O.dist (data p) (data p)) (prec p) = false)
    (h1 : 0 < r1) (h2 : 0 < r2) (hn : r1 * r2 < 2 ^ 58)
    (hcode : ∀ p < r1 * r2, B.isZero (prec p) = false → ∀ diff q,
      linQuant B.O.toDOps diff (prec p) 65536 32768 = some q → 0 < q ∧ q < 65536)
    (hd : DepthOK E2 131072 (outEb2 B data prec r1 r2 12).ty)
    (hz : ∀ bytes, compressEb2 B f E1 E2 data prec r1 r2 12 false = some bytes →
      compressBound bytes.length ≤ cap bytes.length) (out0 : Nat → T) :
    driverEb2 B f gt Z cap j1 j2 E1 E2 data prec r1 r2 out0 = some .ok := by
  obtain ⟨bytes, hc, hdec⟩ := C31_roundtrip B f hskip E1 E2 data prec r1 r2 12 false h1 h2
    (by norm_num) (by norm_num) hn hcode hd
  obtain ⟨y, hy⟩ := hZ.succeeds 3 _ _ (hz bytes hc)
  obtain ⟨out, ho, ha⟩ := hdec [] out0
  rw [List.append_nil] at ho
  unfold driverEb2
  rw [hc]
  simp only [Option.bind_eq_bind, Option.bind_some, through_of_ok hZ _ j1 j2 bytes y hy, ho]
  refine congrArg some (check_ok fun i hi => ?_)
  rcases (ha i hi).2 with h | h
  · rw [h]; exact hself i hi
  · rw [hsym]; exact hgt _ _ h

/-- The three conditions of `C70_check_silent` hold under rounding to nearest, or any odd rounding,
for bounds that are not negative. -/
theorem C70_conditions_rounded (rT rF rD lg : ℝ → ℝ) (h0 : rT 0 = 0) (hodd : ∀ x, rT (-x) = -rT x) :
    let B := roundedB rT rF rD lg
    (∀ x p : ℝ, B.O.le x p = true → decide (p < x) = false) ∧
    (∀ a b, B.O.dist a b = B.O.dist b a) ∧
    (∀ a p : ℝ, 0 ≤ p → decide (p < B.O.dist a a) = false) := by
  refine ⟨fun x p h => ?_, fun a b => ?_, fun a p hp => ?_⟩
  · have : x ≤ p := of_decide_eq_true h
    simpa using this
  · show |rT (a - b)| = |rT (b - a)|
    rw [show a - b = -(b - a) by ring, hodd, abs_neg]
  · show decide (p < |rT (a - a)|) = false
    simpa [h0] using hp

theorem ebQuant_le (base : Int) (hb : 2 ≤ base) (thr eb : ℝ) (ht : 0 < thr) (he : 0 ≤ eb) :
    0 ≤ (ebQuant realD base (Real.logb 2 base) thr eb).1 ∧
      (ebQuant realD base (Real.logb 2 base) thr eb).1 ≤ eb := by
  obtain ⟨-, -, h3, h4⟩ := ebQuant_spec base hb thr eb ht
  rcases le_or_gt eb thr with h | h
  · rw [h4 h]
    exact ⟨le_rfl, he⟩
  · obtain ⟨e, hle, -⟩ := h3 h
    refine ⟨?_, hle⟩
    rw [e]
    exact mul_nonneg (zpow_nonneg (by exact_mod_cast (by omega : 0 ≤ base)) _) ht.le

/-- C70 with quantised bounds (`quantize_eb`), in exact arithmetic: the decompressed field respects the
bounds the user gave, not only the quantised ones it is compared with. -/
theorem C70_quantised_bounds (data eb : Nat → ℝ) (thr : ℝ) (ht : 0 < thr) (r1 r2 : Nat)
    (h1 : 0 < r1) (h2 : 0 < r2) (hp : ∀ p < r1 * r2, 0 ≤ eb p) (out0 : Nat → ℝ) :
    let prec := quantEbs realD 1 thr eb
    ∃ d, runDec (cfg2 realB r2 12 (false, 0) 32768 prec true (1 / 10)
        (fun _ _ _ _ => none)) (planD2 r1 r2 12)
        ⟨fun _ => 0, none, (outEb2 realB data prec r1 r2 12).ind,
          (outEb2 realB data prec r1 r2 12).coefs, (outEb2 realB data prec r1 r2 12).ty,
          (outEb2 realB data prec r1 r2 12).un, out0⟩ = some d ∧
      ∀ p < r1 * r2, |d.out p - data p| ≤ prec p ∧ |d.out p - data p| ≤ eb p := by
  intro prec
  have hl : Real.logb 2 ((2 : ℤ) : ℝ) = 1 := by
    push_cast
    exact Real.logb_self_eq_one (by norm_num)
  have hq : ∀ p < r1 * r2, 0 ≤ prec p ∧ prec p ≤ eb p := by
    intro p hp'
    have := ebQuant_le 2 le_rfl thr (eb p) ht (hp p hp')
    rw [hl] at this
    exact this
  obtain ⟨d, hd, ha⟩ := C31_exact data prec r1 r2 12 h1 h2 (by norm_num)
    (fun p hp' => (hq p hp').1) out0
  exact ⟨d, hd, fun p hp' => ⟨ha p hp', (ha p hp').trans (hq p hp').2⟩⟩

theorem relBound_spec (inc : Int) (hinc : 2 ≤ inc) (thr rel x : ℝ) (ht : 0 < thr) :
    let p := relBound realD (Real.logb 2 inc) thr inc rel x
    0 ≤ p ∧ (rel * |x| < thr → p = 0) ∧ (thr ≤ rel * |x| → thr ≤ p ∧ p ≤ rel * |x|) := by
  have hi1 : (1 : ℝ) < inc := by exact_mod_cast (by omega : 1 < inc)
  intro p
  by_cases h : rel * |x| < thr
  · have hp : p = 0 := by
      show relBound realD (Real.logb 2 inc) thr inc rel x = 0
      simp [relBound, realD, h]
    exact ⟨hp.ge, fun _ => hp, fun h' => by linarith⟩
  · push Not at h
    have hd : 1 ≤ rel * |x| / thr := by rwa [le_div_iff₀ ht, one_mul]
    have hlg : 0 ≤ Real.logb 2 (rel * |x| / thr) / Real.logb 2 inc :=
      div_nonneg (Real.logb_nonneg (by norm_num) hd) (Real.logb_nonneg (by norm_num) hi1.le)
    set id := truncR (Real.logb 2 (rel * |x| / thr) / Real.logb 2 inc) with hid
    have hidf : id = ⌊Real.logb 2 (rel * |x| / thr) / Real.logb 2 inc⌋ := truncR_nonneg hlg
    have hid0 : 0 ≤ id := by rw [hidf]; exact Int.floor_nonneg.2 hlg
    set k := if 255 < id then 255 else id with hk
    have hk0 : 0 ≤ k := by rw [hk]; split <;> omega
    have hki : k ≤ id := by rw [hk]; split <;> omega
    have hp : p = (inc : ℝ) ^ k * thr := by
      show relBound realD (Real.logb 2 inc) thr inc rel x = _
      simp only [relBound, realD, not_lt.2 h, decide_false, Bool.false_eq_true, if_false, ← hid,
        ← hk]
    have hk1 : (1 : ℝ) ≤ (inc : ℝ) ^ k := one_le_zpow₀ hi1.le hk0
    have hthr : thr ≤ p := by
      rw [hp]
      exact le_mul_of_one_le_left ht.le hk1
    refine ⟨by linarith, fun h' => by linarith, fun _ => ⟨hthr, ?_⟩⟩
    have hle : (id : ℝ) ≤ Real.logb 2 (rel * |x| / thr) / Real.logb 2 inc := by
      rw [hidf]; exact Int.floor_le _
    have hbase : Real.logb 2 (rel * |x| / thr) / Real.logb 2 inc =
        Real.logb inc (rel * |x| / thr) := by
      rw [Real.logb, Real.logb, Real.logb,
        div_div_div_cancel_right₀ (Real.log_pos (by norm_num : (1 : ℝ) < 2)).ne']
    rw [hbase] at hle
    have : (inc : ℝ) ^ k ≤ rel * |x| / thr := by
      calc (inc : ℝ) ^ k ≤ (inc : ℝ) ^ id := zpow_le_zpow_right₀ hi1.le hki
        _ = (inc : ℝ) ^ (id : ℝ) := (Real.rpow_intCast _ _).symm
        _ ≤ (inc : ℝ) ^ Real.logb inc (rel * |x| / thr) :=
          Real.rpow_le_rpow_of_exponent_le hi1.le hle
        _ = _ := Real.rpow_logb (by linarith) hi1.ne' (by linarith)
    rw [hp]
    rwa [le_div_iff₀ ht] at this

/-- C70 for test/sz_compress_test_with_eb.cpp, in exact arithmetic: with the bounds derived there from
relative ones the codec returns every value that is too small for a positive bound unchanged, and the
comparison of the relative error at the end never fires. -/
theorem C70_relative_check_silent (data rel : Nat → ℝ) (thr : ℝ) (ht : 0 < thr) (inc : Int)
    (hinc : 2 ≤ inc) (r1 r2 : Nat) (h1 : 0 < r1) (h2 : 0 < r2) (out0 : Nat → ℝ) :
    let prec := fun i => relBound realD (Real.logb 2 inc) thr inc (rel i) (data i)
    ∃ d, runDec (cfg2 realB r2 12 (false, 0) 32768 prec true (1 / 10)
        (fun _ _ _ _ => none)) (planD2 r1 r2 12)
        ⟨fun _ => 0, none, (outEb2 realB data prec r1 r2 12).ind,
          (outEb2 realB data prec r1 r2 12).coefs, (outEb2 realB data prec r1 r2 12).ty,
          (outEb2 realB data prec r1 r2 12).un, out0⟩ = some d ∧
      (∀ p < r1 * r2, rel p * |data p| < thr → d.out p = data p) ∧
      check (fun i => relBad realD (prec i) (rel i) (data i) (d.out i)) (r1 * r2) = .ok := by
  intro prec
  have hs := fun p => relBound_spec inc hinc thr (rel p) (data p) ht
  obtain ⟨d, hd, ha⟩ := C31_exact data prec r1 r2 12 h1 h2 (by norm_num)
    (fun p _ => (hs p).1) out0
  refine ⟨d, hd, fun p hp hlt => ?_, check_ok fun i hi => ?_⟩
  · have := ha p hp
    rw [show prec p = 0 from (hs p).2.1 hlt] at this
    exact sub_eq_zero.1 (abs_eq_zero.1 (le_antisymm this (abs_nonneg _)))
  · have h := ha i hi
    rcases lt_or_ge (rel i * |data i|) thr with hlt | hge
    · have h0 : prec i = 0 := (hs i).2.1 hlt
      simp [relBad, realD, h0]
    · have hle := h.trans ((hs i).2.2 hge).2
      have hx : 0 < |data i| := by
        rcases (abs_nonneg (data i)).lt_or_eq with hx | hx
        · exact hx
        · rw [← hx, mul_zero] at hge; linarith
      have : ¬ rel i < |(d.out i - data i) / data i| := by
        rw [not_lt, abs_div, div_le_iff₀ hx]
        exact hle
      simp [relBad, realD, this]

/-- C70: the scratch block of `quantize_and_compress_eb` has `4*n` bytes; for at most four elements the
entropy coder writes beyond its end whenever it returns. -/
theorem C70_scratch_overrun (O : DOps D) (E : Env) (log2of2 thr : D) (eb : Nat → D) (n : Nat)
    (hn : n ≤ 4) (b : List Byte) (h : quantEbBytes O E log2of2 thr eb n = some b) :
    4 * n < b.length := by
  have := encInts_length E _ _ b h
  omega

/-! ### Instances -/

theorem toy_depth (E2 : Env) (data : Nat → W) :
    DepthOK E2 131072 (outEb2 satB data exPrec 3 4 12).ty := by
  have hty : (outEb2 satB data exPrec 3 4 12).ty.length = 12 := rfl
  refine depthOK_of_short E2 131072 _ ?_ (by rw [hty]; omega) (by norm_num) ?_
  · intro h
    rw [h] at hty
    cases hty
  · intro t ht
    have hG : Good (cfg2 satB 4 12 (false, satB.zeroT) 32768 exPrec true satB.tenth
        (fun _ _ _ _ => none)) (fun _ => True) := by
      refine ⟨fun p _ hz d q h => ?_, fun p _ hz d q h => ?_, by decide, ?_, by decide, ?_⟩
      · have := exPrec_codes p (by simpa [cfg2] using hz) d q h
        refine ⟨this.1, ?_, fun h => by simp [cfg2] at h⟩
        show q < 2 * ((32768 : Nat) : Int)
        omega
      · have := exPrec_codes p (by simpa [cfg2] using hz) d q h
        refine ⟨this.1, ?_⟩
        show q < 2 * ((32768 : Nat) : Int)
        omega
      · rintro ⟨_, _, _, _, _, h⟩
        cases h
      · intro _ _ _ _ _ h
        cases h
    have := (runEnc_codes _ _ hG data (planC2 3 4 12) (fun _ _ => trivial) (initSt satB 3)).1 t ht
    have h2 : t < 2 * ((32768 : Nat) : Int) := this.2
    refine ⟨this.1, ?_⟩
    push_cast
    omega

-- The driver on a 3 x 4 grid with mixed bounds, any data and a compressor that insists on the
-- documented capacity.
example (E1 E2 : Env) (j1 j2 : Nat → Byte) (data out0 : Nat → W) :
    driverEb2 satB (satFmt 8) (fun x p => decide (p.toInt < x.toInt)) strict compressBound j1 j2
      E1 E2 data exPrec 3 4 out0 = some .ok := by
  refine C70_check_silent satB (satFmt 8) rfl _ (fun x p h => ?_) (fun a b => ?_) strict
    strict_contract compressBound j1 j2 E1 E2 data exPrec 3 4 (fun p _ => ?_) (by decide) (by decide)
    (by decide) (fun p _ => exPrec_codes p) (toy_depth E2 data) (fun _ _ => le_rfl) out0
  · have : x.toInt ≤ p.toInt := of_decide_eq_true h
    exact decide_eq_false (by omega)
  · show sat |a.toInt - b.toInt| = sat |b.toInt - a.toInt|
    rw [abs_sub_comm]
  · have h1 : satB.O.dist (data p) (data p) = 0#64 := by
      show sat |(data p).toInt - (data p).toInt| = 0#64
      rw [sub_self, abs_zero]
      rfl
    rw [h1]
    unfold exPrec
    split <;> decide

-- The final loop does stop at a violation.
example : check (fun i => decide (3 < i)) 6 = .violated 4 := by decide +kernel

-- Bounds of two elements: the coder returns, and writes more than 8 bytes.
example (E : Env) : ∃ b, quantEbBytes satB.O.toDOps E 1#64 2#64 (fun i => BitVec.ofNat 64 (5 + 2 * i)) 2
    = some b ∧ 4 * 2 < b.length := by
  have h1 : ((List.range 2).map fun i => (ebQuant satB.O.toDOps 2 1#64 2#64
      (BitVec.ofNat 64 (5 + 2 * i))).2) = [2, 3] := by decide +kernel
  obtain ⟨b, hb, -⟩ := ints_roundtrip E (2 * 1024) [2, 3]
    (fits_of_short _ _ _ (by decide) (by decide) (by decide) (by decide))
  have : quantEbBytes satB.O.toDOps E 1#64 2#64 (fun i => BitVec.ofNat 64 (5 + 2 * i)) 2 =
      some b := by
    unfold quantEbBytes
    rw [h1]
    exact hb
  exact ⟨b, this, C70_scratch_overrun _ _ _ _ _ _ (by decide) b this⟩

end CpSZ.Lossless
