import Verif.VMode.Log2D
import Verif.Toy
/-
Properties C18, C19 (2D online compressor in the logarithmic domain).
-/

namespace CpSZ.VMode
open Mesh2D

section lockstep
variable {T D : Type}

/-- A vertex with a nonzero bound code has two nonzero components. -/
theorem coded_nonzero (L : LOps T D) (logBase thr : D) (r2 : Nat) (base radius : Int)
    (bound : Online2D.Field T → Nat → Option D) (n : Nat) (data : Arr T) (s' : State T)
    (str : Streams T)
    (h : compress (mode2 L logBase thr r2 base radius) (plan2 L bound) n data = some (s', str))
    (q : Nat) (e : Int) (he : str.eb[q]? = some e) (h0 : e ≠ 0) (hq : q < n) :
    L.isZero (data 0 q) = false ∧ L.isZero (data 1 q) = false := by
  obtain ⟨st, ws, R, rfl, rfl⟩ := compress_run _ _ _ _ _ _ h
  obtain ⟨w, hw⟩ := R.get hq
  have hs := R.step q w hw
  simp only [eb_get, hw, Option.map_some, Option.some.injEq] at he
  have l0 := (R.later q (by omega) 0 q (le_refl q)).2
  have l1 := (R.later q (by omega) 1 q (le_refl q)).2
  rcases encVertex_cases _ _ _ _ _ _ hs with ⟨id, -, rfl, h2⟩ | ⟨e', qs, rfl, ⟨a, id, rs, hp, -⟩⟩
  · simp only [VCode.id] at he
    subst he
    rcases h2 with h2 | ⟨a, h2⟩
    · rcases plan2_cases L bound _ _ _ h2 with hh | ⟨_, _, _, _, _, hh⟩
      · cases hh; exact absurd rfl h0
      · cases hh
    · rcases plan2_cases L bound _ _ _ h2 with hh | ⟨_, _, _, _, _, hh⟩
      · cases hh
      · cases hh; exact absurd rfl h0
  · rcases plan2_cases L bound _ _ _ hp with hh | ⟨_, -, -, z0, z1, -⟩
    · cases hh
    · rw [l0] at z0; rw [l1] at z1; exact ⟨z0, z1⟩

/-- C18.  For any arithmetic, any bound computation and any field on a nonempty grid: the
decompressor returns the compressor's reconstruction (from the bytes, followed by anything,
and for any previous contents of the output arrays), provided no reconstructed logarithm is
below -99. -/
theorem C18_log_roundtrip (L : LOps T D) (HL : LogLaws L) (c : Codec T) (E1 E2 : Env)
    (logBase thr : D) (r1 r2 : Nat) (base radius : Int)
    (bound : Online2D.Field T → Nat → Option D) (m : Online2D.Field T) (s' : State T)
    (str : Streams T)
    (h : compress (mode2 L logBase thr r2 base radius) (plan2 L bound) (r1 * r2) (arr2 m) =
      some (s', str))
    (hn : 0 < r1 * r2) (hb : 0 ≤ base ∧ base < 2 ^ 31) (hr : 0 ≤ radius ∧ radius < 2 ^ 31)
    (f1 : Fits E1 (2 * 1024) str.eb) (f2 : Fits E2 (2 * (2 * radius).toNat) str.dq)
    (hun : str.un.length < 2 ^ 64)
    (hsmall : ∀ c q, c < 2 → q < r1 * r2 → L.isZero (m.u q) = false → L.isZero (m.v q) = false →
      L.ltM99 (s'.cod c q) = false) :
    ∃ bs, compressBytes L c E1 E2 (2 * 1024) false (mode2 L logBase thr r2) base radius
        (plan2 L bound) (r1 * r2) (arr2 m) = some (s'.val, bs) ∧
      ∀ rest m0, ∃ d, decompressBytes L c (2 * 1024) false 2 (mode2 L logBase thr r2) (r1 * r2)
          m0 (bs ++ rest) = some d ∧
        ∀ c q, c < 2 → q < r1 * r2 → d c q = s'.val c q :=
  log_roundtrip L HL c E1 E2 _ false (mode2 L logBase thr r2) base radius (plan2 L bound) _ _
    (good2 L HL logBase thr r2 base radius bound _) rfl (fun _ => rfl) hn hb hr s' str h f1 f2 hun
    (fun c q e hc hq he hne => by
      have h0 : e ≠ 0 := by simpa [mode2] using hne
      obtain ⟨z0, z1⟩ := coded_nonzero L logBase thr r2 base radius bound _ _ s' str h q e he h0 hq
      exact hsmall c q hc hq z0 z1)

/-- C18, second part.  For any arithmetic, both components of a vertex at which either is
zero are reconstructed exactly. -/
theorem C18_zero_exact (L : LOps T D) (logBase thr : D) (r2 : Nat) (base radius : Int)
    (bound : Online2D.Field T → Nat → Option D) (n : Nat) (m : Online2D.Field T) (s' : State T)
    (str : Streams T)
    (h : compress (mode2 L logBase thr r2 base radius) (plan2 L bound) n (arr2 m) = some (s', str))
    (q : Nat) (hq : q < n) (hz : L.isZero (m.u q) = true ∨ L.isZero (m.v q) = true) :
    s'.val 0 q = m.u q ∧ s'.val 1 q = m.v q ∧ str.eb[q]? = some 0 := by
  have h' := h
  obtain ⟨st, ws, R, rfl, rfl⟩ := compress_run _ _ _ _ _ _ h
  obtain ⟨w, hw⟩ := R.get hq
  have hid : w.id = 0 := by
    by_contra hne
    obtain ⟨z0, z1⟩ := coded_nonzero L logBase thr r2 base radius bound n (arr2 m) _ _ h' q w.id
      (by simp [eb_get, hw]) hne hq
    rcases hz with hz | hz
    · have : L.isZero (m.u q) = false := z0
      rw [hz] at this; cases this
    · have : L.isZero (m.v q) = false := z1
      rw [hz] at this; cases this
  cases w with
  | esc id xs =>
    obtain ⟨-, e⟩ := R.esc_final hw hq
    exact ⟨(e 0).2, (e 1).2, by simp [eb_get, hw, hid]⟩
  | coded e qs =>
    have hs := R.step q _ hw
    rcases encVertex_cases _ _ _ _ _ _ hs with ⟨id, -, h2, -⟩ | ⟨e', qs', h2, ⟨_, _, _, _, _, hp, -⟩⟩
    · cases h2
    · simp only [VCode.coded.injEq] at h2
      simp only [VCode.id] at hid
      omega

end lockstep

/-- The decoded field of the 2D log mode in exact arithmetic. -/
theorem decompressLog_eq (r1 r2 : Nat) (maxEb : ℝ) (h0 : 0 ≤ maxEb) (h1 : maxEb ≤ 1)
    (m : Online2D.Field ℝ) (s' : State ℝ) (str : Streams ℝ) (m0 : Arr ℝ)
    (h : compressLog r1 r2 maxEb m = some (s', str))
    (hm : ∀ c q, c < 2 → q < r1 * r2 → arr2 m c q = 0 ∨ (2 : ℝ) ^ (-98 : ℤ) ≤ |arr2 m c q|) :
    ∃ d, decompressLog r1 r2 (signMaps realL 2 (r1 * r2) (arr2 m)) m0 str = some d ∧
      ∀ c q, c < 2 → q < r1 * r2 → d c q = s'.val c q := by
  have hI := logInv_final r1 r2 maxEb m s' str h
  refine lockstep (realMode2 r2) _ _ (good2 realL realL_laws _ _ r2 2 32768 _ _) _ _ m0 s' str h ?_
  intro c q e hc hq he hne
  have hc : c < 2 := hc
  have h0' : e ≠ 0 := by simpa [realMode2, mode2] using hne
  obtain ⟨z0, z1⟩ := coded_nonzero realL _ _ r2 2 32768 _ _ _ s' str h q e he h0' hq
  have hz : arr2 m c q ≠ 0 := by
    have : c = 0 ∨ c = 1 := by omega
    rcases this with rfl | rfl
    · exact of_decide_eq_false z0
    · exact of_decide_eq_false z1
  refine logFin_eq realL_laws _ _ _ _ _ (mapAt_signMaps realL _ _ _ _ _ hc hq)
    (cod_large h0 h1 hI c q hc ?_)
  rcases hm c q hc hq with h | h
  · exact absurd h hz
  · exact h

/-- C19.  In exact arithmetic, for bounds at most 1 and values that are zero or at least
`2^-98` in magnitude, the decompressed field has critical points in exactly the same
triangles as the input, and in every such triangle the same type. -/
theorem C19_critical_points_and_types (r1 r2 : Nat) (maxEb : ℝ) (h0 : 0 ≤ maxEb)
    (h1 : maxEb ≤ 1) (m : Online2D.Field ℝ) (s' : State ℝ) (str : Streams ℝ) (m0 d : Arr ℝ)
    (h : compressLog r1 r2 maxEb m = some (s', str))
    (hm : ∀ q, q < r1 * r2 → (m.u q = 0 ∨ (2 : ℝ) ^ (-98 : ℤ) ≤ |m.u q|) ∧
      (m.v q = 0 ∨ (2 : ℝ) ^ (-98 : ℤ) ≤ |m.v q|))
    (hd : decompressLog r1 r2 (signMaps realL 2 (r1 * r2) (arr2 m)) m0 str = some d)
    (t : Tri) (ht : t.inGrid r1 r2) :
    (t.hasCP r2 ⟨d 0, d 1⟩ ↔ t.hasCP r2 m) ∧
    (t.hasCP r2 m → ∃ J J', t.isJac r2 m J ∧ t.isJac r2 ⟨d 0, d 1⟩ J' ∧ cpType J = cpType J' ∧
      SignType.sign J.det = SignType.sign J'.det ∧
      SignType.sign J.disc = SignType.sign J'.disc ∧
      (0 < J.det → SignType.sign J.tr = SignType.sign J'.tr)) := by
  obtain ⟨d', hd', hA⟩ := decompressLog_eq r1 r2 maxEb h0 h1 m s' str m0 h (fun c q hc hq => by
    have : c = 0 ∨ c = 1 := by omega
    rcases this with rfl | rfl
    · exact (hm q hq).1
    · exact (hm q hq).2)
  obtain rfl : d' = d := Option.some.inj (hd'.symm.trans hd)
  have hI := logInv_final r1 r2 maxEb m s' str h
  have hcg := Online2D.tri_congr ht (f := ⟨d' 0, d' 1⟩) (g := field2 s'.val)
    (fun q hq => ⟨hA 0 q (by omega) hq, hA 1 q (by omega) hq⟩)
  obtain ⟨a1, a2⟩ := hI.tri t ht
  refine ⟨hcg.1.trans a1.symm, fun hcp => ?_⟩
  obtain ⟨J, hJ⟩ := exists_isJac r1 r2 t ht m
  obtain ⟨J', hJ'⟩ := exists_isJac r1 r2 t ht (field2 s'.val)
  obtain ⟨s1, s2, s3, s4⟩ := a2 hcp J J' hJ hJ'
  exact ⟨J, J', hJ, (hcg.2 J').2 hJ', s4, s1, s2, s3⟩

/-- C19, second part.  Every decompressed value equals the input or has the same sign and
differs by less than its magnitude times the bound. -/
theorem C19_sign_and_error (r1 r2 : Nat) (maxEb : ℝ) (h0 : 0 ≤ maxEb)
    (h1 : maxEb ≤ 1) (m : Online2D.Field ℝ) (s' : State ℝ) (str : Streams ℝ) (m0 d : Arr ℝ)
    (h : compressLog r1 r2 maxEb m = some (s', str))
    (hm : ∀ q, q < r1 * r2 → (m.u q = 0 ∨ (2 : ℝ) ^ (-98 : ℤ) ≤ |m.u q|) ∧
      (m.v q = 0 ∨ (2 : ℝ) ^ (-98 : ℤ) ≤ |m.v q|))
    (hd : decompressLog r1 r2 (signMaps realL 2 (r1 * r2) (arr2 m)) m0 str = some d)
    (q : Nat) (hq : q < r1 * r2) :
    (SignType.sign (d 0 q) = SignType.sign (m.u q) ∧
      (d 0 q = m.u q ∨ |d 0 q - m.u q| < |m.u q| * maxEb)) ∧
    (SignType.sign (d 1 q) = SignType.sign (m.v q) ∧
      (d 1 q = m.v q ∨ |d 1 q - m.v q| < |m.v q| * maxEb)) := by
  obtain ⟨d', hd', hA⟩ := decompressLog_eq r1 r2 maxEb h0 h1 m s' str m0 h (fun c q hc hq => by
    have : c = 0 ∨ c = 1 := by omega
    rcases this with rfl | rfl
    · exact (hm q hq).1
    · exact (hm q hq).2)
  obtain rfl : d' = d := Option.some.inj (hd'.symm.trans hd)
  have hI := logInv_final r1 r2 maxEb m s' str h
  have key : ∀ c, c < 2 → SignType.sign (d' c q) = SignType.sign (arr2 m c q) ∧
      (d' c q = arr2 m c q ∨ |d' c q - arr2 m c q| < |arr2 m c q| * maxEb) := by
    intro c hc
    rw [hA c q hc hq]
    rcases hI.err c q hc with e | ⟨e1, e2⟩
    · exact ⟨by rw [e], Or.inl e⟩
    · exact ⟨(Online2D.sign_eq_of_mul_pos e2).symm, Or.inr e1⟩
  exact ⟨key 0 (by omega), key 1 (by omega)⟩

/-- C18, limit of the claim: without the restriction on small values the round trip fails.
A single vertex with components `2^-100` (a normal `float`) is coded, the compressor's
reconstruction is `2^-100`, the decompressed value is 0. -/
theorem C18_small_values_lost :
    ∃ s' str d, compressLog 1 1 1 ⟨fun _ => 2 ^ (-100 : ℤ), fun _ => 2 ^ (-100 : ℤ)⟩ =
        some (s', str) ∧
      decompressLog 1 1 (signMaps realL 2 1 (arr2 ⟨fun _ => 2 ^ (-100 : ℤ), fun _ => 2 ^ (-100 : ℤ)⟩))
        (fun _ _ => 0) str = some d ∧
      s'.val 0 0 ≠ 0 ∧ d 0 0 = 0 := by
  have hpos : (0 : ℝ) < 2 ^ (-100 : ℤ) := by positivity
  have hlog : Real.logb 2 (2 ^ (-100 : ℤ)) = -100 := by
    rw [← Real.rpow_intCast, Real.logb_rpow (by norm_num) (by norm_num)]; norm_num
  have hb : Online2D.boundOnline 1 1 1 ⟨fun _ => 2 ^ (-100 : ℤ), fun _ => 2 ^ (-100 : ℤ)⟩ 0 =
      some 1 := by
    simp [Online2D.boundOnline, requiredEb, requiredLoop, inMesh, inRange, di, dj, tab, tx, ty]
  have hq : ebQuant realD 2 (Real.logb 2 2) (1 / 2 ^ 23) 1 = (1, 23) := by
    have h1 : Real.logb 2 (2 ^ 23) = 23 := by rw [Real.logb_pow]; simp
    have h2 : truncR 23 = 23 := by
      rw [truncR_nonneg (by norm_num)]; norm_num
    unfold ebQuant
    simp only [realD]
    norm_num
    norm_num at h1
    rw [h1, h2]
    norm_num
  have hlt : logFwd realL (2 ^ (-100 : ℤ)) = -100 := by
    rw [logFwd_real hpos.ne', abs_of_pos hpos, hlog]
  have hlin : linQuant realD (-100) 1 65536 32768 = some 32718 := by
    have h2 : truncR (-(101 / 2)) = -50 := by
      rw [truncR_neg, truncR_nonneg (by norm_num)]; norm_num
    unfold linQuant
    simp only [realD]
    norm_num
    rw [h2]
    norm_num
  set m : Online2D.Field ℝ := ⟨fun _ => 2 ^ (-100 : ℤ), fun _ => 2 ^ (-100 : ℤ)⟩ with hm
  have hcod : ∀ c q, (initState (realMode2 1) (arr2 m)).cod c q = -100 := by
    intro c q
    have : arr2 m c q = 2 ^ (-100 : ℤ) := by simp [arr2, hm]
    simp only [initState, this]
    exact hlt
  have hval : ∀ c q, (initState (realMode2 1) (arr2 m)).val c q = 2 ^ (-100 : ℤ) := by
    intro c q; simp [initState, arr2, hm]
  have hplan : plan2 realL (Online2D.boundOnline 1 1 1) (initState (realMode2 1) (arr2 m)) 0 =
      some (.try 1 0) := by
    have hf : field2 (initState (realMode2 1) (arr2 m)).val = m := rfl
    unfold plan2
    rw [hf, hb]
    simp only [hval]
    have : realL.isZero (2 ^ (-100 : ℤ)) = false := decide_eq_false hpos.ne'
    rw [this]
    simp only [realL, realOps, realD]
    norm_num
  have hcomp : ∀ c, encComp (realMode2 1) ((initState (realMode2 1) (arr2 m)).cod c) 0 1 =
      some (32718, -100) := by
    intro c
    have h0 : (realMode2 1).pred ((initState (realMode2 1) (arr2 m)).cod c) 0 = 0 := by
      simp [realMode2, mode2, Online2D.lorenzo, realL, realOps]
    unfold encComp
    rw [h0, hcod]
    have e1 : (realMode2 1).O.toD ((realMode2 1).O.subT (-100) 0) = (-100 : ℝ) := by
      simp [realMode2, mode2, realL, realOps]
    have e2 : linQuant (realMode2 1).O.toDOps (-100) 1 (realMode2 1).capacity (realMode2 1).radius =
        some 32718 := hlin
    simp only [e1, e2]
    simp only [realMode2, mode2, realL, realOps, realD, linOffset]
    norm_num
  have hc1 : compressLog 1 1 1 m = some (⟨setCol (initState (realMode2 1) (arr2 m)).cod 0 [-100, -100],
      setCol (initState (realMode2 1) (arr2 m)).val 0
        (List.zipWith (logBack realL) (col 2 (initState (realMode2 1) (arr2 m)).val 0) [-100, -100])⟩,
      ⟨[23], [32718, 32718], []⟩) := by
    have hq' : ebQuant (realMode2 1).O.toDOps (realMode2 1).base (realMode2 1).logBase
        (realMode2 1).thr 1 = (1, 23) := hq
    have hv : encVertex (realMode2 1) (plan2 realL (Online2D.boundOnline 1 1 1))
        (initState (realMode2 1) (arr2 m)) 0 =
        some (⟨setCol (initState (realMode2 1) (arr2 m)).cod 0 [-100, -100],
          setCol (initState (realMode2 1) (arr2 m)).val 0
          (List.zipWith (logBack realL) (col 2 (initState (realMode2 1) (arr2 m)).val 0)
            [-100, -100])⟩, .coded 23 [32718, 32718]) := by
      have hr : List.range (realMode2 1).K = [0, 1] := rfl
      unfold encVertex
      rw [hplan]
      simp only [hq', hr, encComps, hcomp]
      rfl
    simp only [compressLog, compress, scanEnc, hv]
    rfl
  refine ⟨_, _, setCol (setCol (fun _ _ => 0) 0 [-100, -100]) 0 [0, 0], hc1, ?_, ?_, ?_⟩
  · have hd1 : decVertex (realMode2 1) ⟨fun _ _ => (0 : ℝ), fun _ => false⟩ 0
        ⟨[23], [32718, 32718], []⟩ =
        some (⟨setCol (fun _ _ => 0) 0 [-100, -100], fun _ => false⟩, ⟨[], [], []⟩) := by
      have he : (realMode2 1).isEsc 23 = false := rfl
      have ht : takeN (realMode2 1).K [(32718 : Int), 32718] = some ([32718, 32718], []) := rfl
      have hr : List.range (realMode2 1).K = [0, 1] := rfl
      unfold decVertex
      simp only [he, Bool.false_eq_true, if_false, ht, hr, List.map_cons, List.map_nil]
      have hx : ∀ c, (realMode2 1).O.ofD ((realMode2 1).O.add ((realMode2 1).O.toD
          ((realMode2 1).pred ((fun _ _ => (0 : ℝ)) (c : Nat)) 0))
          (linOffset (realMode2 1).O.toDOps
            ((realMode2 1).O.mul ((realMode2 1).O.pow (realMode2 1).base 23) (realMode2 1).thr)
            (realMode2 1).radius 32718)) = -100 := by
        intro c
        simp only [realMode2, mode2, realL, realOps, realD, linOffset, Online2D.lorenzo]
        norm_num
      have h1 := hx 0
      have h2 := hx 1
      simp only [List.getD_cons_zero, List.getD_cons_succ]
      rw [h1]
    have hfin : ∀ c, logFin realL (mapAt (signMaps realL 2 1 (arr2 m))) c 0 (-100) = 0 := by
      intro c
      have : realL.ltM99 (-100) = true := by simp only [realL, decide_eq_true_eq]; norm_num
      simp only [logFin, this, if_true]
      rfl
    have hd2 : finVertex 2 (logFin realL (mapAt (signMaps realL 2 1 (arr2 m)))) (fun _ => false)
        (setCol (fun _ _ => 0) 0 [-100, -100]) 0 [] =
        some (setCol (setCol (fun _ _ => 0) 0 [-100, -100]) 0 [0, 0], []) := by
      unfold finVertex
      simp only [Bool.false_eq_true, if_false]
      have hr : List.range 2 = [0, 1] := rfl
      have s0 : setCol (fun _ _ => (0 : ℝ)) 0 [-100, -100] 0 0 = -100 := rfl
      have s1 : setCol (fun _ _ => (0 : ℝ)) 0 [-100, -100] 1 0 = -100 := rfl
      rw [hr]
      simp only [List.map_cons, List.map_nil, s0, s1, hfin]
    have hK : (realMode2 1).K = 2 := rfl
    simp only [decompressLog, decompress, decompress1, scanDec, hd1, Option.map_some,
      hK, hd2]
  · have : List.zipWith (logBack realL) (col 2 (initState (realMode2 1) (arr2 m)).val 0) [-100, -100] =
        [logBack realL (2 ^ (-100 : ℤ)) (-100), logBack realL (2 ^ (-100 : ℤ)) (-100)] := by
      have hr : List.range 2 = [0, 1] := rfl
      simp only [col, hr, List.map_cons, List.map_nil, hval, List.zipWith_cons_cons,
        List.zipWith_nil_left]
    simp only [this]
    have hs : setCol (initState (realMode2 1) (arr2 m)).val 0
        [logBack realL (2 ^ (-100 : ℤ)) (-100), logBack realL (2 ^ (-100 : ℤ)) (-100)] 0 0 =
        logBack realL (2 ^ (-100 : ℤ)) (-100) := rfl
    rw [hs]
    unfold logBack
    simp only [realL, decide_eq_true_eq, hpos, if_true]
    positivity
  · rfl

/-- The hypotheses of C19 are met by a field on a 2 by 2 grid with a critical point in the
lower triangle and a zero value; it survives with a bound of 10 percent. -/
example : ∃ d : Arr ℝ, (∃ s' str, compressLog 2 2 (1 / 10)
      ⟨fun q => [-1, 7, 1, 0].getD q 0, fun q => [-1, 7, 0, 1].getD q 0⟩ = some (s', str) ∧
      decompressLog 2 2 (signMaps realL 2 (2 * 2)
        (arr2 ⟨fun q => [-1, 7, 1, 0].getD q 0, fun q => [-1, 7, 0, 1].getD q 0⟩))
        (fun _ _ => 9) str = some d) ∧
    (⟨0, 0, false⟩ : Tri).hasCP 2 ⟨d 0, d 1⟩ := by
  have h98 : (2 : ℝ) ^ (-98 : ℤ) ≤ 1 := by
    rw [zpow_neg]; exact inv_le_one_of_one_le₀ (by norm_num)
  set m : Online2D.Field ℝ :=
    ⟨fun q => [-1, 7, 1, 0].getD q 0, fun q => [-1, 7, 0, 1].getD q 0⟩ with hm
  have hsz : ∀ q, q < 2 * 2 → (m.u q = 0 ∨ (2 : ℝ) ^ (-98 : ℤ) ≤ |m.u q|) ∧
      (m.v q = 0 ∨ (2 : ℝ) ^ (-98 : ℤ) ≤ |m.v q|) := by
    intro q hq
    have : q = 0 ∨ q = 1 ∨ q = 2 ∨ q = 3 := by omega
    have h7 : (2 : ℝ) ^ (-98 : ℤ) ≤ 7 := by linarith
    rcases this with rfl | rfl | rfl | rfl
    · simp only [hm, List.getD_cons_zero]
      rw [abs_neg, abs_one]; exact ⟨Or.inr h98, Or.inr h98⟩
    · simp only [hm, List.getD_cons_succ, List.getD_cons_zero]
      rw [abs_of_pos (by norm_num : (0 : ℝ) < 7)]; exact ⟨Or.inr h7, Or.inr h7⟩
    · simp only [hm, List.getD_cons_succ, List.getD_cons_zero]
      rw [abs_one]; exact ⟨Or.inr h98, Or.inl trivial⟩
    · simp only [hm, List.getD_cons_succ, List.getD_cons_zero]
      rw [abs_one]; exact ⟨Or.inl trivial, Or.inr h98⟩
  obtain ⟨s', str, h⟩ := compressLog_defined 2 2 (1 / 10) m
  obtain ⟨d, hd, -⟩ := decompressLog_eq 2 2 (1 / 10) (by norm_num) (by norm_num) m s' str
    (fun _ _ => 9) h (fun c q hc hq => by
      have : c = 0 ∨ c = 1 := by omega
      rcases this with rfl | rfl
      · exact (hsz q hq).1
      · exact (hsz q hq).2)
  refine ⟨d, ⟨s', str, h, hd⟩, ?_⟩
  rw [(C19_critical_points_and_types 2 2 (1 / 10) (by norm_num) (by norm_num) m s' str _ d h hsz hd
    ⟨0, 0, false⟩ (by simp [Tri.inGrid])).1]
  refine ⟨1 / 3, 1 / 3, 1 / 3, by norm_num, by norm_num, by norm_num, by norm_num, ?_, ?_⟩ <;>
    simp [Tri.vec, Tri.verts, gridVal, hm]

/-- The log modes over toy arithmetic: the logarithm is replaced by multiplication with 4 so
that it is not trivial and has an inverse. -/
def toyL : LOps (BitVec 64) (BitVec 64) where
  toOps := toyOps
  isZero x := x == 0#64
  pos x := (0#64).slt x
  negT := fun x => -x
  absT x := if (0#64).slt x then x else -x
  log2T x := x * 4#64
  exp2T x := x.sdiv 4#64
  m100 := -100#64
  ltM99 x := x.slt (-99#64)

theorem toyL_laws : LogLaws toyL := by
  constructor
  · intro x h
    simp only [toyL] at h ⊢
    by_contra hc
    simp only [Bool.not_eq_false, beq_iff_eq] at hc
    subst hc
    revert h; decide
  · intro x _; rfl

def toyLogField : Online2D.Field (BitVec 64) :=
  ⟨fun q => [100#64, -103#64, 0#64, 107#64].getD q 0#64,
   fun q => [-50#64, 53#64, 7#64, 812#64].getD q 0#64⟩

/-- The hypotheses of C18 hold for a field with positive, negative and zero values; two
vertices are quantised. -/
example : ∃ s' str, compress (mode2 toyL 1#64 1#64 2 2 512)
      (plan2 toyL (requiredEb 2 2 8#64 (fun a _ => a) (fun _ _ _ _ _ _ _ => 8#64))) (2 * 2)
      (arr2 toyLogField) = some (s', str) ∧
    str.eb = [1, 1, 0, 0] ∧ str.un = [0#64, 7#64, 107#64, 812#64] ∧
    ∃ bs, compressBytes toyL toyCodec ⟨fun _ => true, 0#64, 0, fun _ => 0#8⟩
        ⟨fun _ => true, 0#64, 0, fun _ => 0#8⟩ (2 * 1024) false (mode2 toyL 1#64 1#64 2) 2 512
        (plan2 toyL (requiredEb 2 2 8#64 (fun a _ => a) (fun _ _ _ _ _ _ _ => 8#64))) (2 * 2)
        (arr2 toyLogField) = some (s'.val, bs) ∧
      ∀ rest m0, ∃ d, decompressBytes toyL toyCodec (2 * 1024) false 2 (mode2 toyL 1#64 1#64 2)
          (2 * 2) m0 (bs ++ rest) = some d ∧
        ∀ c q, c < 2 → q < 2 * 2 → d c q = s'.val c q := by
  obtain ⟨s', str, h⟩ := compress_defined (mode2 toyL 1#64 1#64 2 2 512)
    (plan2 toyL (requiredEb 2 2 8#64 (fun a _ => a) (fun _ _ _ _ _ _ _ => 8#64))) (2 * 2)
    (arr2 toyLogField) (fun s p hp => by
      obtain ⟨b, hb⟩ := Option.isSome_iff_exists.1
        (bound_defined (r1 := 2) (r2 := 2) 8#64 (fun a _ => a) (fun _ _ _ _ _ _ _ => 8#64)
          (field2 s.val) hp)
      unfold plan2; rw [hb]; rfl)
  have hv : (compress (mode2 toyL 1#64 1#64 2 2 512)
      (plan2 toyL (requiredEb 2 2 8#64 (fun a _ => a) (fun _ _ _ _ _ _ _ => 8#64))) (2 * 2)
      (arr2 toyLogField)).map (fun r => (r.2.eb, r.2.dq, r.2.un,
        (List.range 2).map fun c => (List.range 4).map fun q => toyL.ltM99 (r.1.cod c q))) =
      some ([1, 1, 0, 0], [612, 562, 515, 515, 512, 512, 512, 512],
        [0#64, 7#64, 107#64, 812#64],
        [[false, false, true, false], [false, false, false, false]]) := by decide +kernel
  rw [h] at hv
  simp only [Option.map_some, Option.some.injEq, Prod.mk.injEq] at hv
  obtain ⟨h1, h2, h3, h4⟩ := hv
  refine ⟨s', str, h, h1, h3, ?_⟩
  apply C18_log_roundtrip toyL toyL_laws toyCodec _ _ 1#64 1#64 2 2 2 512 _ toyLogField s' str h
    (by decide) (by decide) (by decide)
  · rw [h1]
    exact fits_of_short _ _ _ (by decide) (by decide) (by decide) (by decide)
  · rw [h2]
    exact fits_of_short _ _ _ (by decide) (by decide) (by decide) (by decide)
  · rw [h3]; decide
  · intro c q hc hq z0 z1
    have hl : List.range 2 = [0, 1] ∧ List.range 4 = [0, 1, 2, 3] := ⟨rfl, rfl⟩
    simp only [hl.1, hl.2, List.map_cons, List.map_nil, List.cons.injEq, and_true] at h4
    obtain ⟨⟨a0, a1, a2, a3⟩, b0, b1, b2, b3⟩ := h4
    have hc : c = 0 ∨ c = 1 := by omega
    have hq : q = 0 ∨ q = 1 ∨ q = 2 ∨ q = 3 := by omega
    rcases hq with rfl | rfl | rfl | rfl <;> rcases hc with rfl | rfl <;>
      first
      | assumption
      | exact absurd z0 (by decide)

end CpSZ.VMode
