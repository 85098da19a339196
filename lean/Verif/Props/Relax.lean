import Verif.Relax.Eval
import Verif.Props.Online2D
/-
Properties C21 and C22 (2D online compressor with absolute bound and relaxed verification,
`sz_compress_cp_preserve_2d_online_abs_relax_FN`).
-/

namespace CpSZ.Online2D.Relax

open CpSZ.Mesh2D

section generic
variable {T D : Type}

/-! ### C21: the stream decodes to the reconstruction -/

/-- C21, round trip, for any arithmetic and any cell test.  `CodesOK`: the bound `max_pwr_eb`
and the bounds that it is relaxed to have codes different from zero (or accept no value).
Missing for the full statement: code zero, see `C21_undecodable`. -/
theorem C21_roundtrip_partial (O : ROps T D) (c : Codec T) (cD : Codec D) (E1 E2 : Env)
    (P : Par D) (n : Nat) (chk : Test T) (r1 r2 : Nat) (maxEb : D) (m : Field T)
    (hc : CodesOK O P n maxEb)
    (hb : 0 ≤ P.base ∧ P.base < 2 ^ 31) (hr : 0 ≤ P.radius ∧ P.radius < 2 ^ 31)
    (hcap : P.capacity = 2 * P.radius)
    (hf : ∀ m' s, compress O P n chk r1 r2 maxEb m = some (m', s) →
      Fits E1 (2 * 1024) s.eb ∧ Fits E2 (2 * P.capacity.toNat) s.dq) :
    ∃ m' bs, compressBytes O c cD E1 E2 P n chk r1 r2 maxEb m = some (m', bs) ∧
      ∀ rest m0, ∃ d,
        decompressBytes O.toOps c cD P.logBase r1 r2 m0 (bs ++ rest) = some d ∧
        ∀ q, q < r1 * r2 → d.u q = m'.u q ∧ d.v q = m'.v q := by
  obtain ⟨m', s, h⟩ := compress_defined O P n chk r1 r2 maxEb m
  obtain ⟨f1, f2⟩ := hf m' s h
  obtain ⟨l1, l2, l3⟩ := compress_lengths O P n chk r1 r2 maxEb m m' s h
  obtain ⟨bs, hs, hp⟩ := serialize_parse c cD E1 E2 P s (r1 * r2) l1 l2
    (by have := f1.2.1; omega) hb hr hcap f1 f2
  refine ⟨m', bs, by simp only [compressBytes, h, hs], fun rest m0 => ?_⟩
  obtain ⟨d, hd, hA⟩ := lockstep O P n chk r1 r2 maxEb hc m m0 m' s h
  exact ⟨d, by simp only [decompressBytes, hp rest, hd], hA⟩

/-! ### C22: cells -/

/-- C22 for any arithmetic and any cell test, symmetric or not: the vertices of a triangle
that tests positive are stored exactly; a triangle that tests negative is left alone, or its
reconstruction tests negative in some order of its vertices. -/
theorem C22_any_test (O : ROps T D) (P : Par D) (n : Nat) (chk : Test T) (r1 r2 : Nat)
    (maxEb : D) (m m' : Field T) (s : Streams T)
    (h : compress O P n chk r1 r2 maxEb m = some (m', s)) (t : Tri) (ht : t.inGrid r1 r2) :
    (triTest chk r2 m t = true → ∀ P ∈ t.verts, vecAt r2 m' P = vecAt r2 m P) ∧
    (triTest chk r2 m t = false → (∀ P ∈ t.verts, vecAt r2 m' P = vecAt r2 m P) ∨
      ∃ P Q R, t.verts.Perm [P, Q, R] ∧
        chk (vecAt r2 m' P) (vecAt r2 m' Q) (vecAt r2 m' R) = false) := by
  have hI := cellInv_final O P n chk r1 r2 maxEb m m' s h
  exact ⟨hI.kept t ht, hI.none t ht⟩

/-- C22 for any arithmetic and any cell test that does not depend on the order of the
vertices: no triangle changes its test result, and the vertices of the positive ones are
stored exactly.  Missing for the full statement: tests that depend on the order, see
`C22_order_matters`. -/
theorem C22_symmetric_test_partial (O : ROps T D) (P : Par D) (n : Nat) (chk : Test T)
    (hs : Symm chk) (r1 r2 : Nat) (maxEb : D) (m m' : Field T) (s : Streams T)
    (h : compress O P n chk r1 r2 maxEb m = some (m', s)) (t : Tri) (ht : t.inGrid r1 r2) :
    triTest chk r2 m' t = triTest chk r2 m t ∧
    (triTest chk r2 m t = true → ∀ P ∈ t.verts, vecAt r2 m' P = vecAt r2 m P) := by
  obtain ⟨h1, h2⟩ := C22_any_test O P n chk r1 r2 maxEb m m' s h t ht
  refine ⟨?_, h1⟩
  have hsame : (∀ P ∈ t.verts, vecAt r2 m' P = vecAt r2 m P) →
      triTest chk r2 m' t = triTest chk r2 m t := by
    intro hv
    have hlen : t.verts.length = 3 := by unfold Tri.verts; split <;> rfl
    have hmem : ∀ k < 3, t.verts.getD k (0, 0) ∈ t.verts := by
      intro k hk
      rw [List.getD_eq_getElem?_getD, List.getElem?_eq_getElem (by omega)]
      exact List.getElem_mem _
    unfold triTest
    rw [hv _ (hmem 0 (by omega)), hv _ (hmem 1 (by omega)), hv _ (hmem 2 (by omega))]
  cases hb : triTest chk r2 m t
  · rcases h2 hb with hv | ⟨A, B, C, hp, hc⟩
    · rw [hsame hv, hb]
    · rw [← hc]
      unfold triTest
      have hv : t.verts = [t.verts.getD 0 (0, 0), t.verts.getD 1 (0, 0), t.verts.getD 2 (0, 0)] := by
        unfold Tri.verts; split <;> rfl
      rw [hv] at hp
      exact hs _ _ _ _ _ _ (by simpa using hp.map (vecAt r2 m'))
  · rw [hsame (h1 hb), hb]

end generic

/-! ### Exact arithmetic -/

/-- `t` has a critical point and the interpolant in `t` is invertible. -/
def HasRegularCP (r2 : Nat) (f : Field ℝ) (t : Tri) : Prop :=
  Regular (t.vec r2 f 0) (t.vec r2 f 1) (t.vec r2 f 2) ∧ t.hasCP r2 f

theorem triTest_checkCP (r2 : Nat) (f : Field ℝ) (t : Tri) :
    triTest checkCP r2 f t = true ↔ HasRegularCP r2 f t := checkCP_iff _ _ _

/-- C21 in exact arithmetic with the settings of the code: if `max_pwr_eb` is at least 16
thresholds (or at most one), the stream decodes and every value is within the user's bound.
Missing: other bounds (`C21_undecodable`), rounding (`C21_rounded_bound_exceeded`). -/
theorem C21_exact_partial (chk : Test ℝ) (r1 r2 : Nat) (maxEb : ℝ) (hm : 0 ≤ maxEb)
    (hb : 16 * parOnline.thr ≤ maxEb ∨ maxEb ≤ parOnline.thr) (m m0 : Field ℝ) :
    ∃ m' s d, compress realR parOnline maxCount chk r1 r2 maxEb m = some (m', s) ∧
      decompress realOps parOnline r1 r2 m0 s = some d ∧
      ∀ q, q < r1 * r2 → d.u q = m'.u q ∧ d.v q = m'.v q ∧
        |d.u q - m.u q| ≤ maxEb ∧ |d.v q - m.v q| ≤ maxEb := by
  obtain ⟨p1, p2, p3⟩ := parOnline_ok
  obtain ⟨m', s, h⟩ := compress_defined realR parOnline maxCount chk r1 r2 maxEb m
  obtain ⟨d, hd, hA⟩ := lockstep realR parOnline maxCount chk r1 r2 maxEb
    (codesOK_real rfl p2 p3 hb) m m0 m' s h
  have hI := compress_inv realR parOnline maxCount chk r1 r2 maxEb m m' s h
    (fun p f => (∀ q, p ≤ q → f.u q = m.u q ∧ f.v q = m.v q) ∧
      ∀ q, |f.u q - m.u q| ≤ maxEb ∧ |f.v q - m.v q| ≤ maxEb)
    ⟨fun _ _ => ⟨rfl, rfl⟩, fun q => by simp [hm]⟩
    (fun p f _ hI => ⟨fun q hq => hI.1 q (by omega), hI.2⟩)
    (fun i j f c _ _ hI _ _ hacc => by
      obtain ⟨k, -, -, t0, t1⟩ := hacc.bound
      obtain ⟨e0, e1⟩ := tried_le p1 p2 p3 hm k
      have x0 := (tentative_error e0 t0).trans e1
      have x1 := (tentative_error e0 t1).trans e1
      obtain ⟨l0, l1⟩ := hI.1 (i * r2 + j) le_rfl
      refine ⟨fun q hq => ?_, fun q => ?_⟩
      · have hne : q ≠ i * r2 + j := by omega
        simpa [Field.set, setAt, hne] using hI.1 q (by omega)
      · by_cases hq : q = i * r2 + j
        · subst hq
          simp only [Field.set, setAt, if_true]
          rw [← l0, ← l1]
          exact ⟨x0, x1⟩
        · simpa [Field.set, setAt, hq] using hI.2 q)
  refine ⟨m', s, d, h, hd, fun q hq => ?_⟩
  obtain ⟨a, b⟩ := hA q hq
  rw [a, b]
  exact ⟨rfl, rfl, hI.2 q⟩

/-- C22 in exact arithmetic with `check_cp`: the critical points in triangles with invertible
interpolant are those of the original field, the vertices of these triangles are stored
exactly, and so are all vertices with zero vector.  Missing for "no critical point is gained
or lost": triangles with singular interpolant, see `C22_degenerate_gained`. -/
theorem C22_exact_partial (r1 r2 : Nat) (maxEb : ℝ) (m m' : Field ℝ) (s : Streams ℝ)
    (h : compress realR parOnline maxCount checkCP r1 r2 maxEb m = some (m', s)) :
    (∀ t : Tri, t.inGrid r1 r2 → (HasRegularCP r2 m' t ↔ HasRegularCP r2 m t) ∧
      (HasRegularCP r2 m t → ∀ P ∈ t.verts,
        gridVal r2 m'.u P = gridVal r2 m.u P ∧ gridVal r2 m'.v P = gridVal r2 m.v P)) ∧
    ∀ q, q < r1 * r2 → m.u q = 0 → m.v q = 0 → m'.u q = 0 ∧ m'.v q = 0 := by
  refine ⟨fun t ht => ?_, fun q hq hu hv => ?_⟩
  · obtain ⟨h1, h2⟩ := C22_symmetric_test_partial realR parOnline maxCount checkCP checkCP_symm
      r1 r2 maxEb m m' s h t ht
    refine ⟨by rw [← triTest_checkCP, ← triTest_checkCP, h1], fun hc P hP => ?_⟩
    have := h2 ((triTest_checkCP r2 m t).2 hc) P hP
    exact ⟨congrArg Prod.fst this, congrArg Prod.snd this⟩
  · have hI := compress_inv realR parOnline maxCount checkCP r1 r2 maxEb m m' s h
      (fun p f => (∀ q, p ≤ q → f.u q = m.u q ∧ f.v q = m.v q) ∧
        ∀ q, m.u q = 0 → m.v q = 0 → f.u q = 0 ∧ f.v q = 0)
      ⟨fun _ _ => ⟨rfl, rfl⟩, fun q h1 h2 => ⟨h1, h2⟩⟩
      (fun p f _ hI => ⟨fun q hq => hI.1 q (by omega), hI.2⟩)
      (fun i j f c _ _ hI hz _ _ => by
        obtain ⟨l0, l1⟩ := hI.1 (i * r2 + j) le_rfl
        refine ⟨fun q hq => ?_, fun q h1 h2 => ?_⟩
        · have hne : q ≠ i * r2 + j := by omega
          simpa [Field.set, setAt, hne] using hI.1 q (by omega)
        · have hne : q ≠ i * r2 + j := by
            rintro rfl
            rw [l0, l1] at hz
            simp [realR, h1, h2] at hz
          simpa [Field.set, setAt, hne] using hI.2 q h1 h2)
    exact hI.2 q hu hv

/-! ### Failures -/

/-- C21 does not hold for every bound: with `max_pwr_eb` twice the threshold `DBL_EPSILON` the
bound gets code zero, which the decompressor takes for a lossless vertex; it then reads past
the end of the lossless values. -/
theorem C21_undecodable (d0 : Field ℝ) :
    ∃ (m m' : Field ℝ) (s : Streams ℝ),
      compress realR parOnline maxCount checkCP 1 1 (2 * parOnline.thr) m = some (m', s) ∧
      decompress realOps parOnline 1 1 d0 s = none := by
  obtain ⟨-, p2, p3⟩ := parOnline_ok
  have hc := parOnline_capacity
  obtain ⟨t, ht⟩ : ∃ t, t = parOnline.thr := ⟨_, rfl⟩
  have hq := ebQuant_pow (P := parOnline) rfl p2 p3 (k := 0) (a := 2 * parOnline.thr) (by linarith)
    (by norm_num; linarith) (by linarith)
  rw [← ht] at hq p3
  rw [← ht]
  have ht' : tentative realR parOnline 1 (fun _ => 2 * t) 0 t =
      some (1 + parOnline.radius, 2 * t) :=
    tentative_near' p3 (n := 1) (pred := 0) (by simp [lorenzo, realOps]) (by simp) (by simpa using p3)
      (by rw [hc, sub_zero, abs_of_pos (by linarith)]; linarith)
  have e0 := encVertex_coded (O := realR) (P := parOnline) (n := maxCount) (chk := checkCP)
    (r1 := 1) (r2 := 1) (cp := cpExist checkCP 1 ⟨fun _ => 2 * t, fun _ => 2 * t⟩)
    (maxEb := 2 * t) (e := t) (id := 0) (s := (⟨fun _ => 2 * t, fun _ => 2 * t⟩, 0)) (p := 0)
    (by simp [realR, p3.ne']) rfl (by rw [← ht, hq]; simp) ht' ht' rfl
  let w : VCode ℝ := .coded 0 0 (1 + parOnline.radius) (1 + parOnline.radius)
  have hs : compress realR parOnline maxCount checkCP 1 1 (2 * t)
      ⟨fun _ => 2 * t, fun _ => 2 * t⟩ = some (Field.set ⟨fun _ => 2 * t, fun _ => 2 * t⟩ 0 (2 * t)
        (2 * t), ⟨[w].flatMap VCode.eb, [w].flatMap (VCode.dq parOnline.radius),
        [w].flatMap VCode.un⟩) := by
    unfold compress
    simp only [scanEnc, e0, w]
  refine ⟨_, _, _, hs, ?_⟩
  exact zero_code_undecodable realOps parOnline 1 1 [w] rfl _ _ _ (List.mem_singleton.2 rfl) d0

/-- C21 does not hold in floating point arithmetic: the tentative value is never compared with
the original one, and the difference to the prediction is rounded to the element type.  With
`float` data (24 bits, to nearest), `double` bounds and `max_pwr_eb = 2^-16` a reconstructed
value is further than the bound from the original one.  (`lg` is the `log2` of the library.) -/
theorem C21_rounded_bound_exceeded (lg : ℝ → ℝ) (hlg : lg (2 ^ 36) = 36) :
    ∃ (m m' : Field ℝ) (s : Streams ℝ),
      (∀ q, fl nearest 24 (m.u q) = m.u q ∧ fl nearest 24 (m.v q) = m.v q) ∧
      compress (roundedR (fl nearest 24) (fl nearest 53) lg) parOnline maxCount checkCP 1 2
        (1 / 65536) m = some (m', s) ∧ 1 / 65536 < |m'.u 1 - m.u 1| := by
  have hF := fl_isRounding nearest_rounding (p := 24) (by norm_num)
  have hD := fl_isRounding nearest_rounding (p := 53) (by norm_num)
  have ex : ∀ (p : ℕ) (n : ℤ) (k : ℕ) (x : ℝ), x = n / 2 ^ k → |n| < 2 ^ p →
      fl nearest p x = x := by
    intro p n k x h hn
    refine fl_exact nearest_rounding (n := n) (e := -(k : ℤ)) ?_ hn
    rw [h, zpow_neg, zpow_natCast, div_eq_mul_inv]
  have hlb : parOnline.logBase = 2 := by
    show Real.logb 2 4 = 2
    rw [show (4 : ℝ) = 2 ^ (2 : ℝ) by norm_num, Real.logb_rpow (by norm_num) (by norm_num)]
  have hq : ebQuant (roundedR (fl nearest 24) (fl nearest 53) lg).toDOps parOnline.base
      parOnline.logBase parOnline.thr (1 / 65536) = (1 / 65536, 18) := by
    rw [hlb]
    unfold ebQuant
    rw [if_neg (by simp [roundedR, roundedOps, parOnline]; norm_num)]
    simp only [roundedR, roundedOps, parOnline]
    rw [show (1 / 65536 : ℝ) / (1 / 2 ^ 52) = 2 ^ 36 by norm_num,
      ex 53 (2 ^ 36) 0 (2 ^ 36) (by norm_num) (by norm_num), hlg,
      show (36 : ℝ) / 2 = (18 : ℤ) by norm_num, hD.int 18 (by norm_num), truncR_int,
      ex 53 (2 ^ 36) 0 (((4 : ℤ) : ℝ) ^ (18 : ℤ)) (by norm_num) (by norm_num),
      show ((4 : ℤ) : ℝ) ^ (18 : ℤ) * (1 / 2 ^ 52) = 1 / 65536 by norm_num,
      ex 53 1 16 (1 / 65536) (by norm_num) (by norm_num)]
  obtain ⟨w, hw⟩ : ∃ w : ℝ, w = 12289 / 65536 + 1 / 2 ^ 26 := ⟨_, rfl⟩
  have t0 : fl nearest 24 0 = 0 := by simpa using hF.int 0 (by norm_num)
  have t1 : fl nearest 24 1 = 1 := by simpa using hF.int 1 (by norm_num)
  have d0 : fl nearest 53 0 = 0 := by simpa using hD.int 0 (by norm_num)
  have d1 : fl nearest 53 1 = 1 := by simpa using hD.int 1 (by norm_num)
  have he : (1 / 65536 : ℝ) ≠ 0 := by norm_num
  let m : Field ℝ := ⟨fun q => if q = 0 then 1 else w, fun _ => 1⟩
  have e0 : encVertex (roundedR (fl nearest 24) (fl nearest 53) lg) parOnline maxCount checkCP 1 2
      (cpExist checkCP 2 m) (1 / 65536) (m, 0) 0 = some ((m, 0), .lossless 1 1) := by
    refine encVertex_lossless rfl hq ?_
    rw [tentative_rounded (pred := 0) (diff := 1) (qd := 65537) he
      (by simp [lorenzo, roundedOps, t0]) (by simp [m, t1])
      (by
        rw [show |(1 : ℝ)| / (1 / 65536) = (65536 : ℤ) by norm_num, hD.int _ (by norm_num),
          show ((65536 : ℤ) : ℝ) + 1 = (65537 : ℤ) by norm_num, hD.int _ (by norm_num),
          hF.int _ (by norm_num)]
        norm_num), if_neg (by rw [parOnline_capacity]; norm_num)]
  have hl : ∀ f : Nat → ℝ, f 0 = 1 →
      lorenzo (roundedOps (fl nearest 24) (fl nearest 53) lg) 2 f 1 = 1 := by
    intro f h
    simp [lorenzo, roundedOps, h, t1]
  have hdiff : fl nearest 24 (w - 1) = -(53247 / 65536) := by
    have : w - 1 = -(54524927 / 4 * (2 : ℝ) ^ (-24 : ℤ)) := by rw [hw]; norm_num
    rw [this, fl_neg nearest_rounding]
    have hn : nearest (54524927 / 4) = 13631232 := by
      unfold nearest
      rw [Int.floor_eq_iff]
      norm_num
    unfold fl
    rw [if_pos (by positivity), flPos_eq (by norm_num) (by norm_num) (by norm_num), hn]
    norm_num
  have e1 : encVertex (roundedR (fl nearest 24) (fl nearest 53) lg) parOnline maxCount checkCP 1 2
      (cpExist checkCP 2 m) (1 / 65536) (m, 0) 1 =
        some ((m.set 1 (3 / 16) 1, 0 + 1), .coded 18 18 (-26624 + parOnline.radius) (0 + parOnline.radius)) := by
    refine encVertex_coded (s := (m, 0)) (by simp [roundedR, m]) rfl hq ?_ ?_ rfl
    · rw [tentative_rounded (pred := 1) (diff := -(53247 / 65536)) (qd := 53248) he
        (hl _ (by simp [m])) (by simpa [m] using hdiff)
        (by
          rw [show |(-(53247 / 65536) : ℝ)| / (1 / 65536) = (53247 : ℤ) by
              rw [abs_neg, abs_of_pos (by norm_num)]; norm_num, hD.int _ (by norm_num),
            show ((53247 : ℤ) : ℝ) + 1 = (53248 : ℤ) by norm_num, hD.int _ (by norm_num),
            hF.int _ (by norm_num)]
          norm_num), if_pos (by rw [parOnline_capacity]; norm_num), if_neg (by norm_num),
        show (-53248 / 2 : ℝ) = (-26624 : ℤ) by norm_num, hF.int _ (by norm_num), truncR_int]
      simp only
      rw [hD.int _ (by norm_num),
        ex 53 (-53248) 16 (((2 * -26624 : ℤ) : ℝ) * (1 / 65536)) (by norm_num) (by norm_num),
        show (1 : ℝ) + ((2 * -26624 : ℤ) : ℝ) * (1 / 65536) = 3 / 16 by norm_num,
        ex 53 3 4 (3 / 16) (by norm_num) (by norm_num), ex 24 3 4 (3 / 16) (by norm_num) (by norm_num)]
    · rw [tentative_rounded (pred := 1) (diff := 0) (qd := 1) he
        (hl _ (by simp [m])) (by simp [m, t0]) (by simp [d0, d1, t1]),
        if_pos (by rw [parOnline_capacity]; norm_num), if_neg (by norm_num)]
      have : truncR (fl nearest 24 (-1 / 2)) = 0 := by
        rw [ex 24 (-1) 1 (-1 / 2) (by norm_num) (by norm_num), neg_div, truncR_neg,
          truncR_nonneg (by norm_num)]
        norm_num
      simp only [this]
      simp [d0, d1, t1]
  let ws : List (VCode ℝ) :=
    [.lossless 1 1, .coded 18 18 (-26624 + parOnline.radius) (0 + parOnline.radius)]
  have hs : compress (roundedR (fl nearest 24) (fl nearest 53) lg) parOnline maxCount checkCP 1 2
      (1 / 65536) m = some (m.set 1 (3 / 16) 1, ⟨ws.flatMap VCode.eb,
        ws.flatMap (VCode.dq parOnline.radius), ws.flatMap VCode.un⟩) := by
    unfold compress
    simp only [scanEnc, e0, e1, Nat.reduceAdd, ws]
  refine ⟨m, _, _, fun q => ⟨?_, by simp [m, t1]⟩, hs, ?_⟩
  · simp only [m]
    split
    · exact t1
    · exact ex 24 12583937 26 w (by rw [hw]; norm_num) (by norm_num)
  · simp only [Field.set, setAt, m, if_true]
    rw [if_neg (by norm_num), hw, abs_sub_comm, abs_of_pos (by norm_num)]
    norm_num

/-- C22 does not hold for all triangles: where the interpolant is singular, `check_cp` is false
whatever the vectors are, so verification lets a triangle without critical point become one
with a critical point. -/
theorem C22_degenerate_gained :
    ∃ (m m' : Field ℝ) (s : Streams ℝ),
      compress realR parOnline maxCount checkCP 2 2 (1 / 4) m = some (m', s) ∧
      ¬ (⟨0, 0, false⟩ : Tri).hasCP 2 m ∧ (⟨0, 0, false⟩ : Tri).hasCP 2 m' := by
  obtain ⟨w, hw⟩ : ∃ w : ℝ, w = 1 / 8 := ⟨_, rfl⟩
  have hwp : 0 < w := by rw [hw]; norm_num
  have hcp : cpExist checkCP 2 (fld w 1 2 3 (-1) w w w w) = fun _ => false := by
    have hv : ∀ q, (fld w 1 2 3 (-1) w w w w).v q = w := by
      intro q; rcases q with _ | _ | _ | _ | q <;> rfl
    funext k
    unfold cpExist
    simp only
    split <;> exact checkCP_false_flat (by simp only [vecAt, hv]) (by simp only [vecAt, hv])
  have hz : ∀ (x y : ℝ), y ≠ 0 → (realR.isZero x && realR.isZero y) = false := by
    intro x y h; simp [realR, h]
  have hc := parOnline_capacity
  have q4 : (0 : ℝ) < 1 / 4 := by norm_num
  have step : ∀ (f : Field ℝ) (n p : Nat) (pu xu : ℝ) (nu : ℤ), p < 4 → f.v p = w →
      lorenzo realOps 2 f.u p = pu → lorenzo realOps 2 f.v p = 0 →
      pu + 2 * nu * (1 / 4) = xu → f.u p = xu → |xu - pu| < 1000 →
      verified checkCP 2 2 f p xu 0 [0, 1, 2, 3, 4, 5] = some true →
      ∃ w, encVertex realR parOnline maxCount checkCP 2 2 (fun _ => false) (1 / 4) (f, n) p =
        some ((f.set p xu 0, n + 1), w) := by
    intro f n p pu xu nu hp hv hlu hlv hxu hfu hd hver
    exact ⟨_, encVertex_coded (e := 1 / 4) (id := 25) (q0 := nu + parOnline.radius)
      (q1 := 0 + parOnline.radius) (hz _ _ (by rw [hv]; exact hwp.ne')) (incident_none p hp)
      parOnline_quarter
      (tentative_near' q4 hlu hxu (by rw [hfu]; norm_num) (by rw [hfu, hc]; linarith))
      (tentative_near' q4 (n := 0) hlv (by norm_num) (by rw [hv, hw, abs_of_pos] <;> norm_num)
        (by rw [hv, hw, hc, abs_of_pos] <;> norm_num)) hver⟩
  obtain ⟨w0, e0⟩ := step (fld w 1 2 3 (-1) w w w w) 0 0 0 1 2 (by norm_num) rfl
    (by norm_num [lorenzo, realOps]) (by norm_num [lorenzo, realOps]) (by norm_num) rfl
    (by norm_num) (by
      rw [fld_verified0, checkCP_false_side, checkCP_false_side] <;>
        first | rfl | (simp; try linarith))
  rw [fld_set0] at e0
  obtain ⟨w1, e1⟩ := step (fld w 1 2 3 (-1) 0 w w w) 1 1 1 2 2 (by norm_num) rfl
    (by norm_num [lorenzo, realOps, fld]) (by norm_num [lorenzo, realOps, fld]) (by norm_num) rfl
    (by norm_num) (by
      rw [fld_verified1, checkCP_false_side] <;> first | rfl | (simp; try linarith))
  rw [fld_set1] at e1
  obtain ⟨w2, e2⟩ := step (fld w 1 2 3 (-1) 0 0 w w) 2 2 1 3 4 (by norm_num) rfl
    (by norm_num [lorenzo, realOps, fld]) (by norm_num [lorenzo, realOps, fld]) (by norm_num) rfl
    (by norm_num) (by
      rw [fld_verified2, checkCP_false_side] <;> first | rfl | (simp; try linarith))
  rw [fld_set2] at e2
  obtain ⟨w3, e3⟩ := step (fld w 1 2 3 (-1) 0 0 0 w) 3 3 4 (-1) (-10) (by norm_num) rfl
    (by norm_num [lorenzo, realOps, fld]) (by norm_num [lorenzo, realOps, fld]) (by norm_num) rfl
    (by norm_num) (by
      have hf : ∀ a b c : ℝ, checkCP (a, 0) (b, 0) (c, 0) = false :=
        fun a b c => checkCP_false_flat rfl rfl
      rw [fld_verified3, hf, hf]; rfl)
  rw [fld_set3] at e3
  have hs : compress realR parOnline maxCount checkCP 2 2 (1 / 4) (fld w 1 2 3 (-1) w w w w) =
      some (fld w 1 2 3 (-1) 0 0 0 0, ⟨[w0, w1, w2, w3].flatMap VCode.eb,
        [w0, w1, w2, w3].flatMap (VCode.dq parOnline.radius), [w0, w1, w2, w3].flatMap VCode.un⟩) := by
    unfold compress
    rw [hcp]
    simp only [scanEnc, e0, e1, e2, e3, Nat.reduceAdd]
  refine ⟨_, _, _, hs, ?_, ?_⟩
  · rintro ⟨a, b, c, -, -, -, hs, -, hv⟩
    simp only [Tri.vec, Tri.verts, gridVal, fld] at hv
    simp at hv
    have : w = 0 := by linear_combination hv - w * hs
    exact hwp.ne' this
  · refine ⟨1 / 2, 0, 1 / 2, by norm_num, by norm_num, by norm_num, by norm_num, ?_, ?_⟩ <;>
      simp [Tri.vec, Tri.verts, gridVal, fld]

/-- The hypothesis that the test does not depend on the order of the vertices is needed:
`compute_cp` and the verification pass the vertices of a triangle in different orders. -/
theorem C22_order_matters :
    ∃ (chk : Test ℝ) (m m' : Field ℝ) (s : Streams ℝ),
      compress realR parOnline maxCount chk 2 2 (1 / 4) m = some (m', s) ∧
      triTest chk 2 m ⟨0, 0, false⟩ = false ∧ triTest chk 2 m' ⟨0, 0, false⟩ = true := by
  obtain ⟨w, hw⟩ : ∃ w : ℝ, w = 2 + 1 / 16 := ⟨_, rfl⟩
  obtain ⟨b, hb⟩ : ∃ b : ℝ, b = 1000000 := ⟨_, rfl⟩
  let chk : Test ℝ := fun p _ _ => decide (p.1 = 2)
  have hcp : cpExist chk 2 (fld b w b b b 1 1 1 1) = fun _ => false := by
    have hu : ∀ q, (fld b w b b b 1 1 1 1).u q ≠ 2 := by
      intro q
      rcases q with _ | _ | _ | _ | q <;> (simp only [fld]; simp; linarith)
    funext k
    unfold cpExist
    simp only
    split <;> simp only [chk, vecAt, hu, decide_false]
  have hc := parOnline_capacity
  have q4 : (0 : ℝ) < 1 / 4 := by norm_num
  have e0 : ∃ w0, encVertex realR parOnline maxCount chk 2 2 (fun _ => false) (1 / 4)
      (fld b w b b b 1 1 1 1, 0) 0 = some ((fld b 2 b b b 1 1 1 1, 0 + 1), w0) := by
    refine ⟨.coded 25 25 (4 + parOnline.radius) (2 + parOnline.radius), ?_⟩
    rw [encVertex_coded (e := 1 / 4) (id := 25) (q0 := 4 + parOnline.radius) (x := 2) (y := 1)
      (q1 := 2 + parOnline.radius) (by simp [realR, fld]) (incident_none 0 (by norm_num))
      parOnline_quarter
      (tentative_near' q4 (n := 4) (pred := 0) (by norm_num [lorenzo, realOps]) (by norm_num)
        (by simp only [fld]; simp [hw]; norm_num [abs_lt]) (by simp only [fld]; simp [hw, hc]; norm_num [abs_lt]))
      (tentative_near' q4 (n := 2) (pred := 0) (by norm_num [lorenzo, realOps]) (by norm_num)
        (by simp only [fld]; simp) (by simp only [fld]; simp [hc]; norm_num))
      (by rw [fld_verified0]; simp [chk]; linarith), fld_set0]
  obtain ⟨w0, e0⟩ := e0
  have step : ∀ p, 0 < p → p < 4 → ∃ w, encVertex realR parOnline maxCount chk 2 2 (fun _ => false)
      (1 / 4) (fld b 2 b b b 1 1 1 1, 1) p = some ((fld b 2 b b b 1 1 1 1, 1), w) := by
    intro p h0 h4
    refine ⟨_, encVertex_lossless (incident_none p h4) parOnline_quarter ?_⟩
    rw [tentative_real]
    simp only [q4.ne', if_false]
    rw [if_neg]
    rw [hc]
    push Not
    have : (20000 : ℝ) ≤ |(fld b 2 b b b 1 1 1 1).u p -
        lorenzo realOps 2 (fld b 2 b b b 1 1 1 1).u p| := by
      rw [le_abs]
      rcases p with _ | _ | _ | _ | p
      · omega
      · left; simp [lorenzo, realOps, fld]; linarith
      · left; simp [lorenzo, realOps, fld]; linarith
      · right; simp [lorenzo, realOps, fld]; linarith
      · omega
    linarith
  obtain ⟨w1, e1⟩ := step 1 (by norm_num) (by norm_num)
  obtain ⟨w2, e2⟩ := step 2 (by norm_num) (by norm_num)
  obtain ⟨w3, e3⟩ := step 3 (by norm_num) (by norm_num)
  have hs : compress realR parOnline maxCount chk 2 2 (1 / 4) (fld b w b b b 1 1 1 1) =
      some (fld b 2 b b b 1 1 1 1, ⟨[w0, w1, w2, w3].flatMap VCode.eb,
        [w0, w1, w2, w3].flatMap (VCode.dq parOnline.radius), [w0, w1, w2, w3].flatMap VCode.un⟩) := by
    unfold compress
    rw [hcp]
    simp only [scanEnc, e0, e1, e2, e3, Nat.reduceAdd]
  refine ⟨chk, _, _, _, hs, ?_, ?_⟩
  · simp [triTest, chk, vecAt, Tri.verts, fld, hw]
  · simp [triTest, chk, vecAt, Tri.verts, fld]

/-! ### Concrete cases -/

/-- Toy arithmetic for this mode. -/
def toyR : ROps (BitVec 64) (BitVec 64) where
  toOps := toyOps
  quot d e := if e = 0#64 then none else some ((toyOps.abs d).sdiv e + 1#64)
  ltInt x n := decide (x.toInt < n)
  pos x := BitVec.slt 0#64 x
  negT x := -x
  half x := (x.sdiv 2#64).toInt
  isZero x := decide (x = 0#64)

/-- Positive if some vertex has first component 96. -/
def toyTest : Test (BitVec 64) :=
  fun a b c => decide (a.1 = 96#64 ∨ b.1 = 96#64 ∨ c.1 = 96#64)

theorem toyTest_symm : Symm toyTest := by
  apply symm_of
  · intro a b c
    simp only [toyTest, decide_eq_decide]
    tauto
  · intro a b c
    simp only [toyTest, decide_eq_decide]
    tauto

/-- The hypotheses of C21 hold for a field on a 2 by 2 grid.  The first vertex would be
reconstructed as 96, which makes triangles positive, so it is tried again with half the bound
(code 2) and becomes 104; the next two are lossy with code 3, the last is lossless. -/
example : ∃ m' s, compress toyR toyPar 1 toyTest 2 2 8#64 toyField = some (m', s) ∧
    s.eb = [2, 2, 3, 3, 3, 3, 0, 0] ∧ s.dq = [45, 38, 32, 32, 32, 29, 32, 32] ∧
    s.un = [107#64, 812#64] ∧ m'.u 0 = 104#64 ∧
    (∀ t : Tri, t.inGrid 2 2 → triTest toyTest 2 m' t = triTest toyTest 2 toyField t) ∧
    ∃ m'' bs, compressBytes toyR toyCodec toyCodec ⟨fun _ => true, 0#64, 0, fun _ => 0#8⟩
      ⟨fun _ => true, 0#64, 0, fun _ => 0#8⟩ toyPar 1 toyTest 2 2 8#64 toyField = some (m'', bs) ∧
      ∀ rest m0, ∃ d, decompressBytes toyOps toyCodec toyCodec 1#64 2 2 m0 (bs ++ rest) = some d ∧
        ∀ q, q < 2 * 2 → d.u q = m''.u q ∧ d.v q = m''.v q := by
  obtain ⟨m', s, h⟩ := compress_defined toyR toyPar 1 toyTest 2 2 8#64 toyField
  have hv : (compress toyR toyPar 1 toyTest 2 2 8#64 toyField).map
      (fun r => (r.2.eb, r.2.dq, r.2.un, r.1.u 0)) =
      some ([2, 2, 3, 3, 3, 3, 0, 0], [45, 38, 32, 32, 32, 29, 32, 32], [107#64, 812#64],
        104#64) := by
    decide +kernel
  rw [h] at hv
  simp only [Option.map_some, Option.some.injEq, Prod.mk.injEq] at hv
  obtain ⟨h1, h2, h3, h4⟩ := hv
  refine ⟨m', s, h, h1, h2, h3, h4, fun t ht =>
    (C22_symmetric_test_partial toyR toyPar 1 toyTest toyTest_symm 2 2 8#64 toyField m' s h t
      ht).1, ?_⟩
  have hk : ∀ k, k ≤ 1 → (ebQuant toyR.toDOps toyPar.base toyPar.logBase toyPar.thr
      (tried toyR toyPar 8#64 k)).2 ≠ 0 := by
    decide +kernel
  refine C21_roundtrip_partial toyR toyCodec toyCodec _ _ toyPar 1 toyTest 2 2 8#64 toyField
    (fun k hk' => Or.inl (hk k hk')) (by decide) (by decide) (by decide) ?_
  intro m2 s2 h'
  rw [h] at h'
  cases h'
  rw [h1, h2]
  exact ⟨fits_of_short _ _ _ (by decide) (by decide) (by decide) (by decide),
    fits_of_short _ _ _ (by decide) (by decide) (by decide) (by decide)⟩

/-- The hypotheses of C21 and C22 in exact arithmetic hold for a field on a 2 by 2 grid with a
critical point in the lower triangle and the bound 1/4; the critical point survives. -/
example : ∃ d : Field ℝ, (∃ m' s, compress realR parOnline maxCount checkCP 2 2 (1 / 4)
      ⟨fun q => [-1, 7, 1, 0].getD q 0, fun q => [-1, 7, 0, 1].getD q 0⟩ = some (m', s) ∧
      decompress realOps parOnline 2 2 ⟨fun _ => 9, fun _ => 9⟩ s = some d) ∧
    d.u 2 = 1 ∧ |d.u 1 - 7| ≤ 1 / 4 := by
  obtain ⟨m', s, d, h1, h2, h3⟩ := C21_exact_partial checkCP 2 2 (1 / 4) (by norm_num)
    (Or.inl (by norm_num [parOnline])) ⟨fun q => [-1, 7, 1, 0].getD q 0, fun q => [-1, 7, 0, 1].getD q 0⟩
    ⟨fun _ => 9, fun _ => 9⟩
  refine ⟨d, ⟨m', s, h1, h2⟩, ?_, by simpa using (h3 1 (by norm_num)).2.2.1⟩
  have hcp : HasRegularCP 2 ⟨fun q => [-1, 7, 1, 0].getD q 0, fun q => [-1, 7, 0, 1].getD q 0⟩
      ⟨0, 0, false⟩ := by
    refine ⟨by norm_num [Regular, Tri.vec, Tri.verts, gridVal], 1 / 3, 1 / 3, 1 / 3, by norm_num,
      by norm_num, by norm_num, by norm_num, ?_, ?_⟩ <;>
    simp [Tri.vec, Tri.verts, gridVal]
  have := ((C22_exact_partial 2 2 (1 / 4) _ m' s h1).1 ⟨0, 0, false⟩ (by simp [Tri.inGrid])).2 hcp
    (1, 0) (by simp [Tri.verts])
  rw [(h3 2 (by norm_num)).1]
  simpa [gridVal] using this.1

end CpSZ.Online2D.Relax
