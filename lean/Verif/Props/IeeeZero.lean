import Verif.Props.IeeeRel
import Verif.Props.Ieee3CP
/-
Property C92: vertices with a component that is zero (masked regions, walls) come back bit for
bit, in IEEE-754 arithmetic and from bytes to bytes.
-/

namespace CpSZ.Ieee
open CpSZ.Online2D

section
variable {T D : Type} {O : Ops T D} {F : Fmt} {vT : T → Fp ℚ} {vD : D → Fp ℚ} {eps : ℚ}

/-- A vertex that is never coded, whatever happened to the others, is not changed. -/
theorem untouched {P : Par D} {r1 r2 : Nat} {absEb : D → T → D}
    {bound : Online2D.Field T → Nat → Option D} {m m' : Online2D.Field T} {s : Streams T}
    (h : compress O P r1 r2 absEb bound m = some (m', s)) {k : Nat}
    (hk : ∀ f x y, f.u k = m.u k → f.v k = m.v k → ¬ Step O P r2 absEb bound f k x y) :
    m'.u k = m.u k ∧ m'.v k = m.v k := by
  refine compress_inv _ _ _ _ _ _ m m' s h (fun _ f => f.u k = m.u k ∧ f.v k = m.v k) ⟨rfl, rfl⟩
    (fun _ _ _ hI => hI) (fun p f x y _ hI hS => ?_)
  by_cases hp : k = p
  · subst hp
    exact absurd hS (hk f x y hI.1 hI.2)
  · simp only [Field.set, setAt, if_neg hp]
    exact hI

theorem isZero_of (hO : IsIeee O F vT vD eps) {x : T} (h : vT x = .fin 0) :
    eq0G O.toDOps (O.toD x) = true := by
  rw [hO.eq0_fin (by rw [hO.toD, h])]
  simp

/-- 2D absolute mode: the bound of a vertex with a component that is zero is 0. -/
theorem abs2_zero (hO : IsIeee O F vT vD eps) {E : EOps T D} {P : Par D} {r1 r2 : Nat} {maxEb : D}
    {m m' : Online2D.Field T} {s : Streams T}
    (h : compress O P r1 r2 (fun a _ => a) (boundAbsT O E r1 r2 maxEb) m = some (m', s)) {k : Nat}
    (hk : vT (m.u k) = .fin 0 ∨ vT (m.v k) = .fin 0) : m'.u k = m.u k ∧ m'.v k = m.v k := by
  refine untouched h fun f x y eu ev hS => ?_
  obtain ⟨req, -, -, -, -, hb, hlt, -⟩ := hS
  have hz : (eq0G O.toDOps (O.toD (f.u k)) || eq0G O.toDOps (O.toD (f.v k))) = true := by
    rw [eu, ev, Bool.or_eq_true]
    exact hk.imp (isZero_of hO) (isZero_of hO)
  unfold boundAbsT at hb
  rw [if_pos hz, Option.some.injEq] at hb
  rw [← hb, hO.lt, hO.zero] at hlt
  simp [Fp.lt] at hlt

end

section
open CpSZ.VMode CpSZ.ThreeD
variable {T D : Type} {O : Ops T D} {F : Fmt} {vT : T → Fp ℚ} {vD : D → Fp ℚ} {eps : ℚ}

/-- 3D absolute mode. -/
theorem abs3_zero (hO : IsIeee O F vT vD eps) {E : EOps T D} {logBase thr : D} {r1 r2 r3 : Nat}
    {base radius : Int} {maxEb : D} {cp : Nat → Bool} {data : Arr T} {s' : State T}
    {str : VMode.Streams T}
    (h : VMode.compress (absMode3 O logBase thr r2 r3 base radius)
      (planAbs3T O E r1 r2 r3 maxEb cp) (r1 * r2 * r3) data = some (s', str)) {k : Nat}
    (hn : k < r1 * r2 * r3) (hk : ∃ c, c < 3 ∧ vT (data c k) = .fin 0) (c : Nat) :
    s'.val c k = data c k := by
  obtain ⟨st, ws, R, rfl, rfl⟩ := compress_run _ _ _ _ _ _ h
  obtain ⟨w, hw⟩ := R.get hn
  have hs := R.step k w hw
  have hval : ∀ c, (st k).val c k = data c k := fun c => (R.later k hn.le c k (le_refl k)).2
  have hplan : planAbs3T O E r1 r2 r3 maxEb cp (st k) k = some (.lossless 0) := by
    unfold planAbs3T planAbs3
    obtain ⟨c, hc, hz⟩ := hk
    have hz' := isZero_of hO hz
    have e : (eq0G O.toDOps (O.toD ((st k).val 0 k)) || eq0G O.toDOps (O.toD ((st k).val 1 k)) ||
        eq0G O.toDOps (O.toD ((st k).val 2 k))) = true := by
      rw [hval, hval, hval]
      have : c = 0 ∨ c = 1 ∨ c = 2 := by omega
      rcases this with rfl | rfl | rfl <;> rw [hz'] <;> simp
    simp only [e, if_true, zero_false hO, Bool.false_eq_true, if_false]
  rcases encVertex_cases _ _ _ _ _ _ hs with ⟨id, -, rfl, -⟩ | ⟨e, qs, rfl, ⟨a, id, rs, hp, -⟩⟩
  · exact ((R.esc_final hw hn).2 c).2
  · rw [hplan] at hp; cases hp

end

section
variable {F : Fmt} {tr : Pat binary64 → Int} {lg sq : Pat binary64 → Pat binary64} {eps : ℚ}

/-- C92, 2D absolute mode, `float` or `double`: for all bit patterns as data and as bound (NaN,
infinities and huge values included), if the entropy coder can represent the index arrays, a
vertex one component of which is zero (with either sign) comes back bit for bit. -/
theorem C92_abs2 (hF : F = binary32 ∨ F = binary64) (hlg : LogOk lg eps) (ov : Bool)
    (cF : Codec (Pat F)) (E1 E2 : Env) (r1 r2 : Nat) (maxEb : Pat binary64)
    (m : Online2D.Field (Pat F)) :
    ∃ m' s, runAbs F tr lg ov r1 r2 maxEb m = some (m', s) ∧
      (Fits E1 (2 * 1024) s.eb → Fits E2 (2 * 65536) s.dq →
        ∃ bs, compressBytes (bitsOps F tr lg) cF (wordCodec 8) E1 E2 (parBits lg) r1 r2
            (fun a _ => a) (boundAbsT (bitsOps F tr lg) (bitsE F tr lg ov) r1 r2 maxEb) m =
              some (m', bs) ∧
          ∀ rest m0, ∃ d, decompressBytes (bitsOps F tr lg) cF (wordCodec 8) (parBits lg).logBase
              r1 r2 m0 (bs ++ rest) = some d ∧
            ∀ q, q < r1 * r2 → dec F (m.u q) = .fin 0 ∨ dec F (m.v q) = .fin 0 →
              d.u q = m.u q ∧ d.v q = m.v q) := by
  obtain ⟨m', s, h⟩ := runAbs_defined F tr lg ov r1 r2 maxEb m
  refine ⟨m', s, h, fun f1 f2 => ?_⟩
  obtain ⟨bs, hbs, hd⟩ := C13_online_roundtrip (bitsOps F tr lg) cF (wordCodec 8)
    E1 E2 (parBits lg) r1 r2 (fun a _ => a) _ m m' s h
    ⟨by change (0 : Int) ≤ 4; decide, by change (4 : Int) < _; decide⟩
    ⟨by change (0 : Int) ≤ 32768; decide, by change (32768 : Int) < _; decide⟩ rfl f1 f2
  refine ⟨bs, hbs, fun rest m0 => ?_⟩
  obtain ⟨d, hd1, hd2⟩ := hd rest m0
  refine ⟨d, hd1, fun q hq hz => ?_⟩
  rw [(hd2 q hq).1, (hd2 q hq).2]
  have hO : IsIeee (bitsOps F tr lg) F (dec F) (dec binary64) eps := by
    rcases hF with rfl | rfl
    · exact bits_ieee ok32 (by decide) (by decide) (by decide) tr hlg
    · exact bits_ieee ok64 (by decide) (by decide) (by decide) tr hlg
  exact abs2_zero hO h hz

/-- C92, 3D absolute mode: as in 2D, with any bitmap of critical points. -/
theorem C92_abs3 (hF : F = binary32 ∨ F = binary64) (hlg : LogOk lg eps)
    (cF : Codec (Pat F)) (E1 E2 : Env) (r1 r2 r3 : Nat) (maxEb : Pat binary64) (cp : Nat → Bool)
    (data : VMode.Arr (Pat F)) :
    ∃ s' str, runAbs3 F tr lg r1 r2 r3 maxEb cp data = some (s', str) ∧
      (Fits E1 (2 * 1024) str.eb → Fits E2 (2 * 65536) str.dq → str.un.length < 2 ^ 64 →
        ∃ bs, ThreeD.compressBytesAbs3 cF (wordCodec 8) E1 E2 (bitsOps F tr lg) (lb3 lg) thr3 r2 r3
            4 32768 (planBits3 F tr lg r1 r2 r3 maxEb cp) (r1 * r2 * r3) data =
              some (s'.val, bs) ∧
          ∀ rest m0 lb, ∃ d, ThreeD.decompressBytesAbs3 cF (wordCodec 8) (bitsOps F tr lg) lb r2 r3
              (r1 * r2 * r3) m0 (bs ++ rest) = some d ∧
            ∀ q, q < r1 * r2 * r3 → (∃ c, c < 3 ∧ dec F (data c q) = .fin 0) →
              ∀ c, c < 3 → d c q = data c q) := by
  obtain ⟨s', str, h⟩ := runAbs3_defined F tr lg r1 r2 r3 maxEb cp data
  refine ⟨s', str, h, fun f1 f2 f3 => ?_⟩
  obtain ⟨bs, hbs, hd⟩ := roundtrip3 cF E1 E2 h f1 f2 f3
  refine ⟨bs, hbs, fun rest m0 lb => ?_⟩
  obtain ⟨d, hd1, hd2⟩ := hd rest m0 lb
  refine ⟨d, hd1, fun q hq hz c hc => ?_⟩
  rw [hd2 c q hc hq]
  have hO : IsIeee (bitsOps F tr lg) F (dec F) (dec binary64) eps := by
    rcases hF with rfl | rfl
    · exact bits_ieee ok32 (by decide) (by decide) (by decide) tr hlg
    · exact bits_ieee ok64 (by decide) (by decide) (by decide) tr hlg
  exact abs3_zero hO h hq hz c

/-- C92, 2D relative mode, for data of at most `2^58` (`double`: `2^248`) and a bound of at most 1
(the mode has no test for zeros: the bound of the component is 0). -/
theorem C92_rel2 {r : Int} (hF : F = binary32 ∧ r = 58 ∨ F = binary64 ∧ r = 248)
    (hlg : LogOk lg eps) (hsq : SqrtOk sq)
    (hlb : dec binary64 (lg (enc binary64 false (.fin 4))) = .fin 2)
    (he0 : 0 ≤ eps) (he1 : eps ≤ p2 (-30)) (ov : Bool)
    (cF : Codec (Pat F)) (E1 E2 : Env) (r1 r2 : Nat) (maxEb : Pat binary64) (e : ℚ)
    (hm : dec binary64 maxEb = .fin e) (hep : 0 ≤ e) (her : e ≤ 1) (m : Online2D.Field (Pat F))
    (hf : ∀ q, q < r1 * r2 → Size F (p2 r) (m.u q) ∧ Size F (p2 r) (m.v q)) :
    ∃ m' s, runRel F tr lg sq ov r1 r2 maxEb m = some (m', s) ∧
      (Fits E1 (2 * 1024) s.eb → Fits E2 (2 * 65536) s.dq →
        ∃ bs, compressBytes (bitsOps F tr lg) cF (wordCodec 8) E1 E2 (parBits lg) r1 r2
            (relEbT (bitsOps F tr lg))
            (boundRelT (bitsOps F tr lg) (bitsR F tr lg sq ov) r1 r2 maxEb) m = some (m', bs) ∧
          ∀ rest m0, ∃ d, decompressBytes (bitsOps F tr lg) cF (wordCodec 8) (parBits lg).logBase
              r1 r2 m0 (bs ++ rest) = some d ∧
            ∀ q, q < r1 * r2 → dec F (m.u q) = .fin 0 ∨ dec F (m.v q) = .fin 0 →
              d.u q = m.u q ∧ d.v q = m.v q) := by
  obtain ⟨m', s, h⟩ := runRel_defined F tr lg sq ov r1 r2 maxEb m
  refine ⟨m', s, h, fun f1 f2 => ?_⟩
  obtain ⟨bs, hbs, hd⟩ := rel_bytes cF E1 E2 ov r1 r2 maxEb m m' s rfl h f1 f2
  refine ⟨bs, hbs, fun rest m0 => ?_⟩
  obtain ⟨d, hd1, hd2⟩ := hd rest m0
  refine ⟨d, hd1, fun q hq hz => ?_⟩
  rw [(hd2 q hq).1, (hd2 q hq).2]
  have key : ∀ q, q < r1 * r2 → (1 + p2 (-53)) * (e * |fval F (m.u q)|) ≤ 0 ∨
      (1 + p2 (-53)) * (e * |fval F (m.v q)|) ≤ 0 → m'.u q = m.u q ∧ m'.v q = m.v q := by
    have hthr : dec binary64 (parBits lg).thr = .fin (p2 (-52)) :=
      dec_enc ok64 _ (rep_p2 (by decide) (by decide))
    rcases hF with ⟨rfl, rfl⟩ | ⟨rfl, rfl⟩
    · exact (rel2_full (P := parBits lg) (bits_ieee ok32 (by decide) (by decide) (by decide) tr hlg)
        (bits_ieeeR ok32 (by decide) (by decide) (by decide) tr hlg hsq coef32 ov) ok32 (by decide)
        he0 he1 rfl rfl rfl hlb hthr (r := 58) (by norm_num) (by norm_num) (by decide) hm hep her
        (val := fval binary32) (fun c x => fval_fin) hf h).2.2.2
    · exact (rel2_full (P := parBits lg) (bits_ieee ok64 (by decide) (by decide) (by decide) tr hlg)
        (bits_ieeeR ok64 (by decide) (by decide) (by decide) tr hlg hsq coef64 ov) ok64 (by decide)
        he0 he1 rfl rfl rfl hlb hthr (r := 248) (by norm_num) (by norm_num) (by decide) hm hep her
        (val := fval binary64) (fun c x => fval_fin) hf h).2.2.2
  refine key q hq (hz.imp (fun hz => ?_) (fun hz => ?_)) <;> rw [fval_fin hz] <;> simp

end

/-! ### Examples -/

/-- Four vertices, the last one with a first component that is the negative zero. -/
def masked : Online2D.Field (Pat binary32) :=
  ⟨fun q => [f32 (1001 / 10), f32 (903 / 10), f32 (1107 / 10), 0x80000000#32].getD q 0,
   fun q => [f32 (1002 / 10), f32 (1004 / 10), f32 (1205 / 10), f32 (906 / 10)].getD q 0⟩

theorem masked_seen (ov : Bool) :
    seen (runAbs binary32 (fun _ => 0) floorLog2 ov 2 2 eb100 masked) =
    some (2, [22, 22, 22, 22, 22, 22, 0, 0],
      [45581, 45594, 31513, 32793, 34125, 35366, 32768, 32768],
      [12813 / 128, 5779 / 64, 7085 / 64, 0]) := by
  cases ov <;> decide +kernel

theorem masked_seen_rel (ov : Bool) :
    seen (runRel binary32 (fun _ => 0) floorLog2 bsqrt ov 2 2 eb100 masked) =
    some (2, [26, 26, 25, 26, 26, 26, 0, 0],
      [32818, 32818, 32749, 32768, 32773, 32778, 32768, 32768], [100, 181 / 2, 110, 0]) := by
  cases ov <;> decide +kernel

/-- `C92_abs2` on `masked`: the other vertices are coded with an error. -/
example (ov : Bool) (E1 E2 : Env) : ∃ m' s bs,
    runAbs binary32 (fun _ => 0) floorLog2 ov 2 2 eb100 masked = some (m', s) ∧
    num binary32 (m'.u 0) ≠ num binary32 (masked.u 0) ∧
    ∀ m0, ∃ d, decompressBytes (bitsOps binary32 (fun _ => 0) floorLog2) (wordCodec 4)
        (wordCodec 8) (parBits floorLog2).logBase 2 2 m0 bs = some d ∧
      d.u 3 = 0x80000000#32 ∧ d.v 3 = masked.v 3 := by
  obtain ⟨m', s, h, hc⟩ := C92_abs2 (F := binary32) (tr := fun _ => 0) (lg := floorLog2) (Or.inl rfl)
    (floorLog2_ok (le_refl 0)) ov (wordCodec 4) E1 E2 2 2 eb100 masked
  obtain ⟨f, t, h1, h2, h3, h4, h5⟩ := seen_some (masked_seen ov)
  rw [h1] at h
  simp only [Option.some.injEq, Prod.mk.injEq] at h
  obtain ⟨rfl, rfl⟩ := h
  have f1 : Fits E1 (2 * 1024) t.eb := by
    rw [h3]
    exact fits_of_short _ _ _ (by simp) (by simp) (by norm_num) (by simp)
  have f2 : Fits E2 (2 * 65536) t.dq := by
    rw [h4]
    exact fits_of_short _ _ _ (by simp) (by simp) (by norm_num) (by simp)
  obtain ⟨bs, -, hd⟩ := hc f1 f2
  refine ⟨f, t, bs, h1, ?_, fun m0 => ?_⟩
  · have e : num binary32 (f.u 0) = 12813 / 128 := by
      simp only [List.map_cons, List.cons.injEq] at h5
      exact h5.1
    rw [e]
    decide +kernel
  · obtain ⟨d, d1, d2⟩ := hd [] m0
    rw [List.append_nil] at d1
    obtain ⟨a, b⟩ := d2 3 (by norm_num) (Or.inl (by decide +kernel))
    exact ⟨d, d1, a, b⟩

/-- `C92_rel2` on `masked`. -/
example (ov : Bool) (E1 E2 : Env) : ∃ m' s bs,
    runRel binary32 (fun _ => 0) floorLog2 bsqrt ov 2 2 eb100 masked = some (m', s) ∧
    num binary32 (m'.u 0) ≠ num binary32 (masked.u 0) ∧
    ∀ m0, ∃ d, decompressBytes (bitsOps binary32 (fun _ => 0) floorLog2) (wordCodec 4)
        (wordCodec 8) (parBits floorLog2).logBase 2 2 m0 bs = some d ∧
      d.u 3 = 0x80000000#32 ∧ d.v 3 = masked.v 3 := by
  have hm : dec binary64 eb100 = .fin (num binary64 eb100) := by decide +kernel
  obtain ⟨m', s, h, hc⟩ := C92_rel2 (F := binary32) (tr := fun _ => 0) (lg := floorLog2) (sq := bsqrt)
    (Or.inl ⟨rfl, rfl⟩) (floorLog2_ok (le_refl 0)) bsqrt_ok floorLog2_four (le_refl 0) (p2_pos _).le ov
    (wordCodec 4) E1 E2 2 2 eb100 _ hm (by decide +kernel) (by decide +kernel) masked (by
      intro q hq
      have : ∀ q ∈ [0, 1, 2, 3], sizeB binary32 (p2 58) (masked.u q) = true ∧
        sizeB binary32 (p2 58) (masked.v q) = true := by decide +kernel
      obtain ⟨a, b⟩ := this q (by simp; omega)
      exact ⟨size_of a, size_of b⟩)
  obtain ⟨f, t, h1, h2, h3, h4, h5⟩ := seen_some (masked_seen_rel ov)
  rw [h1] at h
  simp only [Option.some.injEq, Prod.mk.injEq] at h
  obtain ⟨rfl, rfl⟩ := h
  have f1 : Fits E1 (2 * 1024) t.eb := by
    rw [h3]
    exact fits_of_short _ _ _ (by simp) (by simp) (by norm_num) (by simp)
  have f2 : Fits E2 (2 * 65536) t.dq := by
    rw [h4]
    exact fits_of_short _ _ _ (by simp) (by simp) (by norm_num) (by simp)
  obtain ⟨bs, -, hd⟩ := hc f1 f2
  refine ⟨f, t, bs, h1, ?_, fun m0 => ?_⟩
  · have e : num binary32 (f.u 0) = 100 := by
      simp only [List.map_cons, List.cons.injEq] at h5
      exact h5.1
    rw [e]
    decide +kernel
  · obtain ⟨d, d1, d2⟩ := hd [] m0
    rw [List.append_nil] at d1
    obtain ⟨a, b⟩ := d2 3 (by norm_num) (Or.inl (by decide +kernel))
    exact ⟨d, d1, a, b⟩

/-- `C92_abs3` on `lostCube`, whose vertex 1 is coded. -/
example (E1 E2 : Env) : ∃ s' str bs,
    runAbs3 binary32 (fun _ => 0) floorLog2 2 2 2 ebHuge
      (Mesh3D.computeCp (fun _ => false) 2 2 2) lostCube = some (s', str) ∧ str.dq.length = 3 ∧
    ∀ m0 lb, ∃ d, ThreeD.decompressBytesAbs3 (wordCodec 4) (wordCodec 8)
        (bitsOps binary32 (fun _ => 0) floorLog2) lb 2 2 8 m0 bs = some d ∧
      ∀ c, c < 3 → d c 4 = lostCube c 4 := by
  obtain ⟨s', str, h, hc⟩ := C92_abs3 (F := binary32) (tr := fun _ => 0) (lg := floorLog2)
    (Or.inl rfl) (floorLog2_ok (le_refl 0)) (wordCodec 4) E1 E2 2 2 2 ebHuge
    (Mesh3D.computeCp (fun _ => false) 2 2 2) lostCube
  obtain ⟨f, t, h1, h2, h3, h4, -⟩ := seenG_some lost_seen3
  rw [h1] at h
  simp only [Option.some.injEq, Prod.mk.injEq] at h
  obtain ⟨rfl, rfl⟩ := h
  have f1 : Fits E1 (2 * 1024) t.eb := by
    rw [h3]
    exact fits_of_short _ _ _ (by simp) (by simp) (by norm_num) (by simp)
  have f2 : Fits E2 (2 * 65536) t.dq := by
    rw [h4]
    exact fits_of_short _ _ _ (by simp) (by simp) (by norm_num) (by simp)
  obtain ⟨bs, -, hd⟩ := hc f1 f2 (by rw [h2]; norm_num)
  refine ⟨f, t, bs, h1, by rw [h4]; rfl, fun m0 lb => ?_⟩
  obtain ⟨d, d1, d2⟩ := hd [] m0 lb
  rw [List.append_nil] at d1
  exact ⟨d, d1, d2 4 (by norm_num) ⟨1, by norm_num, by decide +kernel⟩⟩

end CpSZ.Ieee
