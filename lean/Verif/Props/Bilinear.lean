import Verif.Bilinear.Derive
import Verif.Props.Log2D
import Mathlib.Data.List.NodupEquivFin
/-
Properties C47, C48 (2D mode for the bilinear interpolant).
-/

namespace CpSZ.VMode.Bilinear
open Mesh2D

section generic
variable {T D J : Type}

/-- The compressor including serialisation
(src/sz_compress_cp_preserve_2d_bilinear.cpp L1055-1070). -/
def compressBytesB (L : LOps T D) (c : Codec T) (E1 E2 : Env) (mk : Int → Int → Mode T D)
    (base radius : Int) (bound : Online2D.Field T → Nat → Option D)
    (verify : State T → Nat → List T → Option Bool) (n : Nat) (data : Arr T) :
    Option (Arr T × List Byte) :=
  match compressB L (mk base radius) bound verify n data with
  | none => none
  | some (s', str) =>
    match serialize c E1 E2 (2 * 1024) false base radius (signMaps L (mk base radius).K n data) str with
    | none => none
    | some bs => some (s'.val, bs)

/-- A vertex with a nonzero bound code has two nonzero components. -/
theorem codedB_nonzero (L : LOps T D) (logBase thr : D) (r2 : Nat) (base radius : Int)
    (bound : Online2D.Field T → Nat → Option D) (verify : State T → Nat → List T → Option Bool)
    (n : Nat) (data : Arr T) (s' : State T) (str : Streams T)
    (h : compressB L (mode2 L logBase thr r2 base radius) bound verify n data = some (s', str))
    (q : Nat) (e : Int) (he : str.eb[q]? = some e) (h0 : e ≠ 0) (hq : q < n) :
    L.isZero (data 0 q) = false ∧ L.isZero (data 1 q) = false := by
  rw [compressB_eq] at h
  obtain ⟨st, ws, R, rfl, rfl⟩ := compress_run _ _ _ _ _ _ h
  obtain ⟨w, hw⟩ := R.get hq
  have hs := R.step q w hw
  simp only [eb_get, hw, Option.map_some, Option.some.injEq] at he
  have l0 := (R.later q (by omega) 0 q (le_refl q)).2
  have l1 := (R.later q (by omega) 1 q (le_refl q)).2
  rcases encVertex_cases _ _ _ _ _ _ hs with ⟨id, -, rfl, h2⟩ | ⟨e', qs, rfl, ⟨a, id, rs, hp, -⟩⟩
  · simp only [VCode.id] at he
    subst he
    rcases h2 with h2 | ⟨a, h2⟩
    · rcases planB_cases L _ bound verify _ _ _ h2 with hh | ⟨_, _, _, _, _, hh⟩
      · cases hh; exact absurd rfl h0
      · cases hh
    · rcases planB_cases L _ bound verify _ _ _ h2 with hh | ⟨_, _, _, _, _, hh⟩
      · cases hh
      · cases hh; exact absurd rfl h0
  · rcases planB_cases L _ bound verify _ _ _ hp with hh | ⟨_, -, -, z0, z1, -⟩
    · cases hh
    · rw [l0] at z0; rw [l1] at z1; exact ⟨z0, z1⟩

/-- C47.  For any arithmetic, any derived bound, any verification and any field on a nonempty
grid: `sz_decompress_cp_preserve_2d_online_log` returns the compressor's reconstruction (from the
bytes, followed by anything, and for any previous contents of the output arrays), provided no
reconstructed logarithm is below -99. -/
theorem C47_roundtrip (L : LOps T D) (HL : LogLaws L) (c : Codec T) (E1 E2 : Env)
    (logBase thr : D) (r1 r2 : Nat) (base radius : Int)
    (bound : Online2D.Field T → Nat → Option D) (verify : State T → Nat → List T → Option Bool)
    (m : Online2D.Field T) (s' : State T) (str : Streams T)
    (h : compressB L (mode2 L logBase thr r2 base radius) bound verify (r1 * r2) (arr2 m) =
      some (s', str))
    (hn : 0 < r1 * r2) (hb : 0 ≤ base ∧ base < 2 ^ 31) (hr : 0 ≤ radius ∧ radius < 2 ^ 31)
    (f1 : Fits E1 (2 * 1024) str.eb) (f2 : Fits E2 (2 * (2 * radius).toNat) str.dq)
    (hun : str.un.length < 2 ^ 64)
    (hsmall : ∀ c q, c < 2 → q < r1 * r2 → L.isZero (m.u q) = false → L.isZero (m.v q) = false →
      L.ltM99 (s'.cod c q) = false) :
    ∃ bs, compressBytesB L c E1 E2 (mode2 L logBase thr r2) base radius bound verify (r1 * r2)
        (arr2 m) = some (s'.val, bs) ∧
      ∀ rest m0, ∃ d, decompressBytes L c (2 * 1024) false 2 (mode2 L logBase thr r2) (r1 * r2)
          m0 (bs ++ rest) = some d ∧
        ∀ c q, c < 2 → q < r1 * r2 → d c q = s'.val c q := by
  have h' := h
  rw [compressB_eq] at h'
  obtain ⟨bs, e, hd⟩ := log_roundtrip L HL c E1 E2 _ false (mode2 L logBase thr r2) base radius
    (planB L (mode2 L logBase thr r2 base radius) bound verify) _ _
    (goodB L HL logBase thr r2 base radius bound verify _) rfl (fun _ => rfl) hn hb hr s' str h'
    f1 f2 hun
    (fun c q e hc hq he hne => by
      have h0 : e ≠ 0 := by simpa [mode2] using hne
      obtain ⟨z0, z1⟩ := codedB_nonzero L logBase thr r2 base radius bound verify _ _ s' str h q e
        he h0 hq
      exact hsmall c q hc hq z0 z1)
  refine ⟨bs, ?_, hd⟩
  rw [← e]
  unfold compressBytesB compressBytes
  simp only [h, h']
  cases serialize c E1 E2 (2 * 1024) false base radius
    (signMaps L (mode2 L logBase thr r2 base radius).K (r1 * r2) (arr2 m)) str <;> rfl

/-- C47, second part.  For any arithmetic, both components of a vertex at which either is zero
are reconstructed exactly. -/
theorem C47_zero_exact (L : LOps T D) (logBase thr : D) (r2 : Nat) (base radius : Int)
    (bound : Online2D.Field T → Nat → Option D) (verify : State T → Nat → List T → Option Bool)
    (n : Nat) (m : Online2D.Field T) (s' : State T) (str : Streams T)
    (h : compressB L (mode2 L logBase thr r2 base radius) bound verify n (arr2 m) = some (s', str))
    (q : Nat) (hq : q < n) (hz : L.isZero (m.u q) = true ∨ L.isZero (m.v q) = true) :
    s'.val 0 q = m.u q ∧ s'.val 1 q = m.v q ∧ str.eb[q]? = some 0 := by
  have h0 := h
  rw [compressB_eq] at h
  obtain ⟨st, ws, R, rfl, rfl⟩ := compress_run _ _ _ _ _ _ h
  obtain ⟨w, hw⟩ := R.get hq
  have hid : w.id = 0 := by
    by_contra hne
    obtain ⟨z0, z1⟩ := codedB_nonzero L logBase thr r2 base radius bound verify n (arr2 m) _ _ h0 q
      w.id (by simp [eb_get, hw]) hne hq
    rcases hz with hz | hz
    · have : L.isZero (m.u q) = false := z0
      rw [hz] at this; cases this
    · have : L.isZero (m.v q) = false := z1
      rw [hz] at this; cases this
  cases w with
  | esc id xs =>
    obtain ⟨-, e⟩ := R.esc_final hw hq
    exact ⟨(e 0).2, (e 1).2, by simp [eb_get, hw, hid]⟩
  | coded e qs =>
    have hs := R.step q _ hw
    rcases encVertex_cases _ _ _ _ _ _ hs with ⟨id, -, h2, -⟩ | ⟨e', qs', h2, ⟨_, _, _, _, _, hp, -⟩⟩
    · cases h2
    · simp only [VCode.coded.injEq] at h2
      simp only [VCode.id] at hid
      omega

/-- C47, third part.  For any arithmetic the compressor with its bound and its verification is
defined on every field, i.e. reads no value outside the grid. -/
theorem C47_defined (L : LOps T D) (exp2D : T → D) (negD : D → D) (C : Check D J)
    (logBase thr : D) (r1 r2 : Nat) (base radius : Int) (maxEb : D) (minf : D → D → D)
    (derive : T → T → T → T → T → T → T → T → D) (m : Online2D.Field T) :
    ∃ s' str, compressB L (mode2 L logBase thr r2 base radius) (boundB r1 r2 maxEb minf derive)
      (verifyB L exp2D negD C r1 r2) (r1 * r2) (arr2 m) = some (s', str) := by
  rw [compressB_eq]
  apply compress_defined
  intro s p hp
  obtain ⟨b, hb⟩ := Option.isSome_iff_exists.1
    (boundB_defined r1 r2 maxEb minf derive (field2 s.val) p hp)
  unfold planB
  rw [hb]
  simp only
  split
  · split
    · split
      · rfl
      · rename_i rs hr
        have hl := (encComps_spec _ _ _ _ _ _ hr).1
        rw [List.length_range] at hl
        have hl : rs.length = 2 := hl
        obtain ⟨r0, rs, rfl⟩ := List.exists_cons_of_length_eq_add_one hl
        obtain ⟨r1', rs, rfl⟩ := List.exists_cons_of_length_eq_add_one
          (show rs.length = 0 + 1 by simpa using hl)
        have : rs = [] := by simpa using hl
        subst this
        obtain ⟨v, hv⟩ := Option.isSome_iff_exists.1
          (verifyLoop_defined L.toD C r1 r2 (field2 s.val) p hp
            (backD L exp2D negD (s.val 0 p) r0.2, backD L exp2D negD (s.val 1 p) r1'.2)
            [0, 1, 2, 3] (by simp))
        simp only [List.map_cons, List.map_nil, verifyB, hv]
        cases v <;> rfl
    · rfl
  · rfl

/-- C48.  For any arithmetic in which the verified values are the stored ones, any derived bound,
any extraction and any classification: in every cell of the grid, the extraction finds the same
number of critical points with the same types, in the same order, in the compressor's
reconstruction and in the input. -/
theorem C48_types_preserved (L : LOps T D) (exp2D : T → D) (negD : D → D)
    (HS : StoredIsVerified L exp2D negD) (C : Check D J) (logBase thr : D) (r1 r2 : Nat)
    (base radius : Int) (bound : Online2D.Field T → Nat → Option D) (m : Online2D.Field T)
    (s' : State T) (str : Streams T)
    (h : compressB L (mode2 L logBase thr r2 base radius) bound (verifyB L exp2D negD C r1 r2)
      (r1 * r2) (arr2 m) = some (s', str))
    (c : Cell) (hc : c.inGrid r1 r2) :
    (C.extract (c.quad L.toD r2 (field2 s'.val))).map C.ctype =
      (C.extract (c.quad L.toD r2 m)).map C.ctype := by
  rw [compressB_eq] at h
  refine compress_inv _ _ _ _ s' str h
    (fun _ s => C.sig (c.quad L.toD r2 (field2 s.val)) = C.sig (c.quad L.toD r2 m)) rfl
    (fun _ _ _ hI => hI) ?_
  intro p s s1 e qs hp hI hcod _
  rw [← hI]
  obtain ⟨rs, hl, hv, hval⟩ := coded_verified hcod
  have hl : rs.length = 2 := hl
  obtain ⟨r0, rs, rfl⟩ := List.exists_cons_of_length_eq_add_one hl
  obtain ⟨r1', rs, rfl⟩ := List.exists_cons_of_length_eq_add_one
    (show rs.length = 0 + 1 by simpa using hl)
  have : rs = [] := by simpa using hl
  subst this
  obtain ⟨b, hb, hb'⟩ := verifyB_spec HS C r1 r2 s p hp r0.2 r1'.2
  simp only [List.map_cons, List.map_nil] at hv
  rw [hv] at hb
  have := hb' (Option.some.inj hb).symm c hc
  rw [this, hval]
  rfl

end generic

section real
variable (derive : ℝ → ℝ → ℝ → ℝ → ℝ → ℝ → ℝ → ℝ → ℝ)

/-- The decoded field in exact arithmetic. -/
theorem decompressB_eq (r1 r2 : Nat) (maxEb : ℝ) (h0 : 0 ≤ maxEb) (h1 : maxEb ≤ 1)
    (m : Online2D.Field ℝ) (s' : State ℝ) (str : Streams ℝ) (m0 : Arr ℝ)
    (h : compressReal derive r1 r2 maxEb m = some (s', str))
    (hm : ∀ q, q < r1 * r2 → (m.u q = 0 ∨ (2 : ℝ) ^ (-98 : ℤ) ≤ |m.u q|) ∧
      (m.v q = 0 ∨ (2 : ℝ) ^ (-98 : ℤ) ≤ |m.v q|)) :
    ∃ d, decompressLog r1 r2 (signMaps realL 2 (r1 * r2) (arr2 m)) m0 str = some d ∧
      ∀ c q, c < 2 → q < r1 * r2 → d c q = s'.val c q := by
  have hI := bilInv_final r2 (r1 * r2) maxEb _
    (fun f p req hb => boundB_le r1 r2 maxEb derive f p req hb) _ m s' str h
  have h' := h
  unfold compressReal at h'
  rw [compressB_eq] at h'
  refine lockstep (realMode2 r2) _ _ (goodB realL realL_laws _ _ r2 2 32768 _ _ _) _ _ m0 s' str h' ?_
  intro c q e hc hq he hne
  have hc : c < 2 := hc
  have h0' : e ≠ 0 := by simpa [realMode2, mode2] using hne
  obtain ⟨z0, z1⟩ := codedB_nonzero realL _ _ r2 2 32768 _ _ _ _ s' str h q e he h0' hq
  have hcc : c = 0 ∨ c = 1 := by omega
  have hz : arr2 m c q ≠ 0 := by
    rcases hcc with rfl | rfl
    · exact of_decide_eq_false z0
    · exact of_decide_eq_false z1
  refine logFin_eq realL_laws _ _ _ _ _ (mapAt_signMaps realL _ _ _ _ _ hc hq)
    (cod_largeB h0 h1 hI c q hc ?_)
  have hm' : arr2 m c q = 0 ∨ (2 : ℝ) ^ (-98 : ℤ) ≤ |arr2 m c q| := by
    rcases hcc with rfl | rfl
    · exact (hm q hq).1
    · exact (hm q hq).2
  exact hm'.resolve_left hz

/-- C47, fourth part.  In exact arithmetic, for bounds at most 1 and values that are zero or at
least `2^-98` in magnitude, every decompressed value equals the input or has the same sign and
differs by less than its magnitude times the user's bound, whatever the derived bounds are. -/
theorem C47_sign_and_error (r1 r2 : Nat) (maxEb : ℝ) (h0 : 0 ≤ maxEb) (h1 : maxEb ≤ 1)
    (m : Online2D.Field ℝ) (s' : State ℝ) (str : Streams ℝ) (m0 d : Arr ℝ)
    (h : compressReal derive r1 r2 maxEb m = some (s', str))
    (hm : ∀ q, q < r1 * r2 → (m.u q = 0 ∨ (2 : ℝ) ^ (-98 : ℤ) ≤ |m.u q|) ∧
      (m.v q = 0 ∨ (2 : ℝ) ^ (-98 : ℤ) ≤ |m.v q|))
    (hd : decompressLog r1 r2 (signMaps realL 2 (r1 * r2) (arr2 m)) m0 str = some d)
    (q : Nat) (hq : q < r1 * r2) :
    (SignType.sign (d 0 q) = SignType.sign (m.u q) ∧
      (d 0 q = m.u q ∨ |d 0 q - m.u q| < |m.u q| * maxEb)) ∧
    (SignType.sign (d 1 q) = SignType.sign (m.v q) ∧
      (d 1 q = m.v q ∨ |d 1 q - m.v q| < |m.v q| * maxEb)) := by
  obtain ⟨d', hd', hA⟩ := decompressB_eq derive r1 r2 maxEb h0 h1 m s' str m0 h hm
  obtain rfl : d' = d := Option.some.inj (hd'.symm.trans hd)
  have hI := bilInv_final r2 (r1 * r2) maxEb _
    (fun f p req hb => boundB_le r1 r2 maxEb derive f p req hb) _ m s' str h
  have key : ∀ c, c < 2 → SignType.sign (d' c q) = SignType.sign (arr2 m c q) ∧
      (d' c q = arr2 m c q ∨ |d' c q - arr2 m c q| < |arr2 m c q| * maxEb) := by
    intro c hc
    rw [hA c q hc hq]
    rcases hI.err c q hc with e | ⟨e1, e2⟩
    · exact ⟨by rw [e], Or.inl e⟩
    · exact ⟨(Online2D.sign_eq_of_mul_pos e2).symm, Or.inr e1⟩
  exact ⟨key 0 (by omega), key 1 (by omega)⟩

/-- In exact arithmetic the verified values are the stored ones. -/
theorem storedIsVerified_real : StoredIsVerified realL (fun x => (2 : ℝ) ^ x) (fun x => -x) := by
  intro x l
  rfl

/-- The types found in a cell of the decoded field and of the input. -/
theorem sig_eq (r1 r2 : Nat) (maxEb : ℝ) (h0 : 0 ≤ maxEb) (h1 : maxEb ≤ 1)
    (m : Online2D.Field ℝ) (s' : State ℝ) (str : Streams ℝ) (m0 d : Arr ℝ)
    (h : compressReal derive r1 r2 maxEb m = some (s', str))
    (hm : ∀ q, q < r1 * r2 → (m.u q = 0 ∨ (2 : ℝ) ^ (-98 : ℤ) ≤ |m.u q|) ∧
      (m.v q = 0 ∨ (2 : ℝ) ^ (-98 : ℤ) ≤ |m.v q|))
    (hd : decompressLog r1 r2 (signMaps realL 2 (r1 * r2) (arr2 m)) m0 str = some d)
    (c : Cell) (hc : c.inGrid r1 r2) :
    (rootsOf (c.quad id r2 ⟨d 0, d 1⟩)).map
        (fun z => cpType ((c.quad id r2 ⟨d 0, d 1⟩).jac z.1 z.2)) =
      (rootsOf (c.quad id r2 m)).map (fun z => cpType ((c.quad id r2 m).jac z.1 z.2)) := by
  obtain ⟨d', hd', hA⟩ := decompressB_eq derive r1 r2 maxEb h0 h1 m s' str m0 h hm
  obtain rfl : d' = d := Option.some.inj (hd'.symm.trans hd)
  have hq : c.quad id r2 ⟨d' 0, d' 1⟩ = c.quad id r2 (field2 s'.val) := by
    obtain ⟨g1, g2⟩ := hc
    have fl := fun a b ha hb => flat_lt r1 r2 a b ha hb
    have e := fun c' a b hc' ha hb => hA c' _ hc' (fl a b ha hb)
    simp only [Cell.quad, field2, id]
    rw [e 0 c.a c.b (by omega) (by omega) (by omega), e 1 c.a c.b (by omega) (by omega) (by omega),
      e 0 c.a (c.b + 1) (by omega) (by omega) (by omega),
      e 1 c.a (c.b + 1) (by omega) (by omega) (by omega),
      e 0 (c.a + 1) (c.b + 1) (by omega) (by omega) (by omega),
      e 1 (c.a + 1) (c.b + 1) (by omega) (by omega) (by omega),
      e 0 (c.a + 1) c.b (by omega) (by omega) (by omega),
      e 1 (c.a + 1) c.b (by omega) (by omega) (by omega)]
  have ht := C48_types_preserved realL _ _ storedIsVerified_real realCheck _ _ r1 r2 2 32768 _ m s'
    str h c hc
  rw [hq]
  have ht : ((rootsOf (c.quad id r2 (field2 s'.val))).map (jacAt (c.quad id r2 (field2 s'.val)))).map
      getCpType = ((rootsOf (c.quad id r2 m)).map (jacAt (c.quad id r2 m))).map getCpType := ht
  simp only [List.map_map] at ht
  have hl : (rootsOf (c.quad id r2 (field2 s'.val))).length = (rootsOf (c.quad id r2 m)).length := by
    simpa using congrArg List.length ht
  apply List.ext_getElem
  · simpa using hl
  · intro i i1 i2
    simp only [List.length_map] at i1 i2
    have := List.getElem_of_eq ht (i := i) (by simpa using i1)
    simp only [List.getElem_map, Function.comp_apply, getCpType_inj, jacAt_eq] at this
    simpa using this

/-- Two zeros of a regular cell: one of them is a saddle, the other is not. -/
theorem two_zeros {q : Quad ℝ} (hq : q.Regular) {z z' : ℝ × ℝ} (hz : q.IsZero z)
    (hz' : q.IsZero z') (hne : z ≠ z') : cpType (q.jac z.1 z.2) ≠ cpType (q.jac z'.1 z'.2) := by
  obtain ⟨x, y⟩ := z
  obtain ⟨x', y'⟩ := z'
  obtain ⟨-, -, -, -, h1⟩ := hz
  obtain ⟨-, -, -, -, h2⟩ := hz'
  obtain ⟨r1, r2⟩ := hq
  simp only [Quad.val, Prod.mk.injEq] at h1 h2
  obtain ⟨h1, h3⟩ := h1
  obtain ⟨h2, h4⟩ := h2
  simp only [Quad.cross, Quad.mixed, Prod.fst_sub, Prod.snd_sub, Prod.fst_add, Prod.snd_add] at r1 r2
  set A0 := q.p0.1 - q.p1.1 + q.p2.1 - q.p3.1 with hA0
  set A1 := q.p0.2 - q.p1.2 + q.p2.2 - q.p3.2 with hA1
  set B0 := q.p1.1 - q.p0.1 with hB0
  set B1 := q.p1.2 - q.p0.2 with hB1
  set C0 := q.p3.1 - q.p0.1 with hC0
  set C1 := q.p3.2 - q.p0.2 with hC1
  have e1 : A0 * x * y + B0 * x + C0 * y + q.p0.1 = 0 := by rw [← h1, hA0, hB0, hC0]; ring
  have e2 : A0 * x' * y' + B0 * x' + C0 * y' + q.p0.1 = 0 := by rw [← h2, hA0, hB0, hC0]; ring
  have e3 : A1 * x * y + B1 * x + C1 * y + q.p0.2 = 0 := by rw [← h3, hA1, hB1, hC1]; ring
  have e4 : A1 * x' * y' + B1 * x' + C1 * y' + q.p0.2 = 0 := by rw [← h4, hA1, hB1, hC1]; ring
  have hy : y ≠ y' := by
    rintro rfl
    have hx : x - x' ≠ 0 := fun hc => hne (by rw [sub_eq_zero.1 hc])
    have k1 : A0 * y + B0 = 0 := by
      have : (x - x') * (A0 * y + B0) = 0 := by linear_combination e1 - e2
      exact (mul_eq_zero.1 this).resolve_left hx
    have k2 : A1 * y + B1 = 0 := by
      have : (x - x') * (A1 * y + B1) = 0 := by linear_combination e3 - e4
      exact (mul_eq_zero.1 this).resolve_left hx
    exact r1 (by linear_combination A0 * k2 - A1 * k1)
  have d1 : (q.jac x y).det = (A0 * y + B0) * (A1 * x + C1) - (A0 * x + C0) * (A1 * y + B1) := by
    simp only [Jac.det, Quad.jac, hA0, hA1, hB0, hB1, hC0, hC1]; ring
  have d2 : (q.jac x' y').det =
      (A0 * y' + B0) * (A1 * x' + C1) - (A0 * x' + C0) * (A1 * y' + B1) := by
    simp only [Jac.det, Quad.jac, hA0, hA1, hB0, hB1, hC0, hC1]; ring
  have k1 : (q.jac x y).det * (y - y') = (A0 * C1 - A1 * C0) * ((y - y') * (y - y')) := by
    rw [d1]
    linear_combination (A1 * e1 - A0 * e3) * (y - y') + ((A0 * y + B0) * e3 - (A1 * y + B1) * e1) -
      ((A0 * y' + B0) * e4 - (A1 * y' + B1) * e2)
  have k2 : (q.jac x' y').det * (y' - y) = (A0 * C1 - A1 * C0) * ((y - y') * (y - y')) := by
    rw [d2]
    linear_combination (A1 * e2 - A0 * e4) * (y' - y) + ((A0 * y' + B0) * e4 - (A1 * y' + B1) * e2) -
      ((A0 * y + B0) * e3 - (A1 * y + B1) * e1)
  have hyy : 0 < (y - y') * (y - y') := mul_self_pos.2 (sub_ne_zero.2 hy)
  have hw : A0 * C1 - A1 * C0 ≠ 0 := r2
  have hprod : (q.jac x y).det * (q.jac x' y').det < 0 := by
    have hk : (q.jac x y).det * (q.jac x' y').det * ((y - y') * (y - y')) =
        -((A0 * C1 - A1 * C0) * (A0 * C1 - A1 * C0) * ((y - y') * (y - y')) * ((y - y') * (y - y'))) := by
      linear_combination (-(q.jac x' y').det * (y' - y)) * k1 -
        (A0 * C1 - A1 * C0) * ((y - y') * (y - y')) * k2
    have hpos : 0 < (A0 * C1 - A1 * C0) * (A0 * C1 - A1 * C0) * ((y - y') * (y - y')) *
        ((y - y') * (y - y')) := mul_pos (mul_pos (mul_self_pos.2 hw) hyy) hyy
    by_contra hc
    have := mul_nonneg (not_lt.1 hc) hyy.le
    linarith
  have key : ∀ J J' : Jac, J.det < 0 → 0 < J'.det → cpType J ≠ cpType J' := by
    intro J J' a b
    have s1 : cpType J = .saddle := by
      have hd : 0 ≤ J.disc := by unfold Jac.disc; nlinarith [sq_nonneg J.tr]
      have hs := Real.mul_self_sqrt hd
      have hl : (J.tr + √J.disc) / 2 * ((J.tr - √J.disc) / 2) < 0 := by
        have : (J.tr + √J.disc) / 2 * ((J.tr - √J.disc) / 2) = J.det := by
          have : J.disc = J.tr ^ 2 - 4 * J.det := rfl
          linear_combination -(1 / 4) * hs - (1 / 4) * this
        rw [this]; exact a
      simp only [cpType, if_pos hd, if_pos hl]
    have s2 : cpType J' ≠ .saddle := by
      unfold cpType
      split
      · rename_i hd
        have hs := Real.mul_self_sqrt hd
        have hl : ¬ (J'.tr + √J'.disc) / 2 * ((J'.tr - √J'.disc) / 2) < 0 := by
          have : (J'.tr + √J'.disc) / 2 * ((J'.tr - √J'.disc) / 2) = J'.det := by
            have : J'.disc = J'.tr ^ 2 - 4 * J'.det := rfl
            linear_combination -(1 / 4) * hs - (1 / 4) * this
          rw [this]; exact not_lt.2 b.le
        simp only [if_neg hl]
        split
        · simp
        · split <;> simp
      · split
        · simp
        · split <;> simp
    rw [s1]; exact fun h => s2 h.symm
  rcases mul_neg_iff.1 hprod with ⟨a, b⟩ | ⟨a, b⟩
  · exact fun h => key _ _ b a h.symm
  · exact key _ _ a b

/-- C48 in exact arithmetic, with the missing part kept in view: in a cell that is regular (the
`x y` coefficient of the interpolant is parallel neither to that of `x` nor to that of `y`) with
non-degenerate critical points, and that has a critical point or stays regular, the zeros of the
decompressed interpolant correspond one to one to those of the input, with equal types; for any
derived bounds.  Missing: cells that are not regular, see `C48_critical_point_lost`. -/
theorem C48_exact_partial (r1 r2 : Nat) (maxEb : ℝ) (h0 : 0 ≤ maxEb) (h1 : maxEb ≤ 1)
    (m : Online2D.Field ℝ) (s' : State ℝ) (str : Streams ℝ) (m0 d : Arr ℝ)
    (h : compressReal derive r1 r2 maxEb m = some (s', str))
    (hm : ∀ q, q < r1 * r2 → (m.u q = 0 ∨ (2 : ℝ) ^ (-98 : ℤ) ≤ |m.u q|) ∧
      (m.v q = 0 ∨ (2 : ℝ) ^ (-98 : ℤ) ≤ |m.v q|))
    (hd : decompressLog r1 r2 (signMaps realL 2 (r1 * r2) (arr2 m)) m0 str = some d)
    (c : Cell) (hc : c.inGrid r1 r2) (hreg : (c.quad id r2 m).Regular)
    (hdet : ∀ z, (c.quad id r2 m).IsZero z → ((c.quad id r2 m).jac z.1 z.2).det ≠ 0)
    (hreg' : (∃ z, (c.quad id r2 m).IsZero z) ∨ (c.quad id r2 ⟨d 0, d 1⟩).Regular) :
    ∃ f : {z // (c.quad id r2 m).IsZero z} ≃ {z // (c.quad id r2 ⟨d 0, d 1⟩).IsZero z},
      ∀ z, cpType ((c.quad id r2 ⟨d 0, d 1⟩).jac (f z).1.1 (f z).1.2) =
        cpType ((c.quad id r2 m).jac z.1.1 z.1.2) := by
  have hs := sig_eq derive r1 r2 maxEb h0 h1 m s' str m0 d h hm hd c hc
  generalize c.quad id r2 ⟨d 0, d 1⟩ = q' at *
  generalize c.quad id r2 m = q at *
  have hl : (rootsOf q').length = (rootsOf q).length := by simpa using congrArg List.length hs
  have hR' : q'.Regular := by
    rcases hreg' with ⟨z, hz⟩ | h
    · by_contra hc
      rw [rootsOf_irregular q' hc] at hl
      have := (rootsOf_mem q hreg z).2 hz
      rw [List.eq_nil_of_length_eq_zero hl.symm] at this
      simp at this
    · exact h
  have hn := rootsOf_nodup q hreg hdet
  have hty : ∀ i (h1 : i < (rootsOf q').length) (h2 : i < (rootsOf q).length),
      cpType (q'.jac (rootsOf q')[i].1 (rootsOf q')[i].2) =
        cpType (q.jac (rootsOf q)[i].1 (rootsOf q)[i].2) := by
    intro i h1 h2
    have := List.getElem_of_eq hs (i := i) (by simpa using h1)
    simpa using this
  have hn' : (rootsOf q').Nodup := by
    rw [List.nodup_iff_injective_get]
    intro i j hij
    by_contra hne
    have hij' : (rootsOf q')[i.1] = (rootsOf q')[j.1] := hij
    have a := hty i.1 i.2 (by omega)
    have b := hty j.1 j.2 (by omega)
    rw [hij', b] at a
    refine two_zeros hreg ((rootsOf_mem q hreg _).1 (List.getElem_mem (by omega : i.1 < _)))
      ((rootsOf_mem q hreg _).1 (List.getElem_mem (by omega : j.1 < _))) ?_ a.symm
    intro he
    exact hne (Fin.ext ((List.Nodup.getElem_inj_iff hn).1 he))
  classical
  let e : {z // q.IsZero z} ≃ {z // z ∈ rootsOf q} :=
    Equiv.subtypeEquivRight fun z => (rootsOf_mem q hreg z).symm
  let e' : {z // z ∈ rootsOf q'} ≃ {z // q'.IsZero z} :=
    Equiv.subtypeEquivRight fun z => rootsOf_mem q' hR' z
  let g := List.Nodup.getEquiv _ hn
  let g' := List.Nodup.getEquiv _ hn'
  refine ⟨e.trans (g.symm.trans ((finCongr hl.symm).trans (g'.trans e'))), fun z => ?_⟩
  obtain ⟨i, hi⟩ : ∃ i, e z = g i := ⟨g.symm (e z), by simp⟩
  have h1 : (z : ℝ × ℝ) = (rootsOf q)[i.1] := by
    have : ((e z : {z // z ∈ rootsOf q}) : ℝ × ℝ) = ((g i : {z // z ∈ rootsOf q}) : ℝ × ℝ) := by rw [hi]
    exact this
  have h2 : ((e.trans (g.symm.trans ((finCongr hl.symm).trans (g'.trans e')))) z : ℝ × ℝ) =
      (rootsOf q')[i.1]'(by omega) := by
    simp only [Equiv.trans_apply, hi, Equiv.symm_apply_apply]
    rfl
  rw [h1, h2]
  exact hty i.1 (by omega) i.2

end real


/-! ### A critical point is lost -/

/-- A field on a 2 by 2 grid whose second component does not depend on the column. -/
noncomputable def lostField : Online2D.Field ℝ :=
  ⟨fun q => [-7 / 5, 8, 5, 0].getD q 0, fun q => [-1, -1, 4, 4].getD q 0⟩

/-- Lossless vertices leave the state unchanged. -/
theorem encVertexB_lossless {r2 : Nat} {bound : Online2D.Field ℝ → Nat → Option ℝ}
    {verify : State ℝ → Nat → List ℝ → Option Bool} {s : State ℝ} {p : Nat} {req : ℝ}
    (hb : bound (field2 s.val) p = some req)
    (hz : req ≤ 0 ∨ s.val 0 p = 0 ∨ s.val 1 p = 0) :
    encVertexB realL (realMode2 r2) bound verify s p =
      some (s, .esc 0 (col (realMode2 r2).K s.val p)) := by
  unfold encVertexB
  rw [hb]
  have : (realL.lt (realL.ofInt 0) req && !realL.isZero (s.val 0 p) && !realL.isZero (s.val 1 p)) =
      false := by
    rcases hz with h | h | h
    · have : realL.lt (realL.ofInt 0) req = false := by
        have : decide (((0 : Int) : ℝ) < req) = false := decide_eq_false (by push_cast; linarith)
        exact this
      rw [this]; rfl
    · have : realL.isZero (s.val 0 p) = true := decide_eq_true h
      rw [this]; simp
    · have : realL.isZero (s.val 1 p) = true := decide_eq_true h
      rw [this]; simp
  simp only [this, Bool.false_eq_true, if_false]

/-- C48, limit of the claim.  The extraction gives up on cells that are not regular, so these are
not protected by the verification, and the bound derived at a vertex tests only one of the two
degeneracies.  The cell of this field has a critical point at height 1/5; the first vertex is
moved from -7/5 to -1, after which there is none. -/
theorem C48_critical_point_lost :
    ∃ s' str d, compressReal deriveB 2 2 1 lostField = some (s', str) ∧
      decompressLog 2 2 (signMaps realL 2 (2 * 2) (arr2 lostField)) (fun _ _ => 0) str = some d ∧
      (∃ z, ((⟨0, 0⟩ : Cell).quad id 2 lostField).IsZero z ∧
        (((⟨0, 0⟩ : Cell).quad id 2 lostField).jac z.1 z.2).det ≠ 0) ∧
      ∀ z, ¬ ((⟨0, 0⟩ : Cell).quad id 2 ⟨d 0, d 1⟩).IsZero z := by
  set s0 := initState (realMode2 2) (arr2 lostField) with hs0
  have v00 : s0.val 0 0 = -7 / 5 := rfl
  have v10 : s0.val 1 0 = -1 := rfl
  have hb0 : boundB 2 2 1 min deriveB (field2 s0.val) 0 = some (24 / 29) := by
    have hx : deriveB 5 0 8 (-7 / 5) 4 4 (-1) (-1) = 24 / 29 := deriveB_example
    simp [boundB, boundLoop, inMesh4, inRange, di4, dj4, tab, tx4, ty4, offsets9, rd, field2, s0,
      initState, arr2, lostField]
    rw [hx]; norm_num
  have hlogb : 1 / 2 ≤ Real.logb 2 (53 / 29) ∧ Real.logb 2 (53 / 29) < 1 := by
    constructor
    · rw [Real.le_logb_iff_rpow_le (by norm_num) (by norm_num), ← Real.sqrt_eq_rpow]
      rw [Real.sqrt_le_left (by norm_num)]; norm_num
    · rw [Real.logb_lt_iff_lt_rpow (by norm_num) (by norm_num)]; norm_num
  have hlog7 : 0 < Real.logb 2 (7 / 5) ∧ Real.logb 2 (7 / 5) < 1 / 2 := by
    constructor
    · exact Real.logb_pos (by norm_num) (by norm_num)
    · rw [Real.logb_lt_iff_lt_rpow (by norm_num) (by norm_num), ← Real.sqrt_eq_rpow]
      exact Real.lt_sqrt_of_sq_lt (by norm_num)
  have hq : ebQuant realD 2 (Real.logb 2 2) (1 / 2 ^ 23) (Real.logb 2 (53 / 29)) = (1 / 2, 22) := by
    set L := Real.logb 2 (53 / 29) with hL
    have h1 : Real.logb 2 (L / (1 / 2 ^ 23)) / Real.logb 2 2 = Real.logb 2 L + 23 := by
      have : L / (1 / 2 ^ 23) = L * 2 ^ 23 := by rw [div_div_eq_mul_div, div_one]
      rw [this, Real.logb_mul (by linarith [hlogb.1]) (by norm_num), Real.logb_pow]
      simp
    have h2 : truncR (Real.logb 2 L + 23) = 22 := by
      have a : -1 ≤ Real.logb 2 L := by
        rw [Real.le_logb_iff_rpow_le (by norm_num) (by linarith [hlogb.1]), Real.rpow_neg_one]
        linarith [hlogb.1]
      have b : Real.logb 2 L < 0 := Real.logb_neg (by norm_num) (by linarith [hlogb.1]) hlogb.2
      rw [truncR_nonneg (by linarith), Int.floor_eq_iff]
      push_cast
      exact ⟨by linarith, by linarith⟩
    unfold ebQuant
    have h3 : realD.le L (1 / 2 ^ 23) = false := by
      have : decide (L ≤ 1 / 2 ^ 23) = false := by
        apply decide_eq_false
        have := hlogb.1
        norm_num
        linarith
      exact this
    rw [h3]
    have h4 : realD.trunc (realD.div (realD.log2 (realD.div L (1 / 2 ^ 23))) (Real.logb 2 2)) = 22 := by
      rw [← h2, ← h1]; rfl
    simp only [Bool.false_eq_true, if_false, h4]
    simp only [realD]
    norm_num
  have hlt : logFwd realL (-7 / 5) = Real.logb 2 (7 / 5) := by
    rw [logFwd_real (by norm_num)]; norm_num [abs_of_neg]
  have hlt1 : logFwd realL (-1) = 0 := by
    rw [logFwd_real (by norm_num)]; simp
  have hlin : ∀ d : ℝ, 0 ≤ d → d < 1 / 2 → linQuant realD d (1 / 2) 65536 32768 = some 32768 := by
    intro d h1 h2
    unfold linQuant
    have h3 : truncR ((|d| / (1 / 2) + ((1 : Int) : ℝ)) / ((2 : Int) : ℝ)) = 0 := by
      rw [abs_of_nonneg h1, truncR_nonneg (by positivity), Int.floor_eq_iff]
      push_cast
      constructor
      · positivity
      · linarith
    have h4 : |d| / (1 / 2) + ((1 : Int) : ℝ) < ((65536 : Int) : ℝ) := by
      rw [abs_of_nonneg h1]; push_cast; linarith
    have h5 : realD.lt (realD.add (realD.div (realD.abs d) (1 / 2)) (realD.ofInt 1))
        (realD.ofInt 65536) = true := decide_eq_true h4
    simp only [h5, if_true]
    split
    · have : realD.trunc (realD.div (realD.add (realD.div (realD.abs d) (1 / 2)) (realD.ofInt 1))
          (realD.ofInt 2)) = 0 := h3
      rw [this]; rfl
    · have : realD.trunc (realD.div (realD.neg (realD.add (realD.div (realD.abs d) (1 / 2))
          (realD.ofInt 1))) (realD.ofInt 2)) = 0 := by
        have : truncR (-(|d| / (1 / 2) + ((1 : Int) : ℝ)) / ((2 : Int) : ℝ)) = 0 := by
          rw [neg_div, truncR_neg, h3]; rfl
        exact this
      rw [this]; rfl
  have hcomp : ∀ c, c < 2 → encComp (realMode2 2) (s0.cod c) 0 (1 / 2) = some (32768, 0) := by
    intro c hc
    have hp : (realMode2 2).pred (s0.cod c) 0 = 0 := by
      simp [realMode2, mode2, Online2D.lorenzo, realL, realOps]
    have hcur : 0 ≤ s0.cod c 0 ∧ s0.cod c 0 < 1 / 2 := by
      have : c = 0 ∨ c = 1 := by omega
      rcases this with rfl | rfl
      · have : s0.cod 0 0 = logFwd realL (-7 / 5) := rfl
        rw [this, hlt]; exact ⟨hlog7.1.le, hlog7.2⟩
      · have : s0.cod 1 0 = logFwd realL (-1) := rfl
        rw [this, hlt1]; norm_num
    unfold encComp
    rw [hp]
    have e1 : (realMode2 2).O.toD ((realMode2 2).O.subT (s0.cod c 0) 0) = s0.cod c 0 := by
      simp [realMode2, mode2, realL, realOps]
    have e2 : linQuant (realMode2 2).O.toDOps (s0.cod c 0) (1 / 2) (realMode2 2).capacity
        (realMode2 2).radius = some 32768 := hlin _ hcur.1 hcur.2
    simp only [e1, e2]
    have e3 : (realMode2 2).O.ofD ((realMode2 2).O.add ((realMode2 2).O.toD 0)
        (linOffset (realMode2 2).O.toDOps (1 / 2) (realMode2 2).radius 32768)) = 0 := by
      simp [realMode2, mode2, realL, realOps, realD, linOffset]
    rw [e3]
    have e4 : (realMode2 2).O.le (1 / 2) ((realMode2 2).O.abs ((realMode2 2).O.toD
        ((realMode2 2).O.subT 0 (s0.cod c 0)))) = false := by
      have : decide ((1 / 2 : ℝ) ≤ |0 - s0.cod c 0|) = false := by
        apply decide_eq_false
        rw [zero_sub, abs_neg, abs_of_nonneg hcur.1]
        exact not_le.2 hcur.2
      exact this
    rw [e4]
    rfl
  have hver : verifyB realL (fun x => (2 : ℝ) ^ x) (fun x => -x) realCheck 2 2 s0 0 [0, 0] =
      some true := by
    have hirr : ∀ a : ℝ, ¬ (⟨(a, -1), (8, -1), (0, 4), (5, 4)⟩ : Quad ℝ).Regular := by
      intro a h
      apply h.1
      simp only [Quad.cross, Quad.mixed, Prod.fst_sub, Prod.snd_sub, Prod.fst_add, Prod.snd_add]
      ring
    have hback : backD realL (fun x => (2 : ℝ) ^ x) (fun x => -x) (s0.val 0 0) 0 = -1 ∧
        backD realL (fun x => (2 : ℝ) ^ x) (fun x => -x) (s0.val 1 0) 0 = -1 := by
      rw [v00, v10]
      unfold backD
      have p1 : realL.pos (-7 / 5) = false := by
        have : decide ((0 : ℝ) < -7 / 5) = false := decide_eq_false (by norm_num)
        exact this
      have p2 : realL.pos (-1) = false := by
        have : decide ((0 : ℝ) < -1) = false := decide_eq_false (by norm_num)
        exact this
      rw [p1, p2]
      simp
    unfold verifyB
    simp only
    rw [hback.1, hback.2]
    have hsame : sameCell realCheck ⟨(-7 / 5, -1), (8, -1), (0, 4), (5, 4)⟩
        ⟨(-1, -1), (8, -1), (0, 4), (5, 4)⟩ = true := by
      rw [sameCell_iff]
      simp only [Check.sig, realCheck, rootsOf_irregular _ (hirr _), List.map_nil]
    have h4 : quadAt (rdVec realL.toD (2 * 2) (field2 s0.val) 0) (cornerOff 2 2) =
        some ⟨(-7 / 5, -1), (8, -1), (0, 4), (5, 4)⟩ := rfl
    have h5 : quadAt (fun o => if o = 0 then some (-1, -1) else
        rdVec realL.toD (2 * 2) (field2 s0.val) 0 o) (cornerOff 2 2) =
        some ⟨(-1, -1), (8, -1), (0, 4), (5, 4)⟩ := rfl
    have m0 : inMesh4 2 2 (0 / 2) (0 % 2) 0 = false := by decide
    have m1 : inMesh4 2 2 (0 / 2) (0 % 2) 1 = false := by decide
    have m2 : inMesh4 2 2 (0 / 2) (0 % 2) 2 = true := by decide
    have m3 : inMesh4 2 2 (0 / 2) (0 % 2) 3 = false := by decide
    simp only [verifyLoop, m0, m1, m2, m3, h4, h5, hsame, if_true, Bool.false_eq_true, if_false]
  have hv0 : encVertexB realL (realMode2 2) (boundB 2 2 1 min deriveB)
      (verifyB realL (fun x => (2 : ℝ) ^ x) (fun x => -x) realCheck 2 2) s0 0 =
      some (⟨setCol s0.cod 0 [0, 0], setCol s0.val 0 [-1, -1]⟩, .coded 22 [32768, 32768]) := by
    have h1 : realL.lt (realL.ofInt 0) (24 / 29) = true := by
      have : decide (((0 : Int) : ℝ) < 24 / 29) = true := decide_eq_true (by norm_num)
      exact this
    have z0 : realL.isZero (s0.val 0 0) = false := by
      rw [v00]
      have : decide ((-7 / 5 : ℝ) = 0) = false := decide_eq_false (by norm_num)
      exact this
    have z1 : realL.isZero (s0.val 1 0) = false := by
      rw [v10]
      have : decide ((-1 : ℝ) = 0) = false := decide_eq_false (by norm_num)
      exact this
    have h2 : ebQuant (realMode2 2).O.toDOps (realMode2 2).base (realMode2 2).logBase
        (realMode2 2).thr (realL.log2 (realL.add (realL.ofInt 1) (24 / 29))) = (1 / 2, 22) := by
      have : realL.log2 (realL.add (realL.ofInt 1) (24 / 29)) = Real.logb 2 (53 / 29) := by
        simp only [realL, realOps, realD]; norm_num
      rw [this]; exact hq
    have h3 : encComps (realMode2 2) s0.cod 0 (1 / 2) (List.range (realMode2 2).K) =
        some [(32768, 0), (32768, 0)] := by
      have hr : List.range (realMode2 2).K = [0, 1] := rfl
      rw [hr]
      simp only [encComps, hcomp 0 (by omega), hcomp 1 (by omega)]
    have h6 : List.zipWith (realMode2 2).back (col (realMode2 2).K s0.val 0) [0, 0] = [-1, -1] := by
      have : List.zipWith (realMode2 2).back (col (realMode2 2).K s0.val 0) [0, 0] =
          [logBack realL (-7 / 5) 0, logBack realL (-1) 0] := rfl
      rw [this]
      have p1 : realL.pos (-7 / 5) = false := by
        have : decide ((0 : ℝ) < -7 / 5) = false := decide_eq_false (by norm_num)
        exact this
      have p2 : realL.pos (-1) = false := by
        have : decide ((0 : ℝ) < -1) = false := decide_eq_false (by norm_num)
        exact this
      simp only [logBack, p1, p2, Bool.false_eq_true, if_false]
      simp [realL]
    unfold encVertexB
    rw [hb0]
    simp only [h1, z0, z1, h2, h3, Bool.not_false, Bool.and_self, if_true, List.map_cons,
      List.map_nil, hver, h6]
    rfl
  set s1 : State ℝ := ⟨setCol s0.cod 0 [0, 0], setCol s0.val 0 [-1, -1]⟩ with hs1
  have hb1 : boundB 2 2 1 min deriveB (field2 s1.val) 1 = some 0 := by
    have hx : deriveB (-1) 5 0 8 (-1) 4 4 (-1) = 0 := by unfold deriveB; norm_num
    simp [boundB, boundLoop, inMesh4, inRange, di4, dj4, tab, tx4, ty4, offsets9, rd, field2, s1, s0,
      initState, arr2, lostField, setCol]
    rw [hx]; norm_num
  have hb2 : boundB 2 2 1 min deriveB (field2 s1.val) 2 = some 0 := by
    have hx : deriveB 0 8 (-1) 5 4 (-1) (-1) 4 = 0 := by unfold deriveB; norm_num
    simp [boundB, boundLoop, inMesh4, inRange, di4, dj4, tab, tx4, ty4, offsets9, rd, field2, s1, s0,
      initState, arr2, lostField, setCol]
    rw [hx]; norm_num
  obtain ⟨b3, hb3⟩ := Option.isSome_iff_exists.1
    (boundB_defined 2 2 1 min deriveB (field2 s1.val) 3 (by norm_num))
  have hv1 := encVertexB_lossless (r2 := 2) (s := s1)
    (verify := verifyB realL (fun x => (2 : ℝ) ^ x) (fun x => -x) realCheck 2 2) hb1
    (Or.inl (le_refl _))
  have hv2 := encVertexB_lossless (r2 := 2) (s := s1)
    (verify := verifyB realL (fun x => (2 : ℝ) ^ x) (fun x => -x) realCheck 2 2) hb2
    (Or.inl (le_refl _))
  have hv3 := encVertexB_lossless (r2 := 2) (s := s1)
    (verify := verifyB realL (fun x => (2 : ℝ) ^ x) (fun x => -x) realCheck 2 2) hb3
    (Or.inr (Or.inl rfl))
  have hrun : ∃ str, compressReal deriveB 2 2 1 lostField = some (s1, str) := by
    unfold compressReal compressB
    simp only [← hs0, scanEnc, hv0, hv1, hv2, hv3]
    exact ⟨_, rfl⟩
  obtain ⟨str, hrun⟩ := hrun
  have h98 : (2 : ℝ) ^ (-98 : ℤ) ≤ 1 := by
    rw [zpow_neg]; exact inv_le_one_of_one_le₀ (by norm_num)
  obtain ⟨d, hd, hA⟩ := decompressB_eq deriveB 2 2 1 (by norm_num) (by norm_num) lostField s1 str
    (fun _ _ => 0) hrun (by
      intro q hq
      have : q = 0 ∨ q = 1 ∨ q = 2 ∨ q = 3 := by omega
      rcases this with rfl | rfl | rfl | rfl <;>
        simp only [lostField, List.getD_cons_zero, List.getD_cons_succ]
      · exact ⟨Or.inr (h98.trans (by norm_num [abs_of_neg])), Or.inr (h98.trans (by norm_num))⟩
      · exact ⟨Or.inr (h98.trans (by norm_num)), Or.inr (h98.trans (by norm_num))⟩
      · exact ⟨Or.inr (h98.trans (by norm_num)), Or.inr (h98.trans (by norm_num))⟩
      · exact ⟨Or.inl trivial, Or.inr (h98.trans (by norm_num))⟩)
  refine ⟨s1, str, d, hrun, hd, ⟨(3 / 163, 1 / 5), ?_, ?_⟩, ?_⟩
  · refine ⟨by norm_num, by norm_num, by norm_num, by norm_num, ?_⟩
    simp only [Quad.val, Cell.quad, lostField, id, List.getD_cons_zero, List.getD_cons_succ]
    norm_num
  · simp only [Quad.jac, Jac.det, Cell.quad, lostField, id]
    norm_num
  · have hq : (⟨0, 0⟩ : Cell).quad id 2 ⟨d 0, d 1⟩ = ⟨(-1, -1), (8, -1), (0, 4), (5, 4)⟩ := by
      simp only [Cell.quad, id]
      norm_num
      rw [hA 0 0 (by omega) (by omega), hA 0 1 (by omega) (by omega), hA 0 2 (by omega) (by omega),
        hA 0 3 (by omega) (by omega), hA 1 0 (by omega) (by omega), hA 1 1 (by omega) (by omega),
        hA 1 2 (by omega) (by omega), hA 1 3 (by omega) (by omega)]
      exact ⟨⟨rfl, rfl⟩, ⟨rfl, rfl⟩, ⟨rfl, rfl⟩, rfl, rfl⟩
    rw [hq]
    rintro ⟨x, y⟩ ⟨hx0, hx1, hy0, hy1, hz⟩
    simp only [Quad.val, Prod.mk.injEq] at hz hx0 hx1 hy0 hy1
    obtain ⟨hu, hv⟩ := hz
    have hy : y = 1 / 5 := by linarith
    subst hy
    nlinarith

/-! ### Examples -/

/-- A toy check: cells whose first value is below 200 have one "critical point", whose type
depends on the values at two corners. -/
def toyCheck : Check (BitVec 64) (Quad (BitVec 64)) where
  extract q := if (q.p0.1).slt 200#64 then [q] else []
  ctype q := if (q.p0.1).slt 101#64 then 1 else if (q.p0.2).slt (q.p1.2) then 2 else 3

def toyBound : Online2D.Field (BitVec 64) → Nat → Option (BitVec 64) :=
  boundB 2 2 0xfffff#64 (fun a b => if a.slt b then a else b)
    (fun _ _ _ u _ _ _ _ => if u.slt 0#64 then 0x1ffff#64 else 0x2ffff#64)

def toyVerify : State (BitVec 64) → Nat → List (BitVec 64) → Option Bool :=
  verifyB toyL toyL.exp2T (fun x => -x) toyCheck 2 2

def toyFieldB (a : BitVec 64) : Online2D.Field (BitVec 64) :=
  ⟨fun q => [a, -103#64, 0#64, 107#64].getD q 0#64,
   fun q => [-50#64, 53#64, 7#64, 55#64].getD q 0#64⟩

theorem toy_stored : StoredIsVerified toyL toyL.exp2T (fun x => -x) := fun _ _ => rfl

/-- The hypotheses of C47 and C48 hold for a field in which the verification refuses the first
vertex (104 instead of 100 would change the type), the second is quantised and changed, and the
third has a zero component. -/
example : ∃ s' str, compressB toyL (mode2 toyL 1#64 1#64 2 2 512) toyBound toyVerify (2 * 2)
      (arr2 (toyFieldB 100#64)) = some (s', str) ∧
    str.eb = [0, 4, 0, 0] ∧ s'.val 0 1 = -100#64 ∧
    s'.val 0 2 = 0#64 ∧
    (toyCheck.extract ((⟨0, 0⟩ : Cell).quad id 2 (field2 s'.val))).map toyCheck.ctype =
      (toyCheck.extract ((⟨0, 0⟩ : Cell).quad id 2 (toyFieldB 100#64))).map toyCheck.ctype ∧
    ∃ bs, compressBytesB toyL toyCodec ⟨fun _ => true, 0#64, 0, fun _ => 0#8⟩
        ⟨fun _ => true, 0#64, 0, fun _ => 0#8⟩ (mode2 toyL 1#64 1#64 2) 2 512 toyBound toyVerify
        (2 * 2) (arr2 (toyFieldB 100#64)) = some (s'.val, bs) ∧
      ∀ rest m0, ∃ d, decompressBytes toyL toyCodec (2 * 1024) false 2 (mode2 toyL 1#64 1#64 2)
          (2 * 2) m0 (bs ++ rest) = some d ∧
        ∀ c q, c < 2 → q < 2 * 2 → d c q = s'.val c q := by
  obtain ⟨s', str, h⟩ := C47_defined toyL toyL.exp2T (fun x => -x) toyCheck 1#64 1#64 2 2 2 512
    0xfffff#64 (fun a b => if a.slt b then a else b)
    (fun _ _ _ u _ _ _ _ => if u.slt 0#64 then 0x1ffff#64 else 0x2ffff#64) (toyFieldB 100#64)
  have hv : (compressB toyL (mode2 toyL 1#64 1#64 2 2 512) toyBound toyVerify (2 * 2)
      (arr2 (toyFieldB 100#64))).map (fun r => (r.2.eb, r.2.dq, r.1.val 0 1 :: r.2.un,
        (List.range 2).map fun c => (List.range 4).map fun q => toyL.ltM99 (r.1.cod c q))) =
      some ([0, 4, 0, 0], [512, 512, 512, 512, 512, 512, 512, 512],
        [-100#64, 100#64, -50#64, 0#64, 7#64, 107#64, 55#64],
        [[false, false, true, false], [false, false, false, false]]) := by decide +kernel
  have h' : compressB toyL (mode2 toyL 1#64 1#64 2 2 512) toyBound toyVerify (2 * 2)
      (arr2 (toyFieldB 100#64)) = some (s', str) := h
  rw [h'] at hv
  simp only [Option.map_some, Option.some.injEq, Prod.mk.injEq] at hv
  obtain ⟨h1, h2, h35, h4⟩ := hv
  obtain ⟨h5, h3⟩ := List.cons.inj h35
  refine ⟨s', str, h', h1, h5,
    (C47_zero_exact toyL 1#64 1#64 2 2 512 _ _ _ _ s' str h' 2 (by decide) (by decide)).1,
    C48_types_preserved toyL _ _ toy_stored toyCheck 1#64 1#64 2 2 2 512 _ _ s' str h' ⟨0, 0⟩
      (by simp [Cell.inGrid]), ?_⟩
  apply C47_roundtrip toyL toyL_laws toyCodec _ _ 1#64 1#64 2 2 2 512 _ _ _ s' str h'
    (by decide) (by decide) (by decide)
  · rw [h1]
    exact fits_of_short _ _ _ (by decide) (by decide) (by decide) (by decide)
  · rw [h2]
    exact fits_of_short _ _ _ (by decide) (by decide) (by decide) (by decide)
  · rw [h3]; decide
  · intro c q hc hq z0 z1
    have hl : List.range 2 = [0, 1] ∧ List.range 4 = [0, 1, 2, 3] := ⟨rfl, rfl⟩
    simp only [hl.1, hl.2, List.map_cons, List.map_nil, List.cons.injEq, and_true] at h4
    obtain ⟨⟨a0, a1, a2, a3⟩, b0, b1, b2, b3⟩ := h4
    have hc : c = 0 ∨ c = 1 := by omega
    have hq : q = 0 ∨ q = 1 ∨ q = 2 ∨ q = 3 := by omega
    rcases hq with rfl | rfl | rfl | rfl <;> rcases hc with rfl | rfl <;>
      first
      | assumption
      | exact absurd z0 (by decide)

/-- The toy arithmetic with a coarser type for stored values: `exp2` rounds to multiples of 16
when stored, but not when verified. -/
def toyCoarse : LOps (BitVec 64) (BitVec 64) :=
  { toyL with exp2T := fun x => x.sdiv 64#64 * 16#64 }

/-- C48, limit of the claim: the hypothesis that the verified values are the stored ones is
needed.  The code verifies `double` values (L892-893) but stores values of type `T`
(L1031-1032); in this coarser arithmetic the verification accepts a vertex whose stored value
changes the type found in the cell. -/
theorem C48_rounded_store :
    ∃ s' str, compressB toyCoarse (mode2 toyCoarse 1#64 1#64 2 2 512) toyBound
        (verifyB toyCoarse toyL.exp2T (fun x => -x) toyCheck 2 2) (2 * 2)
        (arr2 (toyFieldB 101#64)) = some (s', str) ∧
      (toyCheck.extract ((⟨0, 0⟩ : Cell).quad id 2 (field2 s'.val))).map toyCheck.ctype = [1] ∧
      (toyCheck.extract ((⟨0, 0⟩ : Cell).quad id 2 (toyFieldB 101#64))).map toyCheck.ctype = [2] := by
  obtain ⟨s', str, h⟩ := C47_defined toyCoarse toyL.exp2T (fun x => -x) toyCheck 1#64 1#64 2 2 2 512
    0xfffff#64 (fun a b => if a.slt b then a else b)
    (fun _ _ _ u _ _ _ _ => if u.slt 0#64 then 0x1ffff#64 else 0x2ffff#64) (toyFieldB 101#64)
  have hv : (compressB toyCoarse (mode2 toyCoarse 1#64 1#64 2 2 512) toyBound
      (verifyB toyCoarse toyL.exp2T (fun x => -x) toyCheck 2 2) (2 * 2)
      (arr2 (toyFieldB 101#64))).map (fun r =>
        (toyCheck.extract ((⟨0, 0⟩ : Cell).quad id 2 (field2 r.1.val))).map toyCheck.ctype) =
      some [1] := by decide +kernel
  have h' : compressB toyCoarse (mode2 toyCoarse 1#64 1#64 2 2 512) toyBound
      (verifyB toyCoarse toyL.exp2T (fun x => -x) toyCheck 2 2) (2 * 2)
      (arr2 (toyFieldB 101#64)) = some (s', str) := h
  rw [h'] at hv
  exact ⟨s', str, h', Option.some.inj hv, by decide +kernel⟩

/-- The hypotheses of the exact theorems are met by a field on a 2 by 2 grid with a regular cell
and a critical point in its middle; it survives a bound of 50 percent and keeps its type. -/
example : ∃ d : Arr ℝ, (∃ s' str, compressReal deriveB 2 2 (1 / 2)
      ⟨fun q => [-1 / 4, 3 / 4, -5 / 4, 3 / 4].getD q 0,
        fun q => [-1 / 2, -3 / 2, 1 / 2, 3 / 2].getD q 0⟩ = some (s', str) ∧
      decompressLog 2 2 (signMaps realL 2 (2 * 2)
        (arr2 ⟨fun q => [-1 / 4, 3 / 4, -5 / 4, 3 / 4].getD q 0,
          fun q => [-1 / 2, -3 / 2, 1 / 2, 3 / 2].getD q 0⟩)) (fun _ _ => 9) str = some d) ∧
    |d 0 0 - (-1 / 4)| ≤ 1 / 8 ∧
    ∃ z, ((⟨0, 0⟩ : Cell).quad id 2 ⟨d 0, d 1⟩).IsZero z := by
  set m : Online2D.Field ℝ := ⟨fun q => [-1 / 4, 3 / 4, -5 / 4, 3 / 4].getD q 0,
    fun q => [-1 / 2, -3 / 2, 1 / 2, 3 / 2].getD q 0⟩ with hm
  have h98 : (2 : ℝ) ^ (-98 : ℤ) ≤ 1 / 4 := by
    rw [zpow_neg, one_div]; exact inv_anti₀ (by norm_num) (by norm_num)
  have hsz : ∀ q, q < 2 * 2 → (m.u q = 0 ∨ (2 : ℝ) ^ (-98 : ℤ) ≤ |m.u q|) ∧
      (m.v q = 0 ∨ (2 : ℝ) ^ (-98 : ℤ) ≤ |m.v q|) := by
    intro q hq
    have : q = 0 ∨ q = 1 ∨ q = 2 ∨ q = 3 := by omega
    have a1 : |(-1 / 4 : ℝ)| = 1 / 4 := by rw [abs_of_neg] <;> norm_num
    have a2 : |(3 / 4 : ℝ)| = 3 / 4 := abs_of_pos (by norm_num)
    have a3 : |(-5 / 4 : ℝ)| = 5 / 4 := by rw [abs_of_neg] <;> norm_num
    have a4 : |(-1 / 2 : ℝ)| = 1 / 2 := by rw [abs_of_neg] <;> norm_num
    have a5 : |(-3 / 2 : ℝ)| = 3 / 2 := by rw [abs_of_neg] <;> norm_num
    have a6 : |(1 / 2 : ℝ)| = 1 / 2 := abs_of_pos (by norm_num)
    have a7 : |(3 / 2 : ℝ)| = 3 / 2 := abs_of_pos (by norm_num)
    rcases this with rfl | rfl | rfl | rfl <;>
      simp only [hm, List.getD_cons_zero, List.getD_cons_succ, a1, a2, a3, a4, a5, a6, a7] <;>
      exact ⟨Or.inr (by linarith), Or.inr (by linarith)⟩
  obtain ⟨s', str, h⟩ := C47_defined realL (fun x => (2 : ℝ) ^ x) (fun x => -x) realCheck
    (Real.logb 2 2) (1 / 2 ^ 23) 2 2 2 32768 (1 / 2) min deriveB m
  have h : compressReal deriveB 2 2 (1 / 2) m = some (s', str) := h
  obtain ⟨d, hd, -⟩ := decompressB_eq deriveB 2 2 (1 / 2) (by norm_num) (by norm_num) m s' str
    (fun _ _ => 9) h hsz
  have hq : (⟨0, 0⟩ : Cell).quad id 2 m =
      ⟨(-1 / 4, -1 / 2), (3 / 4, -3 / 2), (3 / 4, 3 / 2), (-5 / 4, 1 / 2)⟩ := rfl
  have hz : ((⟨0, 0⟩ : Cell).quad id 2 m).IsZero (1 / 2, 1 / 2) := by
    rw [hq]
    refine ⟨by norm_num, by norm_num, by norm_num, by norm_num, ?_⟩
    simp only [Quad.val]
    norm_num
  refine ⟨d, ⟨s', str, h, hd⟩, ?_, ?_⟩
  · have := (C47_sign_and_error deriveB 2 2 (1 / 2) (by norm_num) (by norm_num) m s' str _ d h hsz
      hd 0 (by norm_num)).1.2
    have hu : m.u 0 = -1 / 4 := rfl
    have a1 : |(-1 / 4 : ℝ)| = 1 / 4 := by rw [abs_of_neg] <;> norm_num
    rw [hu, a1] at this
    rcases this with h | h
    · rw [h]; norm_num
    · linarith
  · obtain ⟨f, -⟩ := C48_exact_partial deriveB 2 2 (1 / 2) (by norm_num) (by norm_num) m s' str _ d h
      hsz hd ⟨0, 0⟩ (by simp [Cell.inGrid])
      (by
        rw [hq]
        constructor <;>
          simp only [Quad.cross, Quad.mixed, Prod.fst_sub, Prod.snd_sub, Prod.fst_add,
            Prod.snd_add] <;> norm_num)
      (by
        rw [hq]
        rintro ⟨x, y⟩ ⟨h1, h2, h3, h4, h5⟩
        simp only [Quad.val, Prod.mk.injEq] at h1 h2 h3 h4 h5
        have e1 : x * y = 1 / 4 := by linarith [h5.1, h5.2]
        have e2 : x = y := by linarith [h5.1, h5.2]
        subst e2
        have e3 : x = 1 / 2 := by nlinarith
        subst e3
        simp only [Quad.jac, Jac.det]
        norm_num)
      (Or.inl ⟨_, hz⟩)
    exact ⟨_, (f ⟨_, hz⟩).2⟩

end CpSZ.VMode.Bilinear
