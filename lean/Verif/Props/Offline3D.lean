import Verif.Offline3D.Real
import Verif.Props.ThreeD
/-
Properties C49, C50: the 3D offline log mode.
-/

namespace CpSZ.Offline3D
open ThreeD VMode Mesh3D Offline2D

/-! ### C49 -/

section bytes
variable {T D : Type}

/-- C49, first part.  The sweep over all tetrahedra reads no value outside the arrays and the
compression pass always ends, for any arithmetic and any bound formula. -/
theorem C49_defined (L : LOps T D) (logBase thr : D)
    (derive : (Nat → T) → (Nat → T) → (Nat → T) → (Nat → T) → D) (r1 r2 r3 : Nat)
    (base radius : Int) (maxEb : D) (data : Arr T) :
    ∃ eb s' str, ebSweep3 L.toDOps derive r1 r2 r3 maxEb data = some eb ∧
      compress (logMode3 L logBase thr (lorenzo3 L.toOps r2 r3) base radius)
        (planOff L (escMax L.toDOps logBase thr) eb) (r1 * r2 * r3) data = some (s', str) := by
  obtain ⟨eb, heb⟩ := ebSweep3_defined L.toDOps derive r1 r2 r3 maxEb data
  obtain ⟨s', str, h⟩ := compress_defined
    (logMode3 L logBase thr (lorenzo3 L.toOps r2 r3) base radius)
    (planOff L (escMax L.toDOps logBase thr) eb) (r1 * r2 * r3) data (fun _ _ _ => rfl)
  exact ⟨eb, s', str, heb, h⟩

/-- C49, partial.  For any arithmetic and any bound formula, the 3D log decompressor reads the
stream (followed by anything, with any previous contents of the output arrays): vertices with
code 0 or `eb_quant_index_max` are exact; any other value is 0 if the logarithm reconstructed
by the compressor is below -99, and otherwise the power of that logarithm with the sign of the
original.  Missing for the full statement: the quantised bounds must not have the code
`eb_quant_index_max`, see `C49_escape_collision`. -/
theorem C49_roundtrip_partial (L : LOps T D) (HL : LogLaws L) (c : Codec T) (E1 E2 : Env)
    (logBase thr : D) (derive : (Nat → T) → (Nat → T) → (Nat → T) → (Nat → T) → D)
    (r1 r2 r3 : Nat) (base radius : Int) (maxEb : D) (data : Arr T) (eb : Nat → D)
    (s' : State T) (str : Streams T)
    (heb : ebSweep3 L.toDOps derive r1 r2 r3 maxEb data = some eb)
    (h : compress (logMode3 L logBase thr (lorenzo3 L.toOps r2 r3) base radius)
      (planOff L (escMax L.toDOps logBase thr) eb) (r1 * r2 * r3) data = some (s', str))
    (hn : 0 < r1 * r2 * r3) (hb : 0 ≤ base ∧ base < 2 ^ 31) (hr : 0 ≤ radius ∧ radius < 2 ^ 31)
    (f1 : Fits E1 (2 * 256) str.eb) (f2 : Fits E2 (2 * (2 * radius).toNat) str.dq)
    (hun : str.un.length < 2 ^ 64)
    (hcol : ∀ p, p < r1 * r2 * r3 → L.lt (L.ofInt 0) (eb p) = true →
      (ebQuant L.toDOps base logBase thr (L.log2 (L.add (L.ofInt 1) (eb p)))).2 ≠
        escMax L.toDOps logBase thr) :
    ∃ bs, compressBytesOff L c E1 E2 logBase thr derive r1 r2 r3 base radius maxEb data =
        some (s'.val, bs) ∧
      ∀ rest m0, ∃ d, decompressBytesOff L c logBase thr r1 r2 r3 m0 (bs ++ rest) = some d ∧
        ∀ k q, k < 3 → q < r1 * r2 * r3 → ∃ e, str.eb[q]? = some e ∧
          (e = 0 ∨ e = escMax L.toDOps logBase thr → d k q = data k q) ∧
          (e ≠ 0 → e ≠ escMax L.toDOps logBase thr →
            (L.ltM99 (s'.cod k q) = true → d k q = L.zeroT) ∧
            (L.ltM99 (s'.cod k q) = false → d k q =
              if L.pos (data k q) then L.exp2T (s'.cod k q) else L.negT (L.exp2T (s'.cod k q)))) := by
  obtain ⟨l1, -, -, -⟩ := compress_lengths _ _ _ _ _ _ h
  obtain ⟨m1, m2⟩ := signMaps_ok L 3 (r1 * r2 * r3) data
  obtain ⟨bs, hs, hp⟩ := serialize_parse c E1 E2 (2 * 256) true base radius _ str (r1 * r2 * r3)
    3 (r1 * r2 * r3) hn m2 (fun _ => l1) (fun hc => by cases hc) hun hb hr f1 f2
  rw [m1] at hp
  refine ⟨bs, ?_, fun rest m0 => ?_⟩
  · unfold compressBytesOff compressBytes
    simp only [heb, h]
    have : (logMode3 L logBase thr (lorenzo3 L.toOps r2 r3) base radius).K = 3 := rfl
    rw [this, hs]
  obtain ⟨d, hd, hA⟩ := lockstep_dec _ _ _ (good_off L HL logBase thr r2 r3 base radius eb _ hcol)
    (logFin L (mapAt (signMaps L 3 (r1 * r2 * r3) data))) data m0 s' str h
  refine ⟨d, ?_, fun k q hk hq => ?_⟩
  · simp only [decompressBytesOff, decompressBytes, hp rest, hd]
  · obtain ⟨e, he, hdq⟩ := hA k q hk hq
    have hesc : (logMode3 L logBase thr (lorenzo3 L.toOps r2 r3) base radius).isEsc e =
        (e == 0 || e == escMax L.toDOps logBase thr) := rfl
    rw [hesc] at hdq
    refine ⟨e, he, fun h => ?_, fun h1 h2 => ?_⟩
    · rw [hdq, if_pos]
      simpa using h
    · rw [if_neg (by simpa using ⟨h1, h2⟩)] at hdq
      refine ⟨fun hl => ?_, fun hl => ?_⟩
      · rw [hdq]; unfold logFin; rw [hl]; rfl
      · rw [hdq, logFin_eq HL _ _ _ _ _ (mapAt_signMaps L _ _ _ _ _ hk hq) hl]
        rfl

end bytes

theorem sweep_one (maxEb : ℝ) (f : Arr ℝ) :
    ebSweep3 realD (onCols offlineEb3) 1 1 1 maxEb f = some fun _ => maxEb := rfl

theorem off_one (maxEb : ℝ) (h : 1 ≤ maxEb) (s : State ℝ) :
    planOff realL 24 (fun _ => maxEb) s 0 = some (.try (Real.logb 2 (1 + maxEb)) 24) := by
  unfold planOff
  have h2 : realL.lt (realL.ofInt 0) maxEb = true := by
    simp only [realL, realOps, realD, decide_eq_true_eq]
    push_cast; linarith
  simp only [h2, if_true]
  simp only [realL, realOps, realD]
  push_cast
  rfl

/-- C49 fails when a quantised bound gets the code 24 that announces a lossless vertex: on a
grid without cells a bound of 3 does; the decompressor then reads lossless values that are not
there. -/
theorem C49_escape_collision :
    ∃ s' str, compressOff3 1 1 1 3 (fun _ _ => 1) = some (s', str) ∧ str.un = [] ∧
      ∀ m0, decompressLog3 1 1 1 (signMaps realL 3 1 (fun _ _ => 1)) m0 str = none := by
  unfold compressOff3
  rw [sweep_one]
  set M := realLog3 (lorenzo3 realOps 1 1) with hM
  have hplan : planOff realL 24 (fun _ => 3) (initState M fun _ _ => 1) 0 = some (.try 2 24) := by
    rw [off_one 3 (by norm_num)]
    have : Real.logb 2 (1 + 3) = 2 := by
      rw [show (1 + 3 : ℝ) = 2 ^ 2 by norm_num, Real.logb_pow]; simp
    rw [this]
  have hq : ebQuant M.O.toDOps M.base M.logBase M.thr 2 = (2, 24) := by
    have := ebq_pow 1
    rw [pow_one] at this
    exact this
  have hlin : linQuant realD 0 2 65536 32768 = some 32768 := by
    have h2 : truncR (-(1 / 2)) = 0 := by
      rw [truncR_neg, truncR_nonneg (by norm_num)]; norm_num
    unfold linQuant
    simp only [realD]
    norm_num
    norm_num at h2
    exact h2
  have hcod : ∀ c q, (initState M (fun _ _ => 1)).cod c q = 0 := by
    intro c q
    simp [initState, hM, realLog3, logMode3, logFwd, realL]
  have hcomp : ∀ c, encComp M ((initState M (fun _ _ => 1)).cod c) 0 2 = some (32768, 0) := by
    intro c
    have h0 : M.pred ((initState M (fun _ _ => 1)).cod c) 0 = 0 := by
      simp [hM, realLog3, logMode3, lorenzo3, realOps]
    unfold encComp
    rw [h0, hcod]
    have e1 : M.O.toD (M.O.subT 0 0) = (0 : ℝ) := by
      simp [hM, realLog3, logMode3, realL, realOps]
    have e2 : linQuant M.O.toDOps 0 2 M.capacity M.radius = some 32768 := hlin
    simp only [e1, e2]
    simp only [hM, realLog3, logMode3, realL, realOps, realD, linOffset]
    norm_num
  have hr : encComps M (initState M (fun _ _ => 1)).cod 0 2 (List.range M.K) =
      some [(32768, 0), (32768, 0), (32768, 0)] := by
    have : List.range M.K = [0, 1, 2] := rfl
    rw [this]
    simp only [encComps, hcomp]
  have hc := compress_one hplan hq (by norm_num) hr
  exact ⟨_, _, hc, rfl, fun m0 => decompress_one_esc
    (isEsc_24 _) (by simp [realLog3, logMode3])⟩

/-! ### C50 -/

/-- C50, first part.  If all twelve components of the corners of a tetrahedron change at the
same time, each by nothing or by less than its magnitude times the bound derived by the offline
mode, a critical point is neither created nor destroyed. -/
theorem C50_bound_keeps (a b c d a' b' c' d' : V3)
    (ha : NearV (offlineEb3 a b c d) a a') (hb : NearV (offlineEb3 a b c d) b b')
    (hc : NearV (offlineEb3 a b c d) c c') (hd : NearV (offlineEb3 a b c d) d d') :
    ThreeD.HasCP [a', b', c', d'] ↔ ThreeD.HasCP [a, b, c, d] :=
  offlineEb3_kept le_rfl ha hb hc hd

/-- C50, partial.  A compression pass followed by decompression preserves, tetrahedron by
tetrahedron, whether there is a critical point; the vertices of tetrahedra with a critical point
are reproduced exactly; every value keeps its sign and is exact or within the user's relative
bound.  Zeros are allowed.  Missing: values other than 0 below `2^-98`, see `C50_tiny_lost`, and
bounds above 1 on grids without tetrahedra, see `C49_escape_collision`. -/
theorem C50_critical_cells_partial (r1 r2 r3 : Nat) (maxEb : ℝ)
    (hs : maxEb ≤ 1 ∨ (2 ≤ r1 ∧ 2 ≤ r2 ∧ 2 ≤ r3)) (data : Arr ℝ)
    (hm : ∀ c q, c < 3 → q < r1 * r2 * r3 → data c q = 0 ∨ (2 : ℝ) ^ (-98 : ℤ) ≤ |data c q|)
    (s' : State ℝ) (str : Streams ℝ) (m0 : Arr ℝ)
    (h : compressOff3 r1 r2 r3 maxEb data = some (s', str)) :
    ∃ d, decompressLog3 r1 r2 r3 (signMaps realL 3 (r1 * r2 * r3) data) m0 str = some d ∧
      (∀ t : Tet, t.inGrid r1 r2 r3 →
        (cellCP d (t.verts r2 r3) ↔ cellCP data (t.verts r2 r3)) ∧
        (cellCP data (t.verts r2 r3) → ∀ q ∈ t.verts r2 r3, ∀ c, c < 3 → d c q = data c q)) ∧
      (∀ c q, c < 3 → q < r1 * r2 * r3 → SignType.sign (d c q) = SignType.sign (data c q) ∧
        (d c q = data c q ∨ |d c q - data c q| < |data c q| * maxEb)) := by
  obtain ⟨eb, d, heb, hd, hn, hsgn⟩ := run_near hs hm h m0
  refine ⟨d, hd, fun t ht => grid_kept3 heb hn t ht, fun c q hc hq => ⟨hsgn c q hc hq, ?_⟩⟩
  rcases hn c q hc hq with e | e
  · exact Or.inl e
  · refine Or.inr (e.trans_le ?_)
    rw [mul_comm]
    exact mul_le_mul_of_nonneg_left ((ebSweep3_real heb).1 q) (abs_nonneg _)

/-- C50 fails for tiny values: `2^-100` is taken for a zero by the decompressor. -/
theorem C50_tiny_lost :
    ∃ s' str d, compressOff3 1 1 1 1 (fun _ _ => (2 : ℝ) ^ (-100 : ℝ)) = some (s', str) ∧
      decompressLog3 1 1 1 (signMaps realL 3 1 (fun _ _ => (2 : ℝ) ^ (-100 : ℝ))) (fun _ _ => 0) str =
        some d ∧ d 0 0 = 0 := by
  unfold compressOff3
  rw [sweep_one]
  set data : Arr ℝ := fun _ _ => (2 : ℝ) ^ (-100 : ℝ) with hdata
  set M := realLog3 (lorenzo3 realOps 1 1) with hM
  have hplan : planOff realL 24 (fun _ => 1) (initState M data) 0 = some (.try 1 24) := by
    rw [off_one 1 (le_refl _)]
    have : Real.logb 2 (1 + 1) = 1 := by
      rw [one_add_one_eq_two]; exact Real.logb_self_eq_one (by norm_num)
    rw [this]
  have hq : ebQuant M.O.toDOps M.base M.logBase M.thr 1 = (1, 23) := by
    have := ebq_pow 0
    rw [pow_zero] at this
    exact this
  have hlin : linQuant realD (-100) 1 65536 32768 = some 32718 := by
    have h2 : truncR (-(101 / 2)) = -50 := by
      rw [truncR_neg, truncR_nonneg (by norm_num)]; norm_num
    unfold linQuant
    simp only [realD]
    norm_num
    rw [h2]
    norm_num
  have hcod : ∀ c q, (initState M data).cod c q = -100 := by
    intro c q
    have hpos : (0 : ℝ) < 2 ^ (-100 : ℝ) := Real.rpow_pos_of_pos (by norm_num) _
    have : (initState M data).cod c q = logFwd realL ((2 : ℝ) ^ (-100 : ℝ)) := rfl
    rw [this, logFwd_real hpos.ne', abs_of_pos hpos, Real.logb_rpow (by norm_num) (by norm_num)]
  have hcomp : ∀ c, encComp M ((initState M data).cod c) 0 1 = some (32718, -100) := by
    intro c
    have h0 : M.pred ((initState M data).cod c) 0 = 0 := by
      simp [hM, realLog3, logMode3, lorenzo3, realOps]
    unfold encComp
    rw [h0, hcod]
    have e1 : M.O.toD (M.O.subT (-100) 0) = (-100 : ℝ) := by
      simp [hM, realLog3, logMode3, realL, realOps]
    have e2 : linQuant M.O.toDOps (-100) 1 M.capacity M.radius = some 32718 := hlin
    simp only [e1, e2]
    simp only [hM, realLog3, logMode3, realL, realOps, realD, linOffset]
    norm_num
  have hr : encComps M (initState M data).cod 0 1 (List.range M.K) =
      some [(32718, -100), (32718, -100), (32718, -100)] := by
    have : List.range M.K = [0, 1, 2] := rfl
    rw [this]
    simp only [encComps, hcomp]
  have hc := compress_one hplan hq (by norm_num) hr
  have hd := decompress_one (M := M) (fin := logFin realL (mapAt (signMaps realL 3 1 data)))
    (m0 := fun _ _ => 0) (e := 23) (qs := [32718, 32718, 32718]) (xs := [-100, -100, -100])
    (isEsc_real _ 23 (by norm_num) (by norm_num)) rfl (by
      have hrange : List.range M.K = [0, 1, 2] := rfl
      rw [hrange]
      simp only [List.map_cons, List.map_nil, List.getD_cons_zero, List.getD_cons_succ,
        hM, realLog3, logMode3, realL, realOps, realD, linOffset, lorenzo3]
      norm_num)
  refine ⟨_, _, _, hc, hd, ?_⟩
  have hrange : List.range M.K = [0, 1, 2] := rfl
  simp only [hrange, setCol, if_true, List.map_cons, List.getD_cons_zero, logFin]
  have : realL.ltM99 (-100) = true := by simp only [realL, decide_eq_true_eq]; norm_num
  rw [this]
  rfl

/-! ### Examples -/

/-- A 2 by 2 by 3 grid; the first cube gets no bound. -/
def toyOff : Arr (BitVec 64) := fun c q =>
  if c = 0 then [100#64, 104#64, 98#64, 109#64, -2#64, 2#64, -4#64, 4#64, 1#64, 2#64, 3#64, 5#64].getD q 0#64
  else if c = 1 then [0#64, 54#64, 8#64, 812#64, 6#64, 0#64, 2#64, 10#64, 1#64, 1#64, 1#64, 9#64].getD q 0#64
  else [2#64, 4#64, 6#64, 8#64, 10#64, 12#64, 14#64, 16#64, 0#64, 1#64, 2#64, 1#64].getD q 0#64

def toyDerive (_ _ _ d : Nat → BitVec 64) : BitVec 64 := if d 1 == 0#64 then 0#64 else 31#64

/-- The hypotheses of `C49_roundtrip_partial` hold on this grid; one vertex is quantised
(code 2), three escape (code 1). -/
example : ∃ eb s' str, ebSweep3 toyL.toDOps toyDerive 2 2 3 64#64 toyOff = some eb ∧
    compress (logMode3 toyL 1#64 1#64 (lorenzo3 toyL.toOps 2 3) 2 512)
      (planOff toyL (escMax toyL.toDOps 1#64 1#64) eb) (2 * 2 * 3) toyOff = some (s', str) ∧
    str.eb = [0, 0, 2, 0, 0, 1, 0, 0, 1, 0, 0, 1] ∧
    ∃ bs, compressBytesOff toyL toyCodec ⟨fun _ => true, 0#64, 0, fun _ => 0#8⟩
        ⟨fun _ => true, 0#64, 0, fun _ => 0#8⟩ 1#64 1#64 toyDerive 2 2 3 2 512 64#64 toyOff =
        some (s'.val, bs) := by
  have hv : ((ebSweep3 toyL.toDOps toyDerive 2 2 3 64#64 toyOff).map fun eb =>
      ((List.range 12).map eb, (compress (logMode3 toyL 1#64 1#64 (lorenzo3 toyL.toOps 2 3) 2 512)
        (planOff toyL (escMax toyL.toDOps 1#64 1#64) eb) (2 * 2 * 3) toyOff).map
        fun r => (r.2.eb, r.2.dq, r.2.un.length))) =
      some ([0#64, 0#64, 31#64, 0#64, 0#64, 31#64, 0#64, 0#64, 31#64, 0#64, 0#64, 31#64],
        some ([0, 0, 2, 0, 0, 1, 0, 0, 1, 0, 0, 1], [509, 489, 513], 33)) := by decide +kernel
  obtain ⟨eb, s', str, heb, hc⟩ := C49_defined toyL 1#64 1#64 toyDerive 2 2 3 2 512 64#64 toyOff
  rw [heb] at hv
  simp only [Option.map_some, Option.some.injEq, Prod.mk.injEq] at hv
  obtain ⟨h0, hv⟩ := hv
  rw [hc] at hv
  simp only [Option.map_some, Option.some.injEq, Prod.mk.injEq] at hv
  obtain ⟨h1, h2, h3⟩ := hv
  refine ⟨eb, s', str, heb, hc, h1, ?_⟩
  obtain ⟨bs, hbs, -⟩ := C49_roundtrip_partial toyL toyL_laws toyCodec
    ⟨fun _ => true, 0#64, 0, fun _ => 0#8⟩ ⟨fun _ => true, 0#64, 0, fun _ => 0#8⟩ 1#64 1#64
    toyDerive 2 2 3 2 512 64#64 toyOff eb s' str heb hc (by decide) (by decide) (by decide)
    (by rw [h1]; exact fits_of_short _ _ _ (by decide) (by decide) (by decide) (by decide))
    (by rw [h2]; exact fits_of_short _ _ _ (by decide) (by decide) (by decide) (by decide))
    (by rw [h3]; decide)
    (by
      intro p hp hpos
      have hp' : p < 12 := hp
      have hmem : eb p ∈ (List.range 12).map eb := List.mem_map.2 ⟨p, List.mem_range.2 hp', rfl⟩
      rw [h0] at hmem
      have : eb p = 0#64 ∨ eb p = 31#64 := by
        simp only [List.mem_cons, List.not_mem_nil] at hmem; tauto
      rcases this with e | e
      · rw [e] at hpos; exact absurd hpos (by decide)
      · rw [e]; decide +kernel)
  exact ⟨bs, hbs⟩

/-- The hypotheses of C50 are met by a field on a 2 by 2 by 2 grid with zeros and with a
critical point in the first tetrahedron, and the decompressed field has it, too. -/
example : ∃ d : Arr ℝ, (∃ s' str, compressOff3 2 2 2 (1 / 10)
      (fun c q => if c = 0 then [-1, 1, 0, 1, 3, 1, -1, -1].getD q 1
        else if c = 1 then [-1, 1, 1, 1, -1, 0, 3, -1].getD q 1
        else [-1, 1, 1, 0, -1, 1, -1, 3].getD q 1) = some (s', str) ∧
      decompressLog3 2 2 2 (signMaps realL 3 (2 * 2 * 2)
        (fun c q => if c = 0 then [-1, 1, 0, 1, 3, 1, -1, -1].getD q 1
        else if c = 1 then [-1, 1, 1, 1, -1, 0, 3, -1].getD q 1
        else [-1, 1, 1, 0, -1, 1, -1, 3].getD q 1)) (fun _ _ => 9) str = some d) ∧
    cellCP d [0, 4, 6, 7] := by
  have h98 : (2 : ℝ) ^ (-98 : ℤ) ≤ 1 := by
    rw [zpow_neg]; exact inv_le_one_of_one_le₀ (by norm_num)
  set data : Arr ℝ := fun c q => if c = 0 then [-1, 1, 0, 1, 3, 1, -1, -1].getD q 1
        else if c = 1 then [-1, 1, 1, 1, -1, 0, 3, -1].getD q 1
        else [-1, 1, 1, 0, -1, 1, -1, 3].getD q 1 with hdata
  have hm : ∀ c q, c < 3 → q < 2 * 2 * 2 →
      data c q = 0 ∨ (2 : ℝ) ^ (-98 : ℤ) ≤ |data c q| := by
    intro c q hc hq
    have : data c q = 0 ∨ 1 ≤ |data c q| := by
      have hc : c = 0 ∨ c = 1 ∨ c = 2 := by omega
      have hq : q = 0 ∨ q = 1 ∨ q = 2 ∨ q = 3 ∨ q = 4 ∨ q = 5 ∨ q = 6 ∨ q = 7 := by omega
      rcases hc with rfl | rfl | rfl <;>
        rcases hq with rfl | rfl | rfl | rfl | rfl | rfl | rfl | rfl <;>
        norm_num [hdata, abs_of_pos]
    exact this.imp_right h98.trans
  obtain ⟨s', str, h⟩ := compressOff3_defined 2 2 2 (1 / 10) data
  obtain ⟨d, hd, hcells, -⟩ := C50_critical_cells_partial 2 2 2 (1 / 10)
    (Or.inl (by norm_num)) data hm s' str (fun _ _ => 9) h
  refine ⟨d, ⟨s', str, h, hd⟩, ?_⟩
  have ht : (⟨0, 0, 0, 0⟩ : Tet).inGrid 2 2 2 := ⟨by decide, by decide, by decide, by decide⟩
  have hv : (⟨0, 0, 0, 0⟩ : Tet).verts 2 2 = [0, 4, 6, 7] := by decide +kernel
  have := (hcells _ ht).1
  rw [hv] at this
  rw [this]
  refine (hasCP_four _ _ _ _).2 ⟨1 / 4, 1 / 4, 1 / 4, 1 / 4, by norm_num, by norm_num, by norm_num,
    by norm_num, by norm_num, ?_, ?_, ?_⟩ <;> norm_num [vec, hdata]

/-- A tetrahedron without a critical point and its bound; all corners may change. -/
example : offlineEb3 ⟨1, 0, 0⟩ ⟨0, 1, 0⟩ ⟨0, 0, 1⟩ ⟨2, 0, 0⟩ = 1 ∧
    ¬ ThreeD.HasCP [⟨1 / 2, 0, 0⟩, ⟨0, 3 / 2, 0⟩, ⟨0, 0, 1⟩, ⟨1, 0, 0⟩] := by
  have h : offlineEb3 ⟨1, 0, 0⟩ ⟨0, 1, 0⟩ ⟨0, 0, 1⟩ ⟨2, 0, 0⟩ = 1 := by
    have h1 : ∀ x : ℝ, 0 < x → keep3 x 0 = 1 := fun x hx => by
      have : 0 < root 3 x := Real.rpow_pos_of_pos hx _
      have h0 : root 3 0 = 0 := by unfold root; rw [Real.zero_rpow (by norm_num)]
      unfold keep3
      rw [h0, sub_zero, add_zero, abs_of_pos this, div_self this.ne']
    have h2 : ∀ x : ℝ, 0 < x → keep3 0 x = 1 := fun x hx => by
      have : 0 < root 3 x := Real.rpow_pos_of_pos hx _
      have h0 : root 3 0 = 0 := by unfold root; rw [Real.zero_rpow (by norm_num)]
      unfold keep3
      rw [h0, zero_sub, zero_add, abs_neg, abs_of_pos this, div_self this.ne']
    unfold offlineEb3
    norm_num [terms0, terms1, terms2, terms3, posSum, negSum, h1, h2, maxf, minf]
  refine ⟨h, ?_⟩
  rw [C50_bound_keeps ⟨1, 0, 0⟩ ⟨0, 1, 0⟩ ⟨0, 0, 1⟩ ⟨2, 0, 0⟩]
  · intro hcp
    have := offlineEb3_cp hcp
    rw [h] at this
    norm_num at this
  all_goals
    rw [h]
    constructor <;> norm_num [Near, abs_lt]

end CpSZ.Offline3D
