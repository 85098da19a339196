import Verif.ThreeD.Unstructured
import Verif.Props.ThreeD
/-
Property C30 (unstructured tetrahedral meshes).
-/

namespace CpSZ.ThreeD
open VMode Mesh3D

/-- C30, adjacency.  `construct_tets` is defined exactly if all indices are valid; then the list
of vertex `v` contains every pair (cell, position) at which the index array mentions `v`, once,
and nothing else. -/
theorem C30_adjacency (n m : Nat) (inds : Nat → Int) :
    ((∃ adj, pointTets n m inds = some adj) ↔
      ∀ k, k < 4 * m → 0 ≤ inds k ∧ inds k < n) ∧
    ∀ adj, pointTets n m inds = some adj → ∀ v i j,
      (adj v).count (i, j) = if i < m ∧ j < 4 ∧ inds (4 * i + j) = v then 1 else 0 := by
  refine ⟨?_, fun adj h v i j => ?_⟩
  · unfold pointTets
    rw [pushAll_spec]
    constructor
    · rintro ⟨adj, h⟩ k hk
      split at h
      · rename_i hall
        have := hall (k / 4, k % 4) (mem_cornerList.2 ⟨by omega, by omega⟩)
        rwa [show 4 * (k / 4, k % 4).1 + (k / 4, k % 4).2 = k by simp only; omega] at this
      · cases h
    · intro h
      rw [if_pos]
      · exact ⟨_, rfl⟩
      · rintro ⟨i, j⟩ hx
        obtain ⟨h1, h2⟩ := mem_cornerList.1 hx
        simp only at h1 h2
        exact h _ (by simp only; omega)
  · have hA := pointTets_isAdj h
    by_cases hc : i < m ∧ j < 4 ∧ inds (4 * i + j) = v
    · rw [if_pos hc]
      exact List.count_eq_one_of_mem (hA.nodup v) ((hA.mem v i j).2 hc)
    · rw [if_neg hc]
      exact List.count_eq_zero_of_not_mem (fun hm => hc ((hA.mem v i j).1 hm))

/-- C30, bound.  In exact arithmetic the bound used for a vertex is at most the user's bound and
at most the bound derived for each cell that contains the vertex, with the vertex as the one
that changes. -/
theorem C30_bound_covers_cells (n m : Nat) (inds : Nat → Int) (adj : Nat → List (Nat × Nat))
    (h : pointTets n m inds = some adj) (hnd : ∀ i, i < m → (quad inds i).Nodup) (maxEb : ℝ)
    (f : Arr ℝ) (p : Nat) (hp : p < n) (r : ℝ) (hr : boundRealU inds adj maxEb f p = some r)
    (hpos : 0 < r) :
    r ≤ maxEb ∧ ∀ i, i < m → p ∈ quad inds i → ∃ q0 q1 q2, (quad inds i).Perm [q0, q1, q2, p] ∧
      r ≤ derive3 (vec f q0) (vec f q1) (vec f q2) (vec f p) := by
  have hall := (C30_adjacency n m inds).1.1 ⟨adj, h⟩
  obtain ⟨h1, h2⟩ := goodBoundU maxEb (pointTets_isAdj h)
    (fun i j hi hj => (hall (4 * i + j) (by omega)).1) hnd f p r hp hr hpos
  refine ⟨h1, fun i hi hm => ?_⟩
  obtain ⟨q0, q1, q2, a, -, -, -, b⟩ := h2 _ ⟨i, hi, rfl⟩ hm
  exact ⟨q0, q1, q2, a, b⟩

section any
variable {T D : Type}

/-- C30, round trip, partial: for any arithmetic, any adjacency and bound computation and any
field the decompressor returns the compressor's reconstruction from the bytes, provided that no
quantised bound has the code `eb_quant_index_max` and no reconstructed logarithm of a quantised
vertex is below -99.  Without the second proviso the sign pointer gets out of step:
`C30_sign_misalignment`. -/
theorem C30_roundtrip_partial (L : LOps T D) (HL : LogLaws L) (c : Codec T) (E1 E2 : Env)
    (logBase thr tiny : D) (n : Nat) (base radius : Int)
    (bound : Arr T → Nat → Option D) (data : Arr T) (s' : State T) (str : Streams T)
    (h : compress (logMode3 L logBase thr (predPrev L.toOps) base radius)
      (planLog3 L tiny 0 bound) n data = some (s', str))
    (hn : 0 < n) (hb : 0 ≤ base ∧ base < 2 ^ 31) (hr : 0 ≤ radius ∧ radius < 2 ^ 31)
    (f1 : Fits E1 (2 * 256) str.eb) (f2 : Fits E2 (2 * (2 * radius).toNat) str.dq)
    (hun : str.un.length < 2 ^ 64)
    (hcol : ∀ s p a, p < n → planLog3 L tiny 0 bound s p = some (.try a 0) →
      (ebQuant L.toDOps base logBase thr a).2 ≠ escMax L.toDOps logBase thr)
    (hsmall : ∀ c q e, c < 3 → q < n → str.eb[q]? = some e → e ≠ 0 →
      e ≠ escMax L.toDOps logBase thr → L.ltM99 (s'.cod c q) = false) :
    ∃ bs, compressBytesU L c E1 E2 (logMode3 L logBase thr (predPrev L.toOps)) base radius
        (planLog3 L tiny 0 bound) n data = some (s'.val, bs) ∧
      ∀ rest m0, ∃ d, decompressBytesU L c (logMode3 L logBase thr (predPrev L.toOps)) n m0
          (bs ++ rest) = some d ∧ ∀ c q, c < 3 → q < n → d c q = s'.val c q := by
  obtain ⟨bs, hs, hp⟩ := serialize_parse c E1 E2 (2 * 256) true base radius [signsU L n data] str
    n 3 (3 * n) (by omega) (by
      intro m hm
      simp only [List.mem_singleton] at hm
      subst hm
      exact ⟨signsU_length L n data, signsU_flags L n data⟩)
    (fun h => by cases h) (fun h => by cases h) hun hb hr f1 f2
  refine ⟨bs, by simp only [compressBytesU, h, hs], fun rest m0 => ?_⟩
  obtain ⟨d, hd, hA⟩ := lockstepU L HL _ rfl rfl _ n
    (goodLog3 L HL logBase thr tiny _ base radius 0 bound (predPrev_congr L.toOps)
      (Or.inl rfl) _ hcol) data m0 s' str h (fun c q e hc hq he hne => by
        simp only [logMode3, Bool.or_eq_false_iff, beq_eq_false_iff_ne, ne_eq] at hne
        exact hsmall c q e hc hq he hne.1 hne.2)
  have hp := hp rest
  simp only [List.length_cons, List.length_nil, Nat.zero_add] at hp
  exact ⟨d, by simp only [decompressBytesU, hp]; exact hd, hA⟩

end any

/-- C30, exact arithmetic, partial: on a mesh of proper tetrahedra and for a field whose values
are at least `2^-98` in magnitude, compression followed by decompression returns the
compressor's reconstruction; it has a critical point in exactly the cells that had one, the
vertices of those are exact, and every value keeps its sign and is exact or within the relative
bound.  Missing: fields with zeros (for which it fails, `C30_sign_misalignment`) and relative
bounds above 1. -/
theorem C30_critical_cells_partial (n m : Nat) (inds : Nat → Int) (adj : Nat → List (Nat × Nat))
    (hadj : pointTets n m inds = some adj) (hnd : ∀ i, i < m → (quad inds i).Nodup)
    (maxEb : ℝ) (h0 : 0 ≤ maxEb) (h1 : maxEb ≤ 1) (data : Arr ℝ)
    (hm : ∀ c q, c < 3 → q < n → (2 : ℝ) ^ (-98 : ℤ) ≤ |data c q|)
    (s' : State ℝ) (str : Streams ℝ) (m0 : Arr ℝ)
    (h : compressU n inds adj maxEb data = some (s', str)) :
    ∃ d, decompressU realL (realLog3 (predPrev realOps)) n m0 (signsU realL n data) str = some d ∧
      (∀ c q, c < 3 → q < n → d c q = s'.val c q) ∧
      (∀ i, i < m → (cellCP d (quad inds i) ↔ cellCP data (quad inds i)) ∧
        (cellCP data (quad inds i) → ∀ q ∈ quad inds i, ∀ c, c < 3 → d c q = data c q)) ∧
      ∀ c q, c < 3 → q < n → SignType.sign (d c q) = SignType.sign (data c q) ∧
        (d c q = data c q ∨ |d c q - data c q| < |data c q| * maxEb) := by
  have hall := (C30_adjacency n m inds).1.1 ⟨adj, hadj⟩
  have hpos : (0 : ℝ) < 2 ^ (-98 : ℤ) := by positivity
  have hnz : ∀ c q, c < 3 → q < n → data c q ≠ 0 := fun c q hc hq hz => by
    have := hm c q hc hq
    rw [hz, abs_zero] at this; linarith
  have hB : GoodBound n (meshCells m inds) maxEb (boundRealU inds adj maxEb) :=
    goodBoundU maxEb (pointTets_isAdj hadj)
      (fun i j hi hj => (hall (4 * i + j) (by omega)).1) hnd
  have hlt : ∀ i, i < m → ∀ q ∈ quad inds i, q < n := by
    intro i hi q hq
    have a0 := hall (4 * i) (by omega)
    have a1 := hall (4 * i + 1) (by omega)
    have a2 := hall (4 * i + 2) (by omega)
    have a3 := hall (4 * i + 3) (by omega)
    simp only [quad, List.mem_cons, List.not_mem_nil, or_false] at hq
    omega
  have hI := logInv3_final hB (fun t ⟨i, hi, e⟩ q hq => hlt i hi q (e ▸ hq)) hnz h
  have G : Good (realLog3 (predPrev realOps))
      (planLog3 realL (1 / 10 ^ 10) 0 (boundRealU inds adj maxEb)) n :=
    goodLog3 realL realL_laws _ _ _ _ _ _ _ _ (predPrev_congr realOps) (Or.inl rfl) _
      (fun s p a hp h => no_collision hB h1 s p hp a h)
  obtain ⟨d, hd, hA⟩ := lockstepU realL realL_laws _ rfl rfl _ n G data m0 s' str h
    (fun c q e hc hq _ _ => cod_large3 h0 h1 hI c q hc (hm c q hc hq))
  refine ⟨d, hd, hA, fun i hi => ⟨?_, fun hcp q hq c hc => ?_⟩, fun c q hc hq => ?_⟩
  · rw [cellCP_congr (fun c q hc hq => hA c q hc (hlt i hi q hq))]
    exact (hI.cell _ ⟨i, hi, rfl⟩).symm
  · rw [hA c q hc (hlt i hi q hq)]
    exact hI.crit _ ⟨i, hi, rfl⟩ hcp q hq c hc
  · rw [hA c q hc hq]
    rcases hI.err c q hc with e | ⟨e1, e2⟩
    · exact ⟨by rw [e], Or.inl e⟩
    · exact ⟨(Online2D.sign_eq_of_mul_pos e2).symm, Or.inr e1⟩

/-- C30 fails for zeros: the single vertex with components `(0, 1, -1)` is decompressed to
`(0, -1, 1)`.  A zero component does not advance the decompressor's sign pointer, although it
has an entry in the sign map, so the following components get wrong signs. -/
theorem C30_sign_misalignment :
    ∃ s' str d, compressU 1 (fun _ => 0) (fun _ => []) 1
        (fun c _ => if c = 0 then 0 else if c = 1 then 1 else -1) = some (s', str) ∧
      decompressU realL (realLog3 (predPrev realOps)) 1 (fun _ _ => 0)
        (signsU realL 1 (fun c _ => if c = 0 then 0 else if c = 1 then 1 else -1)) str = some d ∧
      d 0 0 = 0 ∧ d 1 0 = -1 ∧ d 2 0 = 1 := by
  set M := realLog3 (predPrev realOps) with hM
  set data : Arr ℝ := fun c _ => if c = 0 then 0 else if c = 1 then 1 else -1 with hdata
  have hplan : planLog3 realL (1 / 10 ^ 10) 0 (boundRealU (fun _ => 0) (fun _ => []) 1)
      (initState M data) 0 = some (.try 1 0) := by
    unfold planLog3
    simp only [boundRealU, boundU, List.foldl_nil]
    have h1 : realL.lt 1 (1 / 10 ^ 10) = false := by
      simp only [realL, realOps, realD, decide_eq_false_iff_not, not_lt]; norm_num
    have h2 : realL.lt (realL.ofInt 0) 1 = true := by
      simp only [realL, realOps, realD, decide_eq_true_eq]; norm_num
    simp only [h1, Bool.false_eq_true, if_false, h2, if_true]
    have : Real.logb 2 (1 + 1) = 1 := by
      rw [one_add_one_eq_two]; exact Real.logb_self_eq_one (by norm_num)
    simp only [realL, realOps, realD]
    push_cast
    rw [this]
  have hq : ebQuant M.O.toDOps M.base M.logBase M.thr 1 = (1, 23) := by
    have := ebq_pow 0
    rw [pow_zero] at this
    exact this
  have hlin : linQuant realD (-100) 1 65536 32768 = some 32718 := by
    have h2 : truncR (-(101 / 2)) = -50 := by
      rw [truncR_neg, truncR_nonneg (by norm_num)]; norm_num
    unfold linQuant
    simp only [realD]
    norm_num
    rw [h2]
    norm_num
  have hlin0 : linQuant realD 0 1 65536 32768 = some 32768 := by
    have h2 : truncR (-(1 / 2)) = 0 := by
      rw [truncR_neg, truncR_nonneg (by norm_num)]; norm_num
    unfold linQuant
    simp only [realD]
    norm_num
    norm_num at h2
    exact h2
  have hcod0 : (initState M data).cod 0 0 = -100 := by
    simp [initState, hM, realLog3, logMode3, logFwd, realL, hdata]
  have hcod1 : (initState M data).cod 1 0 = 0 := by
    simp [initState, hM, realLog3, logMode3, logFwd, realL, hdata]
  have hcod2 : (initState M data).cod 2 0 = 0 := by
    simp [initState, hM, realLog3, logMode3, logFwd, realL, hdata]
  have hpred : ∀ f, M.pred f 0 = 0 := by
    intro f
    simp [hM, realLog3, logMode3, predPrev, realOps]
  have hcomp0 : encComp M ((initState M data).cod 0) 0 1 = some (32718, -100) := by
    unfold encComp
    rw [hpred, hcod0]
    have e1 : M.O.toD (M.O.subT (-100) 0) = (-100 : ℝ) := by
      simp [hM, realLog3, logMode3, realL, realOps]
    have e2 : linQuant M.O.toDOps (-100) 1 M.capacity M.radius = some 32718 := hlin
    simp only [e1, e2]
    simp only [hM, realLog3, logMode3, realL, realOps, realD, linOffset]
    norm_num
  have hcomp1 : ∀ c, (initState M data).cod c 0 = 0 →
      encComp M ((initState M data).cod c) 0 1 = some (32768, 0) := by
    intro c hc
    unfold encComp
    rw [hpred, hc]
    have e1 : M.O.toD (M.O.subT 0 0) = (0 : ℝ) := by
      simp [hM, realLog3, logMode3, realL, realOps]
    have e2 : linQuant M.O.toDOps 0 1 M.capacity M.radius = some 32768 := hlin0
    simp only [e1, e2]
    simp only [hM, realLog3, logMode3, realL, realOps, realD, linOffset]
    norm_num
  have hr : encComps M (initState M data).cod 0 1 (List.range M.K) =
      some [(32718, -100), (32768, 0), (32768, 0)] := by
    have : List.range M.K = [0, 1, 2] := rfl
    rw [this]
    simp only [encComps, hcomp0, hcomp1 1 hcod1, hcomp1 2 hcod2]
  have hc := compress_one hplan hq (by norm_num) hr
  refine ⟨_, _, setCol (setCol (fun _ _ => 0) 0 [-100, 0, 0]) 0 [0, -1, 1], hc, ?_, rfl, rfl, rfl⟩
  have hd1 : decVertex M ⟨fun _ _ => 0, fun _ => false⟩ 0 ⟨[23], [32718, 32768, 32768], []⟩ =
      some (⟨setCol (fun _ _ => 0) 0 [-100, 0, 0], fun _ => false⟩, ⟨[], [], []⟩) := by
    have he : M.isEsc 23 = false := isEsc_real _ 23 (by norm_num) (by norm_num)
    have ht : takeN M.K [(32718 : Int), 32768, 32768] = some ([32718, 32768, 32768], []) := rfl
    have hrange : List.range M.K = [0, 1, 2] := rfl
    unfold decVertex
    simp only [he, Bool.false_eq_true, if_false, ht, hrange]
    simp only [List.map_cons, List.map_nil, List.getD_cons_zero, List.getD_cons_succ, hpred]
    simp only [hM, realLog3, logMode3, realL, realOps, realD, linOffset]
    norm_num
  have hs : signsU realL 1 data = [0#8, 1#8, 0#8] := by
    have h3 : List.range 3 = [0, 1, 2] := rfl
    have h1 : List.range 1 = [0] := rfl
    simp only [signsU, h1, h3, List.flatMap_cons, List.flatMap_nil, List.map_cons, List.map_nil,
      List.append_nil, signOf, hdata, realL]
    norm_num
  have hfin : finList realL (col 3 (setCol (fun _ _ => (0 : ℝ)) 0 [-100, 0, 0]) 0) [0#8, 1#8, 0#8] =
      some ([0, -1, 1], [0#8]) := by
    have hcol : col 3 (setCol (fun _ _ => (0 : ℝ)) 0 [-100, 0, 0]) 0 = [-100, 0, 0] := rfl
    have h100 : realL.ltM99 (-100) = true := by simp only [realL, decide_eq_true_eq]; norm_num
    have h00 : realL.ltM99 0 = false := by
      simp only [realL, decide_eq_false_iff_not]; norm_num
    rw [hcol]
    simp only [finList, finOne, h100, if_true, h00, Bool.false_eq_true, if_false]
    simp [realL, realOps]
  simp only [decompressU, decompress1, List.map_cons, List.map_nil, scanDec, hd1, Option.map_some,
    finVertexU, Bool.false_eq_true, if_false, hs, hfin]

/-! ### Examples -/

/-- Two tetrahedra sharing a face. -/
def twoTets : Nat → Int := fun k => [0, 1, 2, 3, 4, 1, 2, 3].getD k 0

example : ∃ adj, pointTets 5 2 twoTets = some adj ∧
    (List.range 5).map adj = [[(0, 0)], [(0, 1), (1, 1)], [(0, 2), (1, 2)], [(0, 3), (1, 3)], [(1, 0)]] ∧
    ∀ i, i < 2 → (quad twoTets i).Nodup := by
  refine ⟨_, rfl, by decide +kernel, by decide +kernel⟩

/-- The hypotheses of `C30_critical_cells_partial` are met by a field on this mesh with a critical
point in the first tetrahedron. -/
example : ∃ d : Arr ℝ, cellCP d [0, 1, 2, 3] ∧
    ∃ adj s' str, pointTets 5 2 twoTets = some adj ∧
      compressU 5 twoTets adj (1 / 10)
        (fun c q => if q = 4 then 5 else if q = c + 1 then 3 else -1) = some (s', str) ∧
      decompressU realL (realLog3 (predPrev realOps)) 5 (fun _ _ => 9)
        (signsU realL 5 (fun c q => if q = 4 then 5 else if q = c + 1 then 3 else -1)) str =
          some d := by
  set data : Arr ℝ := fun c q => if q = 4 then 5 else if q = c + 1 then 3 else -1 with hdata
  have h98 : (2 : ℝ) ^ (-98 : ℤ) ≤ 1 := by
    rw [zpow_neg]; exact inv_le_one_of_one_le₀ (by norm_num)
  have hadj : ∃ adj, pointTets 5 2 twoTets = some adj :=
    (C30_adjacency 5 2 twoTets).1.2 (by decide +kernel)
  obtain ⟨adj, hadj⟩ := hadj
  obtain ⟨s', str, h⟩ := compressU_defined 5 twoTets adj (1 / 10) data
  obtain ⟨d, hd, -, hcell, -⟩ := C30_critical_cells_partial 5 2 twoTets adj hadj (by decide +kernel)
    (1 / 10) (by norm_num) (by norm_num) data (by
      intro c q _ _
      refine h98.trans ?_
      simp only [hdata]
      split
      · norm_num
      · split <;> norm_num) s' str (fun _ _ => 9) h
  refine ⟨d, ?_, adj, s', str, hadj, h, hd⟩
  have hv : quad twoTets 0 = [0, 1, 2, 3] := by decide +kernel
  have := (hcell 0 (by omega)).1
  rw [hv] at this
  rw [this]
  refine (hasCP_four _ _ _ _).2 ⟨1 / 4, 1 / 4, 1 / 4, 1 / 4, by norm_num, by norm_num, by norm_num,
    by norm_num, by norm_num, ?_, ?_, ?_⟩ <;> norm_num [vec, hdata]

/-- The hypotheses of `C30_roundtrip_partial` hold for a field of eight vertices. -/
example : ∃ s' str, compress (logMode3 toyL 1#64 1#64 (predPrev toyL.toOps) 2 512)
      (planLog3 toyL 1#64 0 toyBound3) 8 toyFieldL = some (s', str) ∧
    str.eb = [2, 2, 2, 0, 0, 0, 0, 2] ∧
    ∃ bs, compressBytesU toyL toyCodec ⟨fun _ => true, 0#64, 0, fun _ => 0#8⟩
        ⟨fun _ => true, 0#64, 0, fun _ => 0#8⟩ (logMode3 toyL 1#64 1#64 (predPrev toyL.toOps)) 2 512
        (planLog3 toyL 1#64 0 toyBound3) 8 toyFieldL = some (s'.val, bs) ∧
      ∀ rest m0, ∃ d, decompressBytesU toyL toyCodec (logMode3 toyL 1#64 1#64 (predPrev toyL.toOps)) 8
          m0 (bs ++ rest) = some d ∧ ∀ c q, c < 3 → q < 8 → d c q = s'.val c q := by
  have hv : (compress (logMode3 toyL 1#64 1#64 (predPrev toyL.toOps) 2 512)
      (planLog3 toyL 1#64 0 toyBound3) 8 toyFieldL).map (fun r => (r.2.eb, r.2.dq, r.2.un,
         (List.range 3).all fun c => (List.range 8).all fun q =>
           q == 5 || !(toyL.ltM99 (r.1.cod c q)))) =
      some ([2, 2, 2, 0, 0, 0, 0, 2],
        [562, 537, 513, 514, 514, 513, 509, 489, 513, 512, 516, 513],
        [109#64, 812#64, 8#64, -2#64, 6#64, 10#64, 2#64, 0#64, 12#64, -4#64, 2#64, 14#64], true) := by
    decide +kernel
  generalize hc : compress (logMode3 toyL 1#64 1#64 (predPrev toyL.toOps) 2 512)
      (planLog3 toyL 1#64 0 toyBound3) 8 toyFieldL = r at hv
  cases r with
  | none => cases hv
  | some r =>
    obtain ⟨s', str⟩ := r
    simp only [Option.map_some, Option.some.injEq, Prod.mk.injEq] at hv
    obtain ⟨h1, h2, h3, h4⟩ := hv
    refine ⟨s', str, rfl, h1, C30_roundtrip_partial toyL toyL_laws toyCodec _ _ 1#64 1#64 1#64
      8 2 512 toyBound3 toyFieldL s' str hc (by decide) (by decide) (by decide) ?_ ?_ ?_ ?_ ?_⟩
    · rw [h1]
      exact fits_of_short _ _ _ (by decide) (by decide) (by decide) (by decide)
    · rw [h2]
      exact fits_of_short _ _ _ (by decide) (by decide) (by decide) (by decide)
    · rw [h3]; decide
    · intro s p a hp hpl
      rcases planLog3_cases hpl with h0 | ⟨req0, req, hb, hreq, hpos, h0⟩
      · cases h0
      · simp only [Plan.try.injEq] at h0
        have : req = 31#64 ∨ req = 0#64 := by
          rcases hreq with h | h
          · subst h
            simp only [toyBound3, Option.some.injEq] at hb
            split at hb
            · exact Or.inr hb.symm
            · exact Or.inl hb.symm
          · exact Or.inr h
        rcases this with rfl | rfl
        · rw [h0.1]; decide +kernel
        · exact absurd hpos (by decide)
    · intro c q e hcK hq he h0 _
      simp only [List.all_eq_true, List.mem_range, Bool.or_eq_true, beq_iff_eq,
        Bool.not_eq_true'] at h4
      rcases h4 c hcK q hq with h5 | h5
      · subst h5
        rw [h1] at he
        simp only [List.getElem?_cons_succ, List.getElem?_cons_zero, Option.some.injEq] at he
        exact absurd he.symm h0
      · exact h5

end CpSZ.ThreeD
