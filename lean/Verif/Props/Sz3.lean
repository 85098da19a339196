import Verif.Sz3.Real
import Verif.Props.Online2D
import Verif.Toy
/-
Properties C23, C24 and C25 (interpolation based 2D mode).
-/

namespace CpSZ.Sz3
open Mesh2D

/-! ### C23 -/

/-- C23, visits.  On every nonempty grid the compressor treats each array position exactly
once, and addresses it consistently by position and by row and column. -/
theorem C23_each_vertex_once (r1 r2 : Nat) (h1 : 0 < r1) (h2 : 0 < r2) :
    ((planEnc r1 r2).map Ev.pos).Perm (List.range (r1 * r2)) ∧
      ∀ e ∈ planEnc r1 r2, e.row < r1 ∧ e.col < r2 ∧ e.pos = e.row * r2 + e.col :=
  ⟨plan_perm h1 h2, plan_ok h1 h2⟩

/-- C23, causality.  The prediction of a vertex reads only array positions of vertices treated
before it. -/
theorem C23_causal (r1 r2 : Nat) (h1 : 0 < r1) (h2 : 0 < r2) (before after : List Ev) (e : Ev)
    (h : planEnc r1 r2 = before ++ e :: after) :
    ∀ p ∈ e.reads, ∃ e' ∈ before, p = (e'.pos : Int) ∧ e'.pos < r1 * r2 := by
  intro p hp
  have hc := plan_causal h1 h2
  rw [h] at hc
  obtain ⟨q, rfl, hq⟩ := causal_split hc p hp
  obtain ⟨e', he', rfl⟩ := List.mem_map.1 (hq.resolve_left (fun x => x))
  refine ⟨e', he', rfl, ?_⟩
  have := (plan_perm h1 h2).mem_iff.1 (List.mem_map.2 ⟨e', by rw [h]; simp [he'], rfl⟩)
  exact List.mem_range.1 this

/-- C23, the decompressor treats the same positions in the same order with the same
predictors. -/
theorem C23_decoder_order (r1 r2 : Nat) :
    planDec r1 r2 = (planEnc r1 r2).map fun e => ⟨e.pos, e.stride, e.kind⟩ :=
  planDec_eq r1 r2

/-- C23, the derivation of the bound never reads outside the arrays. -/
theorem C23_bound_in_range {T D : Type} (r1 r2 : Nat) (h1 : 0 < r1) (h2 : 0 < r2)
    (minf : D → D → D) (derive : T → T → T → T → T → T → D) (f : Fld T) (eb : D) :
    ∀ e ∈ planEnc r1 r2, ∃ req, deriveEb r1 r2 minf derive f e eb = some req := by
  intro e he
  obtain ⟨hi, hj, hp⟩ := plan_ok h1 h2 e he
  have := requiredLoop_defined r1 r2 minf (fun _ => derive) f e.row e.col
    [0, 1, 2, 3, 4, 5] (by simp) eb hi hj
  rw [← hp, ← deriveLoop_eq _ _ _ _ _ _ _ _ hp hj] at this
  exact Option.isSome_iff_exists.1 this

/-! ### C24 -/

/-- The compressor is defined on every input. -/
theorem compress_defined {T D : Type} (S : SOps T D) (P : Par D) (r1 r2 : Nat) (h1 : 0 < r1)
    (h2 : 0 < r2) (minf : D → D → D) (derive : T → T → T → T → T → T → D) (m : Fld T) :
    ∃ m' s, compress S P r1 r2 (deriveEb r1 r2 minf derive) m = some (m', s) := by
  have hp : ∀ e ∈ planEnc r1 r2, e.pos < r1 * r2 := fun e he =>
    List.mem_range.1 ((plan_perm h1 h2).mem_iff.1 (List.mem_map.2 ⟨e, he, rfl⟩))
  obtain ⟨f', cs, h⟩ := encAll_defined (S := S) (P := P) (plan_causal h1 h2)
    (fun q hq => hq.elim) hp
    (fun e he f eb => C23_bound_in_range r1 r2 h1 h2 minf derive f eb e he) m
  exact ⟨f', streams cs, by simp only [compress, h]⟩

/-- C24, round trip (of grids with more than two elements).  For any arithmetic and any bound
computation the decompressor returns the working copy of the compressor from its bytes.

Missing: grids with `n * sizeof(T) ≤ 5 + sizeof(T)`, see `C24_small_grid_aborts`. -/
theorem C24_roundtrip_partial {T D : Type} (S : SOps T D) (c : Codec T) (cD : Codec D)
    (E1 E2 : Env) (P : Par D) (r1 r2 : Nat) (bound : Fld T → Ev → D → Option D) (m m' : Fld T)
    (s : Streams T) (h : compress S P r1 r2 bound m = some (m', s))
    (hS : Sane S P.base P.thr P.radius) (h1 : 0 < r1) (h2 : 0 < r2)
    (hn : 1 + c.size + 4 < r1 * r2 * c.size) (hlen : r1 * r2 < 2 ^ 60)
    (hb : 0 ≤ P.base ∧ P.base < 2 ^ 31) (hc : 0 ≤ P.capacity ∧ P.capacity < 2 ^ 31)
    (f1 : Fits E1 (2 * 1024) s.eb) (f2 : Fits E2 (2 * P.capacity.toNat) s.dq) :
    ∃ bs, compressBytes S c cD E1 E2 P r1 r2 bound m = some (m', bs) ∧
      ∀ rest m0, ∃ d, decompressBytes S c cD r1 r2 m0 (bs ++ rest) = some d ∧
        ∀ q, q < r1 * r2 → d.u q = m'.u q ∧ d.v q = m'.v q := by
  obtain ⟨l1, l2, l3⟩ := compress_lengths h1 h2 h
  obtain ⟨bs, hs, hp⟩ := serialize_parse c cD E1 E2 P s (r1 * r2) l1 l2 hn (by omega) hb hc f1 f2
  refine ⟨bs, by simp only [compressBytes, h, hs], fun rest m0 => ?_⟩
  obtain ⟨d, hd, hA⟩ := lockstep hS h1 h2 h m0
  exact ⟨d, by simp only [decompressBytes, hp rest, hd], hA⟩

/-- C24 fails on tiny grids: the sanity check in `load` compares a placeholder with the size of
the header, so the decompressor aborts on every stream, whatever its content. -/
theorem C24_small_grid_aborts {T D : Type} (S : SOps T D) (c : Codec T) (cD : Codec D)
    (r1 r2 : Nat) (hn : r1 * r2 * c.size ≤ 1 + c.size + 4) (m0 : Fld T) (bs : List Byte) :
    decompressBytes S c cD r1 r2 m0 bs = none := by
  have : parse c cD (r1 * r2) bs = none := by
    unfold parse
    split
    · rfl
    split
    · rfl
    split
    · rfl
    rw [if_pos hn]
  simp only [decompressBytes, this]

/-- The affected grids: one element, or two elements of four bytes. -/
example : (1 * 1 * 8 ≤ 1 + 8 + 4) ∧ (1 * 2 * 4 ≤ 1 + 4 + 4) ∧ ¬ (1 * 2 * 8 ≤ 1 + 8 + 4) ∧
    ¬ (3 * 1 * 4 ≤ 1 + 4 + 4) := by decide

/-- The arithmetic condition holds for rounded arithmetic with the constants of the code. -/
theorem C24_rounded_sane {rT rD lg : ℝ → ℝ} (hT : IsRounding rT) (hD : IsRounding rD)
    (maxEb : ℝ) : Sane (roundedS rT rD lg) (parSz3 maxEb).base (parSz3 maxEb).thr
      (parSz3 maxEb).radius :=
  sane_rounded hT hD _ _ (by simp [parSz3]) (by simp only [parSz3]; positivity) _

theorem encAll_forall {T D : Type} {S : SOps T D} {P : Par D} {n : Nat}
    {bound : Fld T → Ev → D → Option D} {es : List Ev} {Q : Code T → Prop}
    (hQ : ∀ e ∈ es, ∀ f f' c, encEv S P n bound f e = some (f', c) → Q c) {f f' : Fld T}
    {cs : List (Code T)} (h : encAll S P n bound es f = some (f', cs)) : ∀ c ∈ cs, Q c := by
  induction es generalizing f f' cs with
  | nil =>
    simp only [encAll, Option.some.injEq, Prod.mk.injEq] at h
    rw [← h.2]; simp
  | cons e es ih =>
    unfold encAll at h
    split at h
    · cases h
    rename_i f1 c h1
    split at h
    · cases h
    rename_i f2 cs' h2
    simp only [Option.some.injEq, Prod.mk.injEq] at h
    obtain ⟨rfl, rfl⟩ := h
    intro c' hc'
    rcases List.mem_cons.1 hc' with rfl | hc'
    · exact hQ e (by simp) _ _ _ h1
    · exact ih (fun e' he' => hQ e' (by simp [he'])) h2 c' hc'

theorem quantT_range {rT rD lg : ℝ → ℝ} (hT : IsRounding rT) (radius : Int) (hr : 0 ≤ radius)
    (cur pred eb : ℝ) (he : 0 ≤ eb) :
    0 ≤ (quantT (roundedS rT rD lg).t radius cur pred eb).1 ∧
      (quantT (roundedS rT rD lg).t radius cur pred eb).1 ≤ 2 * radius := by
  have t0 : rT 0 = 0 := by simpa using hT.int 0 (by norm_num)
  have ht : 0 ≤ (roundedS rT rD lg).t.trunc ((roundedS rT rD lg).t.div
      ((roundedS rT rD lg).t.abs ((roundedS rT rD lg).t.sub cur pred)) eb) := by
    have hn : 0 ≤ rT (|rT (cur - pred)| / eb) := by
      rw [← t0]; exact hT.mono (div_nonneg (abs_nonneg _) he)
    simp only [roundedS, roundedOps]
    rw [truncR_nonneg hn]
    exact Int.floor_nonneg.2 hn
  unfold quantT
  simp only
  generalize (roundedS rT rD lg).t.trunc ((roundedS rT rD lg).t.div
      ((roundedS rT rD lg).t.abs ((roundedS rT rD lg).t.sub cur pred)) eb) = t at *
  split
  · simp only; omega
  · split
    · split_ifs <;> simp only <;> omega
    · simp only; omega

/-- C24, all data codes are in the range of the entropy coder, in rounded arithmetic. -/
theorem C24_codes_in_range {rT rD lg : ℝ → ℝ} (hT : IsRounding rT) (hD : IsRounding rD)
    (maxEb : ℝ) (r1 r2 : Nat) (bound : Fld ℝ → Ev → ℝ → Option ℝ) (m m' : Fld ℝ) (s : Streams ℝ)
    (h : compress (roundedS rT rD lg) (parSz3 maxEb) r1 r2 bound m = some (m', s)) :
    ∀ q ∈ s.dq, 0 ≤ q ∧ q < ((2 * (parSz3 maxEb).capacity.toNat : Nat) : Int) := by
  have t0 : rT 0 = 0 := by simpa using hT.int 0 (by norm_num)
  have d0 : rD 0 = 0 := by simpa using hD.int 0 (by norm_num)
  have tp : ∀ x, 0 ≤ x → 0 ≤ rT x := fun x hx => by rw [← t0]; exact hT.mono hx
  have dp : ∀ x, 0 ≤ x → 0 ≤ rD x := fun x hx => by rw [← d0]; exact hD.mono hx
  unfold compress at h
  split at h
  · cases h
  rename_i f cs he
  simp only [Option.some.injEq, Prod.mk.injEq] at h
  obtain ⟨-, rfl⟩ := h
  have hall := encAll_forall (Q := fun c => (0 ≤ c.qu ∧ c.qu ≤ 65536) ∧
    (0 ≤ c.qv ∧ c.qv ≤ 65536)) (fun e _ f f' c hc => ?_) he
  · intro q hq
    simp only [streams, List.mem_flatMap, List.mem_cons, List.not_mem_nil, or_false] at hq
    obtain ⟨c, hc, hq⟩ := hq
    have := hall c hc
    simp only [parSz3]
    rcases hq with rfl | rfl <;> omega
  · unfold encEv at hc
    split at hc
    · cases hc
    rename_i req _
    simp only at hc
    split at hc
    · simp only [Option.some.injEq, Prod.mk.injEq] at hc
      have hnn : 0 ≤ (roundedS rT rD lg).conv (ebQuant (roundedS rT rD lg).d (parSz3 maxEb).base
          (parSz3 maxEb).logBase (parSz3 maxEb).thr req).1 := by
        apply tp
        unfold ebQuant
        split
        · simp [roundedS, roundedOps, d0]
        · simp only [roundedS, roundedOps, parSz3]
          exact dp _ (mul_nonneg (dp _ (by positivity)) (by positivity))
      rw [← hc.2]
      have hrad : (parSz3 maxEb).radius = 32768 := by simp [Par.radius, parSz3]
      rw [hrad]
      exact ⟨quantT_range hT 32768 (by norm_num) _ _ _ hnn,
        quantT_range hT 32768 (by norm_num) _ _ _ hnn⟩
    · cases hc

theorem inv_final {r1 r2 : Nat} (h1 : 0 < r1) (h2 : 0 < r2) {maxEb : ℝ} {m m' m0 d : Fld ℝ}
    {s : Streams ℝ} (h : compressSz3 r1 r2 maxEb m = some (m', s))
    (hd : decompressSz3 r1 r2 m0 s = some d) :
    Inv r1 r2 maxEb m [] m' ∧ ∀ q, q < r1 * r2 → d.u q = m'.u q ∧ d.v q = m'.v q := by
  obtain ⟨d', hd', hA⟩ := lockstep (sane_real maxEb) h1 h2 h m0
  have hrad : (parSz3 maxEb).radius = 32768 := by simp [Par.radius, parSz3]
  rw [hrad] at hd'
  have : d' = d := Option.some.inj (hd'.symm.trans hd)
  subst this
  refine ⟨?_, hA⟩
  unfold compressSz3 compress at h
  split at h
  · cases h
  rename_i f cs he
  simp only [Option.some.injEq, Prod.mk.injEq] at h
  obtain ⟨rfl, -⟩ := h
  exact inv_all (plan_ok h1 h2) ((plan_perm h1 h2).nodup_iff.2 List.nodup_range)
    ⟨fun _ _ => ⟨rfl, rfl⟩, fun _ => ⟨Or.inl rfl, Or.inl rfl⟩, fun _ _ h => h,
      fun _ _ _ _ _ => ⟨rfl, rfl⟩⟩ he

/-- The exact-arithmetic compressor and decompressor are defined on every input. -/
theorem compressSz3_defined (r1 r2 : Nat) (h1 : 0 < r1) (h2 : 0 < r2) (maxEb : ℝ)
    (m m0 : Fld ℝ) :
    ∃ m' s d, compressSz3 r1 r2 maxEb m = some (m', s) ∧ decompressSz3 r1 r2 m0 s = some d := by
  have hp : ∀ e ∈ planEnc r1 r2, e.pos < r1 * r2 := fun e he =>
    List.mem_range.1 ((plan_perm h1 h2).mem_iff.1 (List.mem_map.2 ⟨e, he, rfl⟩))
  obtain ⟨m', cs, h⟩ := encAll_defined (S := realS) (P := parSz3 maxEb)
    (bound := boundSz3 r1 r2) (plan_causal h1 h2)
    (fun q hq => hq.elim) hp (fun e he f eb => by
      obtain ⟨req, hr, -⟩ := boundSz3_spec (f := f) (plan_ok h1 h2 e he) eb
      exact ⟨req, hr⟩) m
  have hc : compressSz3 r1 r2 maxEb m = some (m', streams cs) := by
    simp only [compressSz3, compress, h]
  obtain ⟨d, hd, -⟩ := lockstep (sane_real maxEb) h1 h2 hc m0
  have hrad : (parSz3 maxEb).radius = 32768 := by simp [Par.radius, parSz3]
  rw [hrad] at hd
  exact ⟨m', _, d, hc, hd⟩

/-- C24, error bound.  Every decompressed value is exact or within the user's bound. -/
theorem C24_absolute_error (r1 r2 : Nat) (h1 : 0 < r1) (h2 : 0 < r2) (maxEb : ℝ)
    (m m' m0 d : Fld ℝ) (s : Streams ℝ) (h : compressSz3 r1 r2 maxEb m = some (m', s))
    (hd : decompressSz3 r1 r2 m0 s = some d) (q : Nat) (hq : q < r1 * r2) :
    (d.u q = m.u q ∨ |d.u q - m.u q| ≤ maxEb) ∧ (d.v q = m.v q ∨ |d.v q - m.v q| ≤ maxEb) := by
  obtain ⟨hI, hA⟩ := inv_final h1 h2 h hd
  rw [(hA q hq).1, (hA q hq).2]
  exact hI.close q

/-! ### C25 -/

/-- C25, no critical point is lost, and the vertices of a triangle with a critical point are
reproduced exactly. -/
theorem C25_critical_points_kept (r1 r2 : Nat) (h1 : 0 < r1) (h2 : 0 < r2) (maxEb : ℝ)
    (m m' m0 d : Fld ℝ) (s : Streams ℝ) (h : compressSz3 r1 r2 maxEb m = some (m', s))
    (hd : decompressSz3 r1 r2 m0 s = some d) (t : Tri) (ht : t.inGrid r1 r2)
    (hc : t.hasCP r2 m) : t.hasCP r2 d ∧ ∀ P ∈ t.verts,
      gridVal r2 d.u P = gridVal r2 m.u P ∧ gridVal r2 d.v P = gridVal r2 m.v P := by
  obtain ⟨hI, hA⟩ := inv_final h1 h2 h hd
  refine ⟨(Online2D.tri_congr ht hA).1.2 (hI.cp t ht hc), fun P hP => ?_⟩
  have hlt : P.1 * r2 + P.2 < r1 * r2 := by
    unfold Tri.inGrid at ht
    have : P.1 < r1 ∧ P.2 < r2 := by
      unfold Tri.verts at hP
      split at hP <;> simp only [List.mem_cons, List.not_mem_nil, or_false] at hP <;>
        rcases hP with rfl | rfl | rfl <;> simp only <;> omega
    exact flat_lt _ _ _ _ this.1 this.2
  have := hI.exact t ht hc P hP
  unfold gridVal
  rw [(hA _ hlt).1, (hA _ hlt).2]
  exact this

/-- C25, no critical point appears, provided no bound derived during the run is exactly a power
of four times the threshold `2^-52`.

Missing: runs in which a derived bound has that form; there the claim is false, see
`C25_new_critical_point`. -/
theorem C25_critical_points_partial (r1 r2 : Nat) (h1 : 0 < r1) (h2 : 0 < r2) (maxEb : ℝ)
    (m m' m0 d : Fld ℝ) (s : Streams ℝ) (h : compressSz3 r1 r2 maxEb m = some (m', s))
    (hd : decompressSz3 r1 r2 m0 s = some d)
    (hs : ∀ x ∈ trace realS (parSz3 maxEb) (r1 * r2) (boundSz3 r1 r2) (planEnc r1 r2) m, ∀ req,
      boundSz3 r1 r2 x.1 x.2 (if x.2.half then maxEb * (1 / 2) else maxEb) = some req →
      ∀ k : ℕ, req ≠ (4 : ℝ) ^ k * (2 : ℝ) ^ (-52 : ℤ))
    (t : Tri) (ht : t.inGrid r1 r2) : t.hasCP r2 d ↔ t.hasCP r2 m := by
  obtain ⟨-, hA⟩ := inv_final h1 h2 h hd
  rw [(Online2D.tri_congr ht hA).1]
  unfold compressSz3 compress at h
  split at h
  · cases h
  rename_i f cs he
  simp only [Option.some.injEq, Prod.mk.injEq] at h
  obtain ⟨rfl, -⟩ := h
  exact (cp_all (plan_ok h1 h2) hs he t ht).symm

/-! ### Witness: an error equal to the derived bound creates a critical point -/

/-- Vectors `(0,4) (0,4) / (1,3) (-1,-1)` on a 2 by 2 grid. -/
def badField : Fld ℝ := ⟨fun q => [0, 0, 1, -1].getD q 0, fun q => [4, 4, 3, -1].getD q 0⟩

theorem plan22 : planEnc 2 2 = [⟨0, 0, 0, 0, .zero, true⟩, ⟨2, 1, 0, 2, .left, false⟩,
    ⟨1, 0, 1, 1, .left, false⟩, ⟨3, 1, 1, 1, .left, false⟩] := by
  have h1 : interpLevel 2 2 = 1 := by
    unfold interpLevel
    rw [Nat.max_self, Nat.clog_eq_one (by norm_num) (by norm_num)]
  have s1 : stepLoop 2 2 0 = [0] := by
    rw [stepLoop, stepLoop]; simp
  have s2 : stepLoop 2 1 0 = [0, 1] := by
    rw [stepLoop, stepLoop, stepLoop]; simp
  have l1 : linLoop 2 1 = [] := by rw [linLoop]; simp
  simp [planEnc, h1, levelsEnc, passCols, passRows, s1, s2, lineEnc, l1]

/-- The first vertex keeps its value: the upper triangle is degenerate. -/
theorem bad_first (maxEb : ℝ) {f' : Fld ℝ} {c : Code ℝ}
    (h : encEv realS (parSz3 maxEb) (2 * 2) (boundSz3 2 2) badField
      ⟨0, 0, 0, 0, .zero, true⟩ = some (f', c)) : f' = badField := by
  obtain ⟨req, x, y, hreq, rfl, hxy⟩ := encEv_real h
  rcases hxy with ⟨rfl, rfl⟩ | ⟨hpos, -⟩
  · exact set_self _ _
  · exfalso
    obtain ⟨req', hr', -, hall⟩ := boundSz3_spec (r1 := 2) (r2 := 2) (f := badField)
      (e := ⟨0, 0, 0, 0, .zero, true⟩) ⟨by norm_num, by norm_num, rfl⟩
      (if true then maxEb * (1 / 2) else maxEb)
    rw [hreq] at hr'
    cases hr'
    obtain ⟨E, hE, hle⟩ := hall 4 (by norm_num) (by decide)
    have n4 : nbr 2 0 4 = 3 := by decide
    have n5 : nbr 2 0 (4 + 1) = 1 := by decide
    simp only [n4, n5] at hE
    norm_num [deriveAbs, badField] at hE
    linarith

/-- The bound of the second vertex is exactly 1. -/
theorem bad_bound : boundSz3 2 2 badField ⟨2, 1, 0, 2, .left, false⟩ 4 = some 1 := by
  have m0 : inMesh 2 2 1 0 0 = false := by decide
  have m1 : inMesh 2 2 1 0 1 = false := by decide
  have m2 : inMesh 2 2 1 0 2 = false := by decide
  have m3 : inMesh 2 2 1 0 3 = false := by decide
  have m4 : inMesh 2 2 1 0 4 = false := by decide
  have m5 : inMesh 2 2 1 0 5 = true := by decide
  simp only [boundSz3, deriveEb, deriveLoop, m0, m1, m2, m3, m4, m5, Bool.false_eq_true, if_false,
    if_true]
  have t3 : Int.toNat 3 = 3 := rfl
  norm_num [rd, offsets, badField, t3]
  norm_num [deriveAbs, keepAbs, optMinf, optMaxf, minf, maxf, minfX]

theorem eb_value {req : ℝ} {k : ℤ} (h0 : (2 : ℝ) ^ (-52 : ℤ) < req) (h1 : (4 : ℝ) ^ k ≤ req)
    (h2 : req < (4 : ℝ) ^ (k + 1)) :
    ebQuant realD 4 (Real.logb 2 4) ((2 : ℝ) ^ (-52 : ℤ)) req = ((4 : ℝ) ^ k, k + 26) := by
  obtain ⟨-, -, s3, -⟩ := ebQuant_spec 4 (by norm_num) ((2 : ℝ) ^ (-52 : ℤ)) req (by positivity)
  simp only [Int.cast_ofNat] at s3
  obtain ⟨t1, t2, t3⟩ := s3 h0
  set r := ebQuant realD 4 (Real.logb 2 4) ((2 : ℝ) ^ (-52 : ℤ)) req with hr
  rw [t1] at t2 t3
  have e52 : (2 : ℝ) ^ (-52 : ℤ) = (4 : ℝ) ^ (-26 : ℤ) := by norm_num
  rw [e52, ← zpow_add₀ (by norm_num)] at t2
  rw [e52, ← zpow_add₀ (by norm_num), ← zpow_one_add₀ (by norm_num)] at t3
  have a1 : r.2 + -26 < k + 1 := by
    rw [← zpow_lt_zpow_iff_right₀ (show (1 : ℝ) < 4 by norm_num)]; exact t2.trans_lt h2
  have a2 : k < 1 + (r.2 + -26) := by
    rw [← zpow_lt_zpow_iff_right₀ (show (1 : ℝ) < 4 by norm_num)]; exact h1.trans_lt t3
  have e2 : r.2 = k + 26 := by omega
  have e1 : r.1 = (4 : ℝ) ^ k := by
    rw [t1, e2, e52, ← zpow_add₀ (by norm_num)]
    congr 1; omega
  exact Prod.ext e1 e2

theorem bad_eb : ebQuant realD 4 (Real.logb 2 4) ((2 : ℝ) ^ (-52 : ℤ)) 1 = (1, 26) := by
  have := eb_value (req := 1) (k := 0) (by norm_num) (by norm_num) (by norm_num)
  simpa using this

/-- The second vertex moves from `(1,3)` to `(2,2)`, opposite to `(-1,-1)`. -/
theorem bad_second {f' : Fld ℝ} {c : Code ℝ}
    (h : encEv realS (parSz3 4) (2 * 2) (boundSz3 2 2) badField
      ⟨2, 1, 0, 2, .left, false⟩ = some (f', c)) : f' = badField.set 2 2 2 := by
  have hb : boundSz3 2 2 badField ⟨2, 1, 0, 2, .left, false⟩
      (if (false : Bool) = true then (parSz3 4).ebHalf else (parSz3 4).ebFull) = some 1 := bad_bound
  have he : ebQuant realS.d (parSz3 4).base (parSz3 4).logBase (parSz3 4).thr 1 = (1, 26) := bad_eb
  have hrad : (parSz3 4).radius = 32768 := by simp [Par.radius, parSz3]
  have pu : predict realS.t (2 * 2) badField.u (Ev.toD ⟨2, 1, 0, 2, .left, false⟩) = some 0 := by
    simp [predict, DEv.reads, Ev.toD, Interp.reads, readAll, rd, interp, badField]
  have pv : predict realS.t (2 * 2) badField.v (Ev.toD ⟨2, 1, 0, 2, .left, false⟩) = some 4 := by
    simp [predict, DEv.reads, Ev.toD, Interp.reads, readAll, rd, interp, badField]
  unfold encEv at h
  simp only [hb, he, hrad, pu, pv, Option.some.injEq, Prod.mk.injEq] at h
  have bu : badField.u 2 = 1 := by simp [badField]
  have bv : badField.v 2 = 3 := by simp [badField]
  have tr : truncR 1 = 1 := by rw [truncR_nonneg (by norm_num)]; norm_num
  have qu : (quantT realS.t 32768 1 0 (realS.conv 1)).2.1 = 2 := by
    unfold quantT
    rw [isZero_real]
    norm_num [realS, realD, tr]
  have qv : (quantT realS.t 32768 3 4 (realS.conv 1)).2.1 = 2 := by
    unfold quantT
    rw [isZero_real]
    norm_num [realS, realD, tr]
  rw [← h.1, bu, bv, qu, qv]

/-- C25 is false without the condition: a field on a 2 by 2 grid whose lower triangle has no
critical point, compressed with bound 4, decompresses to a field whose lower triangle has one.
The error of one vertex is exactly the derived bound, which the quantiser accepts. -/
theorem C25_new_critical_point : ∃ (m m' m0 d : Fld ℝ) (s : Streams ℝ),
    compressSz3 2 2 4 m = some (m', s) ∧ decompressSz3 2 2 m0 s = some d ∧
    (⟨0, 0, false⟩ : Tri).inGrid 2 2 ∧ ¬ (⟨0, 0, false⟩ : Tri).hasCP 2 m ∧
    (⟨0, 0, false⟩ : Tri).hasCP 2 d := by
  obtain ⟨m', s, d, h, hd⟩ := compressSz3_defined 2 2 (by norm_num) (by norm_num) 4 badField
    badField
  have ht : (⟨0, 0, false⟩ : Tri).inGrid 2 2 := by simp [Tri.inGrid]
  refine ⟨badField, m', badField, d, s, h, hd, ht, ?_, ?_⟩
  · rintro ⟨a, b, c, ha, hb, hc, hs, e1, e2⟩
    simp [Tri.vec, Tri.verts, gridVal, badField] at e1 e2
    linarith
  · obtain ⟨-, hA⟩ := inv_final (by norm_num) (by norm_num) h hd
    refine (Online2D.tri_congr ht hA).1.2 ?_
    unfold compressSz3 compress at h
    rw [plan22] at h
    split at h
    · cases h
    rename_i f cs he
    simp only [Option.some.injEq, Prod.mk.injEq] at h
    obtain ⟨rfl, -⟩ := h
    unfold encAll at he
    split at he
    · cases he
    rename_i f1 c1 s1
    split at he
    · cases he
    rename_i g1 cs1 k1
    simp only [Option.some.injEq, Prod.mk.injEq] at he
    obtain ⟨rfl, -⟩ := he
    obtain rfl := bad_first 4 s1
    unfold encAll at k1
    split at k1
    · cases k1
    rename_i f2 c2 s2
    split at k1
    · cases k1
    rename_i g2 cs2 k2
    simp only [Option.some.injEq, Prod.mk.injEq] at k1
    obtain ⟨rfl, -⟩ := k1
    obtain rfl := bad_second s2
    have hI := inv_all (r1 := 2) (r2 := 2) (m := badField.set 2 2 2) (by
      intro e he
      simp only [List.mem_cons, List.not_mem_nil, or_false] at he
      rcases he with rfl | rfl <;> exact ⟨by norm_num, by norm_num, rfl⟩)
      (by simp) ⟨fun _ _ => ⟨rfl, rfl⟩, fun _ => ⟨Or.inl rfl, Or.inl rfl⟩, fun _ _ h => h,
        fun _ _ _ _ _ => ⟨rfl, rfl⟩⟩ k2
    refine hI.cp _ ht ⟨0, 1 / 3, 2 / 3, by norm_num, by norm_num, by norm_num, by norm_num,
      ?_, ?_⟩ <;>
      simp [Tri.vec, Tri.verts, gridVal, badField, Online2D.Field.set, Online2D.setAt] <;>
      norm_num

/-! ### Examples -/

/-- A plan with a vertex read by two later ones. -/
example : (0 < 5 ∧ 0 < 7) ∧ planEnc 2 2 = [⟨0, 0, 0, 0, .zero, true⟩, ⟨2, 1, 0, 2, .left, false⟩] ++
    ⟨1, 0, 1, 1, .left, false⟩ :: [⟨3, 1, 1, 1, .left, false⟩] :=
  ⟨by decide, plan22⟩

/-- 64-bit integers whose truncation is never negative. -/
def toyS : SOps (BitVec 64) (BitVec 64) :=
  ⟨toyOps.toDOps, { toyOps.toDOps with trunc := fun a => a.toNat }, id⟩

theorem toyS_sane (base : Int) (thr : BitVec 64) (radius : Int) : Sane toyS base thr radius :=
  ⟨by decide, fun _ _ t h => Or.inl (by rw [h]; exact Int.natCast_nonneg _)⟩

def toyPar : Par (BitVec 64) := ⟨4, 2#64, 1#64, 65536, 16#64, 8#64⟩

def toyField : Fld (BitVec 64) :=
  ⟨fun q => [100#64, 132#64, 77#64, 200#64].getD q 0#64,
   fun q => [5#64, 37#64, 1099511627776#64, 37#64].getD q 0#64⟩

/-- A toy run with predicted and unpredictable values, to bytes and back. -/
example (E1 E2 : Env) : ∃ m' s bs, compress toyS toyPar 2 2 (fun _ _ eb => some eb) toyField =
      some (m', s) ∧ s.un = [1099511627776#64, 37#64] ∧
    compressBytes toyS toyCodec toyCodec E1 E2 toyPar 2 2 (fun _ _ eb => some eb) toyField =
      some (m', bs) ∧
    ∃ d, decompressBytes toyS toyCodec toyCodec 2 2 toyField (bs ++ []) = some d ∧
      ∀ q, q < 2 * 2 → d.u q = m'.u q ∧ d.v q = m'.v q := by
  have h : ∃ x, compress toyS toyPar 2 2 (fun _ _ eb => some eb) toyField = some x ∧
      x.2.eb = [1, 2, 2, 2] ∧
      x.2.dq = [32781, 32769, 32767, 0, 32769, 32769, 32772, 0] ∧
      x.2.un = [1099511627776#64, 37#64] := by
    unfold compress
    rw [plan22]
    exact ⟨_, rfl, by decide +kernel, by decide +kernel, by decide +kernel⟩
  obtain ⟨⟨m', s⟩, h, e1, e2, e3⟩ := h
  simp only at e1 e2 e3
  obtain ⟨bs, hb, hd⟩ := C24_roundtrip_partial toyS toyCodec toyCodec E1 E2 toyPar 2 2 _ toyField
    m' s h (toyS_sane _ _ _) (by decide) (by decide) (by decide) (by decide) (by decide)
    (by decide)
    (fits_of_short E1 _ _ (by rw [e1]; simp) (by rw [e1]; decide) (by decide) (by
      rw [e1]; decide))
    (fits_of_short E2 _ _ (by rw [e2]; simp) (by rw [e2]; decide) (by decide) (by
      rw [e2]; decide))
  exact ⟨m', s, bs, h, e3, hb, hd [] toyField⟩

/-- Vectors `(4,0) (2,4) / (6,2) (4,4)` on a 2 by 2 grid. -/
def goodField : Fld ℝ := ⟨fun q => [4, 2, 6, 4].getD q 0, fun q => [0, 4, 2, 4].getD q 0⟩

theorem tenth_ne (k n : ℕ) :
    (1 : ℝ) / (2 ^ n * 5) ≠ (4 : ℝ) ^ k * (2 : ℝ) ^ (-52 : ℤ) := by
  intro h
  have h1 : ((2 : ℝ) ^ 52) = 4 ^ k * (2 ^ n * 5) := by
    have e : (2 : ℝ) ^ (-52 : ℤ) = 1 / 2 ^ 52 := by norm_num
    rw [e] at h
    have hp : (0 : ℝ) < 2 ^ n * 5 := by positivity
    field_simp at h
    linarith
  have h2 : (2 ^ 52 : ℕ) = 4 ^ k * (2 ^ n * 5) := by exact_mod_cast h1
  have h3 : 5 ∣ 2 ^ 52 := ⟨4 ^ k * 2 ^ n, by rw [h2]; ring⟩
  revert h3; decide

theorem good_bound0 : boundSz3 2 2 goodField ⟨0, 0, 0, 0, .zero, true⟩ (1 / 20) = some (1 / 20) := by
  have t3 : Int.toNat 3 = 3 := rfl
  have t2 : Int.toNat 2 = 2 := rfl
  have m0 : inMesh 2 2 0 0 0 = false := by decide
  have m1 : inMesh 2 2 0 0 1 = false := by decide
  have m2 : inMesh 2 2 0 0 2 = false := by decide
  have m3 : inMesh 2 2 0 0 3 = true := by decide
  have m4 : inMesh 2 2 0 0 4 = true := by decide
  have m5 : inMesh 2 2 0 0 5 = false := by decide
  simp only [boundSz3, deriveEb, deriveLoop, m0, m1, m2, m3, m4, m5, Bool.false_eq_true, if_false,
    if_true]
  norm_num [rd, offsets, goodField, t2, t3]
  norm_num [deriveAbs, keepAbs, optMinf, optMaxf, minf, maxf, minfX]

theorem good_bound1 : boundSz3 2 2 goodField ⟨2, 1, 0, 2, .left, false⟩ (1 / 10) = some (1 / 10) := by
  have t3 : Int.toNat 3 = 3 := rfl
  have t2 : Int.toNat 2 = 2 := rfl
  have m0 : inMesh 2 2 1 0 0 = false := by decide
  have m1 : inMesh 2 2 1 0 1 = false := by decide
  have m2 : inMesh 2 2 1 0 2 = false := by decide
  have m3 : inMesh 2 2 1 0 3 = false := by decide
  have m4 : inMesh 2 2 1 0 4 = false := by decide
  have m5 : inMesh 2 2 1 0 5 = true := by decide
  simp only [boundSz3, deriveEb, deriveLoop, m0, m1, m2, m3, m4, m5, Bool.false_eq_true, if_false,
    if_true]
  norm_num [rd, offsets, goodField, t2, t3]
  norm_num [deriveAbs, keepAbs, optMinf, optMaxf, minf, maxf, minfX]

theorem good_bound2 : boundSz3 2 2 goodField ⟨1, 0, 1, 1, .left, false⟩ (1 / 10) = some (1 / 10) := by
  have t3 : Int.toNat 3 = 3 := rfl
  have t2 : Int.toNat 2 = 2 := rfl
  have m0 : inMesh 2 2 0 1 0 = false := by decide
  have m1 : inMesh 2 2 0 1 1 = false := by decide
  have m2 : inMesh 2 2 0 1 2 = true := by decide
  have m3 : inMesh 2 2 0 1 3 = false := by decide
  have m4 : inMesh 2 2 0 1 4 = false := by decide
  have m5 : inMesh 2 2 0 1 5 = false := by decide
  simp only [boundSz3, deriveEb, deriveLoop, m0, m1, m2, m3, m4, m5, Bool.false_eq_true, if_false,
    if_true]
  norm_num [rd, offsets, goodField, t2, t3]
  norm_num [deriveAbs, keepAbs, optMinf, optMaxf, minf, maxf, minfX]

theorem good_bound3 : boundSz3 2 2 goodField ⟨3, 1, 1, 1, .left, false⟩ (1 / 10) = some (1 / 10) := by
  have t3 : Int.toNat 3 = 3 := rfl
  have t2 : Int.toNat 2 = 2 := rfl
  have m0 : inMesh 2 2 1 1 0 = true := by decide
  have m1 : inMesh 2 2 1 1 1 = true := by decide
  have m2 : inMesh 2 2 1 1 2 = false := by decide
  have m3 : inMesh 2 2 1 1 3 = false := by decide
  have m4 : inMesh 2 2 1 1 4 = false := by decide
  have m5 : inMesh 2 2 1 1 5 = false := by decide
  simp only [boundSz3, deriveEb, deriveLoop, m0, m1, m2, m3, m4, m5, Bool.false_eq_true, if_false,
    if_true]
  norm_num [rd, offsets, goodField, t2, t3]
  norm_num [deriveAbs, keepAbs, optMinf, optMaxf, minf, maxf, minfX]

/-- A difference that is an even multiple of the bound is reproduced exactly. -/
theorem quantT_even (j : ℕ) {cur pred eb : ℝ} (he : 0 < eb)
    (h : |cur - pred| = 2 * j * eb) : (quantT realS.t 32768 cur pred eb).2.1 = cur := by
  have ht : truncR (|cur - pred| / eb) = 2 * j := by
    rw [h, truncR_nonneg (by positivity), mul_div_assoc, div_self he.ne', mul_one]
    exact_mod_cast Int.floor_natCast (2 * j)
  unfold quantT
  rw [isZero_real]
  split
  · rfl
  · simp only [realS, realD, ht]
    split_ifs with a b c d
    all_goals first | rfl | skip
    · have hlt : cur - pred < 0 := by simpa using b
      rw [abs_of_neg hlt] at h
      have e : ((2 : ℤ) * (j : ℤ) + 1) / 2 = j := by omega
      push_cast [e]
      linarith
    · have hlt : 0 ≤ cur - pred := by simpa using b
      rw [abs_of_nonneg hlt] at h
      have e : ((2 : ℤ) * (j : ℤ) + 1) / 2 = j := by omega
      push_cast [e]
      linarith

theorem good_step {e : Ev} {req pu pv : ℝ} {k : ℤ} {f' : Fld ℝ} {c : Code ℝ}
    (hb : boundSz3 2 2 goodField e (if e.half then 1 / 10 * (1 / 2) else 1 / 10) = some req)
    (h0 : (2 : ℝ) ^ (-52 : ℤ) < req) (h1 : (4 : ℝ) ^ k ≤ req) (h2 : req < (4 : ℝ) ^ (k + 1))
    (hu : predict realS.t (2 * 2) goodField.u e.toD = some pu)
    (hv : predict realS.t (2 * 2) goodField.v e.toD = some pv)
    (ju jv : ℕ)
    (eu : |goodField.u e.pos - pu| = 2 * ju * (4 : ℝ) ^ k)
    (ev : |goodField.v e.pos - pv| = 2 * jv * (4 : ℝ) ^ k)
    (h : encEv realS (parSz3 (1 / 10)) (2 * 2) (boundSz3 2 2) goodField e = some (f', c)) :
    f' = goodField := by
  have hrad : (parSz3 (1 / 10)).radius = 32768 := by simp [Par.radius, parSz3]
  have hb' : boundSz3 2 2 goodField e (if e.half = true then (parSz3 (1 / 10)).ebHalf
      else (parSz3 (1 / 10)).ebFull) = some req := hb
  have he : ebQuant realS.d (parSz3 (1 / 10)).base (parSz3 (1 / 10)).logBase
      (parSz3 (1 / 10)).thr req = ((4 : ℝ) ^ k, k + 26) := eb_value h0 h1 h2
  unfold encEv at h
  simp only [hb', he, hu, hv, hrad, Option.some.injEq, Prod.mk.injEq] at h
  have q1 := quantT_even ju (eb := (4 : ℝ) ^ k) (by positivity) eu
  have q2 := quantT_even jv (eb := (4 : ℝ) ^ k) (by positivity) ev
  rw [← h.1]
  simp only [realS, id] at q1 q2 ⊢
  rw [q1, q2]
  exact set_self _ _

theorem trace_fixed {es : List Ev} {f : Fld ℝ} {P : Par ℝ} {n : Nat}
    {bound : Fld ℝ → Ev → ℝ → Option ℝ}
    (h : ∀ e ∈ es, ∀ f' c, encEv realS P n bound f e = some (f', c) → f' = f) :
    ∀ x ∈ trace realS P n bound es f, x.1 = f ∧ x.2 ∈ es := by
  induction es with
  | nil => simp [trace]
  | cons e es ih =>
    intro x hx
    rw [trace] at hx
    rcases List.mem_cons.1 hx with rfl | hx
    · exact ⟨rfl, by simp⟩
    · split at hx
      · simp at hx
      · rename_i f' c hs
        rw [h e (by simp) _ _ hs] at hx
        obtain ⟨a, b⟩ := ih (fun e' he' => h e' (by simp [he'])) x hx
        exact ⟨a, by simp [b]⟩

/-- A field without critical points on which every bound is the user's bound `1/10` (or half
of it), so that `C25_critical_points_partial` applies. -/
example : ∀ x ∈ trace realS (parSz3 (1 / 10)) (2 * 2) (boundSz3 2 2) (planEnc 2 2) goodField,
    ∀ req, boundSz3 2 2 x.1 x.2 (if x.2.half then 1 / 10 * (1 / 2) else 1 / 10) = some req →
    ∀ k : ℕ, req ≠ (4 : ℝ) ^ k * (2 : ℝ) ^ (-52 : ℤ) := by
  rw [plan22]
  have b0 : boundSz3 2 2 goodField ⟨0, 0, 0, 0, .zero, true⟩ (1 / 10 * (1 / 2)) =
      some (1 / 20) := by
    rw [show (1 / 10 * (1 / 2) : ℝ) = 1 / 20 by norm_num]; exact good_bound0
  intro x hx req hreq k
  obtain ⟨h1, h2⟩ := trace_fixed (fun e he f' c hs => by
    simp only [List.mem_cons, List.not_mem_nil, or_false] at he
    rcases he with rfl | rfl | rfl | rfl
    · refine good_step (k := -3) (pu := 0) (pv := 0) b0 (by norm_num) (by norm_num) (by norm_num)
        (by simp [predict, DEv.reads, Ev.toD, Interp.reads, readAll, interp, realS, realD])
        (by simp [predict, DEv.reads, Ev.toD, Interp.reads, readAll, interp, realS, realD])
        128 0 ?_ ?_ hs <;> norm_num [goodField]
    · refine good_step (k := -2) (pu := 4) (pv := 0) good_bound1 (by norm_num) (by norm_num)
        (by norm_num)
        (by simp [predict, DEv.reads, Ev.toD, Interp.reads, readAll, rd, interp, goodField])
        (by simp [predict, DEv.reads, Ev.toD, Interp.reads, readAll, rd, interp, goodField])
        16 16 ?_ ?_ hs <;> norm_num [goodField]
    · refine good_step (k := -2) (pu := 4) (pv := 0) good_bound2 (by norm_num) (by norm_num)
        (by norm_num)
        (by simp [predict, DEv.reads, Ev.toD, Interp.reads, readAll, rd, interp, goodField])
        (by simp [predict, DEv.reads, Ev.toD, Interp.reads, readAll, rd, interp, goodField])
        16 32 ?_ ?_ hs <;> norm_num [goodField]
    · refine good_step (k := -2) (pu := 6) (pv := 2) good_bound3 (by norm_num) (by norm_num)
        (by norm_num)
        (by simp [predict, DEv.reads, Ev.toD, Interp.reads, readAll, rd, interp, goodField])
        (by simp [predict, DEv.reads, Ev.toD, Interp.reads, readAll, rd, interp, goodField])
        16 16 ?_ ?_ hs <;> norm_num [goodField]) x hx
  obtain ⟨f, e⟩ := x
  simp only at h1 h2 hreq
  subst h1
  have t1 := tenth_ne k 1
  have t2 := tenth_ne k 2
  norm_num at t1 t2
  simp only [List.mem_cons, List.not_mem_nil, or_false] at h2
  rcases h2 with rfl | rfl | rfl | rfl
  · have := hreq.symm.trans b0
    cases this; norm_num; exact t2
  · have := hreq.symm.trans good_bound1
    cases this; norm_num; exact t1
  · have := hreq.symm.trans good_bound2
    cases this; norm_num; exact t1
  · have := hreq.symm.trans good_bound3
    cases this; norm_num; exact t1

end CpSZ.Sz3
