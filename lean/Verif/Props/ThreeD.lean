import Verif.ThreeD.Grid
import Verif.VMode.One
import Verif.Props.Log2D
/-
Properties C27 (3D absolute mode), C28, C29 (3D log mode).
-/

namespace CpSZ.ThreeD
open VMode Mesh3D

/-! ### C27 -/

section abs
variable {T D : Type}

/-- C27.  For any arithmetic, any bound formula, any cell test and any field: the decompressor
returns the compressor's reconstruction (from the bytes, followed by anything, and for any
previous contents of the output arrays). -/
theorem C27_abs3_roundtrip (O : Ops T D) (c : Codec T) (cD : Codec D) (E1 E2 : Env)
    (logBase thr : D) (r1 r2 r3 : Nat) (base radius : Int) (isZero : T → Bool) (nz : D → Bool)
    (maxEb : D) (cp : Nat → Bool) (derive : (Nat → T) → (Nat → T) → (Nat → T) → (Nat → T) → D)
    (data : Arr T) (s' : State T) (str : Streams T)
    (h : compress (absMode3 O logBase thr r2 r3 base radius)
      (planAbs3 O isZero nz r1 r2 r3 maxEb cp derive) (r1 * r2 * r3) data = some (s', str))
    (hb : 0 ≤ base ∧ base < 2 ^ 31) (hr : 0 ≤ radius ∧ radius < 2 ^ 31)
    (f1 : Fits E1 (2 * 1024) str.eb) (f2 : Fits E2 (2 * (2 * radius).toNat) str.dq)
    (hun : str.un.length < 2 ^ 64) :
    ∃ bs, compressBytesAbs3 c cD E1 E2 O logBase thr r2 r3 base radius
        (planAbs3 O isZero nz r1 r2 r3 maxEb cp derive) (r1 * r2 * r3) data = some (s'.val, bs) ∧
      ∀ rest m0 lb, ∃ d, decompressBytesAbs3 c cD O lb r2 r3 (r1 * r2 * r3) m0 (bs ++ rest) =
          some d ∧ ∀ c q, c < 3 → q < r1 * r2 * r3 → d c q = s'.val c q := by
  obtain ⟨l1, -, -, -⟩ := compress_lengths _ _ _ _ _ _ h
  obtain ⟨bs, hs, hp⟩ := serializeAbs3_parse c cD E1 E2 base thr radius str _ l1 hun hb hr f1 f2
  refine ⟨bs, by simp only [compressBytesAbs3, h, hs], fun rest m0 lb => ?_⟩
  obtain ⟨i1, i2⟩ := planAbs3_ids (O := O) (isZero := isZero) (nz := nz) (r1 := r1) (r2 := r2)
    (r3 := r3) (maxEb := maxEb) (cp := cp) (derive := derive)
  obtain ⟨d, hd, hA⟩ := lockstep1 _ _ _ (goodAbs3 O logBase thr r2 r3 base radius _ _ i1 i2) data m0
    s' str h
  refine ⟨d.cod, ?_, fun c q hc hq => ?_⟩
  · simp only [decompressBytesAbs3, hp rest]
    have : decompress1 (absMode3 O lb thr r2 r3 base radius) (r1 * r2 * r3) m0 str = some d := hd
    rw [this]; rfl
  · rw [hA c q hc hq]
    exact abs3_cod_val O logBase thr r2 r3 base radius _ _ data s' str h c q hc

/-- C27, second part.  For any arithmetic (in which 0 is false), every vertex of a cell that
the critical point test flags is reconstructed exactly; `check` is the test, the bitmap is
computed by `compute_cp`. -/
theorem C27_flagged_exact (O : Ops T D) (logBase thr : D) (r1 r2 r3 : Nat) (base radius : Int)
    (isZero : T → Bool) (nz : D → Bool) (hnz : nz (O.ofInt 0) = false) (maxEb : D)
    (check : List Nat → Bool) (derive : (Nat → T) → (Nat → T) → (Nat → T) → (Nat → T) → D)
    (data : Arr T) (s' : State T) (str : Streams T)
    (h : compress (absMode3 O logBase thr r2 r3 base radius)
      (planAbs3 O isZero nz r1 r2 r3 maxEb (computeCp check r1 r2 r3) derive) (r1 * r2 * r3) data =
      some (s', str))
    (t : Tet) (ht : t.inGrid r1 r2 r3) (hc : check (t.verts r2 r3) = true) (q : Nat)
    (hq : q ∈ t.verts r2 r3) (c : Nat) : s'.val c q = data c q := by
  have hqn : q < r1 * r2 * r3 := by
    obtain ⟨v, hv, rfl⟩ := List.mem_map.1 hq
    obtain ⟨a, b, c⟩ := corner_lt ht hv
    exact flat3_lt r1 r2 r3 v a b c
  obtain ⟨st, ws, R, rfl, rfl⟩ := compress_run _ _ _ _ _ _ h
  obtain ⟨w, hw⟩ := R.get hqn
  have hs := R.step q w hw
  have hplan := planAbs3_flagged (O := O) (cp := computeCp check r1 r2 r3) (derive := derive)
    (isZero := isZero) (nz := nz) (maxEb := maxEb) hnz (s := st q) hqn ht hq (by rw [computeCp_cell check r1 r2 r3 t ht]; exact hc)
  rcases encVertex_cases _ _ _ _ _ _ hs with ⟨id, -, rfl, -⟩ | ⟨e, qs, rfl, ⟨a, id, rs, hp, -⟩⟩
  · exact ((R.esc_final hw hqn).2 c).2
  · rw [hplan] at hp; cases hp

end abs

/-- The decoded field of the absolute mode in exact arithmetic. -/
theorem decodeAbs3 {r1 r2 r3 : Nat} {maxEb : ℝ} {cp : Nat → Bool} {data : Arr ℝ}
    {s' : State ℝ} {str : Streams ℝ} {m0 d : Arr ℝ}
    (h : compressAbs3 r1 r2 r3 maxEb cp data = some (s', str))
    (hd : (decompress1 (realAbs3 r2 r3) (r1 * r2 * r3) m0 str).map (·.cod) = some d) :
    ∀ c q, c < 3 → q < r1 * r2 * r3 → d c q = s'.val c q := by
  obtain ⟨i1, i2⟩ := planAbs3_ids (O := realOps) (isZero := realL.isZero)
    (nz := fun x => decide (x ≠ 0)) (r1 := r1) (r2 := r2)
    (r3 := r3) (maxEb := maxEb) (cp := cp) (derive := onCols deriveAbs3)
  obtain ⟨d', hd', hA⟩ := lockstep1 _ _ _ (goodAbs3 realOps (Real.logb 2 4) (1 / 2 ^ 52) r2 r3 4
    32768 _ _ i1 i2) data m0 s' str h
  have : (some d').map (·.cod) = some d := by rw [← hd, ← hd']; rfl
  simp only [Option.map_some, Option.some.injEq] at this
  subst this
  intro c q hc hq
  rw [hA c q hc hq]
  exact (absInv3_final h).same c q hc

/-- The absolute mode always yields a stream which decodes. -/
theorem compressAbs3_defined (r1 r2 r3 : Nat) (maxEb : ℝ) (cp : Nat → Bool) (data m0 : Arr ℝ) :
    ∃ s' str d, compressAbs3 r1 r2 r3 maxEb cp data = some (s', str) ∧
      (decompress1 (realAbs3 r2 r3) (r1 * r2 * r3) m0 str).map (·.cod) = some d := by
  have hp : ∀ (s : State ℝ) p, p < r1 * r2 * r3 → (planReal3 r1 r2 r3 maxEb cp s p).isSome := by
    intro s p hp
    have key : ∀ (b : Bool) (req : ℝ), (if b then required3 r1 r2 r3
        (absBody realOps.toDOps cp (onCols deriveAbs3)) s.val p req else some req).isSome := by
      intro b req
      cases b
      · rfl
      · exact required3_defined hp req
    unfold planReal3 planAbs3
    simp only
    generalize (if (realL.isZero (s.val 0 p) || realL.isZero (s.val 1 p) ||
      realL.isZero (s.val 2 p)) = true then realOps.ofInt 0 else maxEb) = req
    obtain ⟨r, hr⟩ := Option.isSome_iff_exists.1 (key (decide (req ≠ 0)) req)
    rw [hr]
    rfl
  obtain ⟨s', str, h⟩ := compress_defined (realAbs3 r2 r3) _ _ data hp
  obtain ⟨i1, i2⟩ := planAbs3_ids (O := realOps) (isZero := realL.isZero)
    (nz := fun x => decide (x ≠ 0)) (r1 := r1) (r2 := r2)
    (r3 := r3) (maxEb := maxEb) (cp := cp) (derive := onCols deriveAbs3)
  obtain ⟨d', hd', -⟩ := lockstep1 _ _ _ (goodAbs3 realOps (Real.logb 2 4) (1 / 2 ^ 52) r2 r3 4
    32768 _ _ i1 i2) data m0 s' str h
  exact ⟨s', str, d'.cod, h, by
    have hd : decompress1 (realAbs3 r2 r3) (r1 * r2 * r3) m0 str = some d' := hd'
    rw [hd]; rfl⟩

/-- C27, third part.  In exact arithmetic every decompressed value is exact or strictly within
the user's bound, and exact at vertices with a zero component. -/
theorem C27_error_bound (r1 r2 r3 : Nat) (maxEb : ℝ) (cp : Nat → Bool) (data : Arr ℝ)
    (s' : State ℝ) (str : Streams ℝ) (m0 d : Arr ℝ)
    (h : compressAbs3 r1 r2 r3 maxEb cp data = some (s', str))
    (hd : (decompress1 (realAbs3 r2 r3) (r1 * r2 * r3) m0 str).map (·.cod) = some d)
    (c q : Nat) (hc : c < 3) (hq : q < r1 * r2 * r3) :
    (d c q = data c q ∨ |d c q - data c q| < maxEb) ∧
    ((data 0 q = 0 ∨ data 1 q = 0 ∨ data 2 q = 0) → d c q = data c q) := by
  rw [decodeAbs3 h hd c q hc hq]
  rcases (absInv3_final h).err c q hc with e | ⟨e, z0, z1, z2⟩
  · exact ⟨Or.inl e, fun _ => e⟩
  · refine ⟨Or.inr e, fun hz => ?_⟩
    rcases hz with hz | hz | hz
    · exact absurd hz z0
    · exact absurd hz z1
    · exact absurd hz z2

theorem cellCP_congr {f g : Arr ℝ} {cell : List Nat}
    (h : ∀ c q, c < 3 → q ∈ cell → f c q = g c q) : cellCP f cell ↔ cellCP g cell := by
  have : cell.map (vec f) = cell.map (vec g) :=
    List.map_congr_left fun q hq => by
      simp only [vec, h 0 q (by omega) hq, h 1 q (by omega) hq, h 2 q (by omega) hq]
  unfold cellCP
  rw [this]

theorem verts_lt {r1 r2 r3 : Nat} {t : Tet} (ht : t.inGrid r1 r2 r3) {q : Nat}
    (hq : q ∈ t.verts r2 r3) : q < r1 * r2 * r3 := by
  obtain ⟨v, hv, rfl⟩ := List.mem_map.1 hq
  obtain ⟨a, b, c⟩ := corner_lt ht hv
  exact flat3_lt r1 r2 r3 v a b c

/-- C27, fourth part.  In exact arithmetic, whatever the bitmap says, the decompressed field
has a critical point in exactly the same cells as the input. -/
theorem C27_cells_preserved (r1 r2 r3 : Nat) (maxEb : ℝ) (cp : Nat → Bool) (data : Arr ℝ)
    (s' : State ℝ) (str : Streams ℝ) (m0 d : Arr ℝ)
    (h : compressAbs3 r1 r2 r3 maxEb cp data = some (s', str))
    (hd : (decompress1 (realAbs3 r2 r3) (r1 * r2 * r3) m0 str).map (·.cod) = some d)
    (t : Tet) (ht : t.inGrid r1 r2 r3) :
    cellCP d (t.verts r2 r3) ↔ cellCP data (t.verts r2 r3) := by
  rw [cellCP_congr (fun c q hc hq => decodeAbs3 h hd c q hc (verts_lt ht hq))]
  exact ((absInv3_final h).cell _ ⟨t, ht, rfl⟩).symm

/-- C27, fifth part.  In exact arithmetic, whatever the bitmap says, the vertices of every cell
with a critical point are exact, also if the interpolant is singular there. -/
theorem C27_critical_cells_exact (r1 r2 r3 : Nat) (maxEb : ℝ) (cp : Nat → Bool) (data : Arr ℝ)
    (s' : State ℝ) (str : Streams ℝ) (m0 d : Arr ℝ)
    (h : compressAbs3 r1 r2 r3 maxEb cp data = some (s', str))
    (hd : (decompress1 (realAbs3 r2 r3) (r1 * r2 * r3) m0 str).map (·.cod) = some d)
    (t : Tet) (ht : t.inGrid r1 r2 r3) (hc : cellCP data (t.verts r2 r3)) :
    ∀ q ∈ t.verts r2 r3, ∀ c, c < 3 → d c q = data c q := by
  intro q hq c hc3
  rw [decodeAbs3 h hd c q hc3 (verts_lt ht hq)]
  exact (absInv3_final h).crit _ ⟨t, ht, rfl⟩ hc q hq c

/-! ### C28 -/

section log
variable {T D : Type}

/-- C28, partial: for any arithmetic and any bound computation, the decompressor returns the
compressor's reconstruction provided that (1) no quantised bound has the code
`eb_quant_index_max`, which the decompressor takes for an escape, and (2) no reconstructed
logarithm of a quantised vertex is below -99, which the decompressor takes for a zero.  Both
provisos are needed: `C28_zero_mismatch`, `C28_escape_collision`. -/
theorem C28_log3_roundtrip_partial (L : LOps T D) (HL : LogLaws L) (c : Codec T) (E1 E2 : Env)
    (logBase thr tiny : D) (r1 r2 r3 : Nat) (base radius : Int)
    (bound : Arr T → Nat → Option D) (data : Arr T) (s' : State T) (str : Streams T)
    (h : compress (logMode3 L logBase thr (lorenzo3 L.toOps r2 r3) base radius)
      (planLog3 L tiny (escMax L.toDOps logBase thr) bound) (r1 * r2 * r3) data = some (s', str))
    (hn : 0 < r1 * r2 * r3) (hb : 0 ≤ base ∧ base < 2 ^ 31) (hr : 0 ≤ radius ∧ radius < 2 ^ 31)
    (f1 : Fits E1 (2 * 256) str.eb) (f2 : Fits E2 (2 * (2 * radius).toNat) str.dq)
    (hun : str.un.length < 2 ^ 64)
    (hcol : ∀ s p a, p < r1 * r2 * r3 →
      planLog3 L tiny (escMax L.toDOps logBase thr) bound s p =
        some (.try a (escMax L.toDOps logBase thr)) →
      (ebQuant L.toDOps base logBase thr a).2 ≠ escMax L.toDOps logBase thr)
    (hsmall : ∀ c q e, c < 3 → q < r1 * r2 * r3 → str.eb[q]? = some e → e ≠ 0 →
      e ≠ escMax L.toDOps logBase thr → L.ltM99 (s'.cod c q) = false) :
    ∃ bs, compressBytes L c E1 E2 (2 * 256) true
        (logMode3 L logBase thr (lorenzo3 L.toOps r2 r3)) base radius
        (planLog3 L tiny (escMax L.toDOps logBase thr) bound) (r1 * r2 * r3) data =
        some (s'.val, bs) ∧
      ∀ rest m0, ∃ d, decompressBytes L c (2 * 256) true 3
          (logMode3 L logBase thr (lorenzo3 L.toOps r2 r3)) (r1 * r2 * r3) m0 (bs ++ rest) =
          some d ∧ ∀ c q, c < 3 → q < r1 * r2 * r3 → d c q = s'.val c q :=
  log_roundtrip L HL c E1 E2 _ true (logMode3 L logBase thr (lorenzo3 L.toOps r2 r3)) base radius _
    _ _ (goodLog3 L HL logBase thr tiny _ base radius _ bound (lorenzo3_congr L.toOps r2 r3)
      (Or.inr rfl) _ hcol) rfl (fun h => by cases h) hn hb hr s' str h f1 f2 hun
    (fun c q e hc hq he hne => by
      simp only [logMode3, Bool.or_eq_false_iff, beq_eq_false_iff_ne, ne_eq] at hne
      exact hsmall c q e hc hq he hne.1 hne.2)

end log

/-- C28, partial, in exact arithmetic: if the bound is at most 1 or the grid has at least two
points in each direction, and all values are at least `2^-98` in magnitude, the decompressor
returns the compressor's reconstruction. -/
theorem C28_exact_arithmetic_partial (r1 r2 r3 : Nat) (maxEb : ℝ) (h0 : 0 ≤ maxEb)
    (hs : maxEb ≤ 1 ∨ (2 ≤ r1 ∧ 2 ≤ r2 ∧ 2 ≤ r3)) (data : Arr ℝ)
    (hm : ∀ c q, c < 3 → q < r1 * r2 * r3 → (2 : ℝ) ^ (-98 : ℤ) ≤ |data c q|)
    (s' : State ℝ) (str : Streams ℝ) (m0 : Arr ℝ)
    (h : compressLog3 r1 r2 r3 maxEb data = some (s', str)) :
    ∃ d, decompressLog3 r1 r2 r3 (signMaps realL 3 (r1 * r2 * r3) data) m0 str = some d ∧
      ∀ c q, c < 3 → q < r1 * r2 * r3 → d c q = s'.val c q := by
  have hpos : (0 : ℝ) < 2 ^ (-98 : ℤ) := by positivity
  have hnz : ∀ c q, c < 3 → q < r1 * r2 * r3 → data c q ≠ 0 := fun c q hc hq hz => by
    have := hm c q hc hq
    rw [hz, abs_zero] at this; linarith
  have hI := logInv3_final (goodBound3 r1 r2 r3 maxEb hs)
    (fun t ⟨t', ht', e⟩ q hq => verts_lt ht' (e ▸ hq)) hnz h
  refine lockstep _ _ _ (goodReal3 r1 r2 r3 maxEb hs) _ _ m0 s' str h ?_
  intro c q e hc hq he hne
  exact logFin_eq realL_laws _ _ _ _ _ (mapAt_signMaps realL _ _ _ _ _ hc hq)
    (cod_large3 (le_min h0 zero_le_one) (min_le_right _ _) hI c q hc (hm c q hc hq))

theorem bound_one (maxEb : ℝ) (f : Arr ℝ) : boundReal3 1 1 1 maxEb f 0 = some maxEb := by
  have hin : ∀ n, n < 24 → inMesh 1 1 1 0 0 0 n = false := by decide +kernel
  have hl : ∀ ns : List Nat, (∀ n ∈ ns, n < 24) →
      loop3 1 1 1 (minBody realD (onCols derive3)) f 0 0 0 ns maxEb = some maxEb := by
    intro ns
    induction ns with
    | nil => intro _; rfl
    | cons n ns ih =>
      intro hns
      rw [loop3, if_neg (by rw [hin n (hns n (List.mem_cons_self ..))]; decide)]
      exact ih (fun m hm => hns m (List.mem_cons_of_mem _ hm))
  exact hl _ (fun n hn => List.mem_range.1 hn)

theorem plan_one (maxEb : ℝ) (h : 1 ≤ maxEb) (s : State ℝ) :
    planLog3 realL (1 / 10 ^ 6) 24 (boundReal3 1 1 1 maxEb) s 0 =
      some (.try (Real.logb 2 (1 + maxEb)) 24) := by
  unfold planLog3
  rw [bound_one]
  have h1 : realL.lt maxEb (1 / 10 ^ 6) = false := by
    simp only [realL, realOps, realD, decide_eq_false_iff_not, not_lt]
    norm_num; linarith
  have h2 : realL.lt (realL.ofInt 0) maxEb = true := by
    simp only [realL, realOps, realD, decide_eq_true_eq]
    push_cast; linarith
  simp only [h1, Bool.false_eq_true, if_false, h2, if_true]
  simp only [realL, realOps, realD]
  push_cast
  rfl

theorem ebq_pow (k : Nat) : ebQuant realD 2 (Real.logb 2 2) (1 / 2 ^ 23) (2 ^ k) =
    ((2 : ℝ) ^ k, (23 + k : ℤ)) := by
  have h1 : Real.logb 2 (2 ^ (23 + k)) = 23 + k := by rw [Real.logb_pow]; simp
  have h2 : truncR (23 + k) = 23 + k := by
    rw [truncR_nonneg (by positivity)]
    have : ((23 : ℝ) + k) = ((23 + k : ℕ) : ℝ) := by push_cast; rfl
    rw [this, Int.floor_natCast]; push_cast; rfl
  have h3 : (2 : ℝ) ^ k / (1 / 2 ^ 23) = 2 ^ (23 + k) := by
    rw [pow_add]; field_simp
  have h4 : Real.logb 2 2 = 1 := Real.logb_self_eq_one (by norm_num)
  unfold ebQuant
  simp only [realD]
  have h5 : ¬ ((2 : ℝ) ^ k ≤ 1 / 2 ^ 23) := by
    have : (1 : ℝ) ≤ 2 ^ k := one_le_pow₀ (by norm_num)
    norm_num; linarith
  rw [h3, h1, h4, div_one, h2]
  simp only [h5, decide_false, Bool.false_eq_true, if_false, Prod.mk.injEq, and_true]
  have : (23 + (k : ℤ)) = ((23 + k : ℕ) : ℤ) := by push_cast; rfl
  rw [this, zpow_natCast, pow_add]
  push_cast
  field_simp

theorem isEsc_real (pred : (Nat → ℝ) → Nat → ℝ) (e : Int) (h0 : e ≠ 0) (h1 : e ≠ 24) :
    (realLog3 pred).isEsc e = false := by
  have : (realLog3 pred).isEsc e =
      (e == 0 || e == escMax realL.toDOps (Real.logb 2 2) (1 / 2 ^ 23)) := rfl
  rw [this, escMax_real]
  simp [h0, h1]

theorem isEsc_24 (pred : (Nat → ℝ) → Nat → ℝ) : (realLog3 pred).isEsc 24 = true := by
  have : (realLog3 pred).isEsc 24 =
      ((24 : Int) == 0 || (24 : Int) == escMax realL.toDOps (Real.logb 2 2) (1 / 2 ^ 23)) := rfl
  rw [this, escMax_real]
  rfl

/-- C28 fails for zeros.  A single vertex at which all components are zero is quantised; the
compressor's reconstruction is `-2^-100`, with which it goes on computing bounds; the
decompressed value is 0.  (The 2D log mode excludes zeros, the 3D mode does not.) -/
theorem C28_zero_mismatch :
    ∃ s' str d, compressLog3 1 1 1 1 (fun _ _ => 0) = some (s', str) ∧
      decompressLog3 1 1 1 (signMaps realL 3 1 (fun _ _ => 0)) (fun _ _ => 0) str = some d ∧
      s'.val 0 0 = -(2 : ℝ) ^ (-100 : ℝ) ∧ d 0 0 = 0 := by
  set M := realLog3 (lorenzo3 realOps 1 1) with hM
  have hplan : planLog3 realL (1 / 10 ^ 6) 24 (boundReal3 1 1 1 1) (initState M fun _ _ => 0) 0 =
      some (.try 1 24) := by
    rw [plan_one 1 (le_refl _)]
    have : Real.logb 2 (1 + 1) = 1 := by
      rw [one_add_one_eq_two]; exact Real.logb_self_eq_one (by norm_num)
    rw [this]
  have hq : ebQuant M.O.toDOps M.base M.logBase M.thr 1 = (1, 23) := by
    have := ebq_pow 0
    rw [pow_zero] at this
    exact this
  have hlin : linQuant realD (-100) 1 65536 32768 = some 32718 := by
    have h2 : truncR (-(101 / 2)) = -50 := by
      rw [truncR_neg, truncR_nonneg (by norm_num)]; norm_num
    unfold linQuant
    simp only [realD]
    norm_num
    rw [h2]
    norm_num
  have hcod : ∀ c q, (initState M (fun _ _ => 0)).cod c q = -100 := by
    intro c q
    simp [initState, hM, realLog3, logMode3, logFwd, realL]
  have hcomp : ∀ c, encComp M ((initState M (fun _ _ => 0)).cod c) 0 1 = some (32718, -100) := by
    intro c
    have h0 : M.pred ((initState M (fun _ _ => 0)).cod c) 0 = 0 := by
      simp [hM, realLog3, logMode3, lorenzo3, realOps]
    unfold encComp
    rw [h0, hcod]
    have e1 : M.O.toD (M.O.subT (-100) 0) = (-100 : ℝ) := by
      simp [hM, realLog3, logMode3, realL, realOps]
    have e2 : linQuant M.O.toDOps (-100) 1 M.capacity M.radius = some 32718 := hlin
    simp only [e1, e2]
    simp only [hM, realLog3, logMode3, realL, realOps, realD, linOffset]
    norm_num
  have hr : encComps M (initState M (fun _ _ => 0)).cod 0 1 (List.range M.K) =
      some [(32718, -100), (32718, -100), (32718, -100)] := by
    have : List.range M.K = [0, 1, 2] := rfl
    rw [this]
    simp only [encComps, hcomp]
  have hc := compress_one hplan hq (by norm_num) hr
  have hd := decompress_one (M := M) (fin := logFin realL (mapAt (signMaps realL 3 1 fun _ _ => 0)))
    (m0 := fun _ _ => 0) (e := 23) (qs := [32718, 32718, 32718]) (xs := [-100, -100, -100])
    (isEsc_real _ 23 (by norm_num) (by norm_num)) rfl (by
      have hrange : List.range M.K = [0, 1, 2] := rfl
      rw [hrange]
      simp only [List.map_cons, List.map_nil, List.getD_cons_zero, List.getD_cons_succ,
        hM, realLog3, logMode3, realL, realOps, realD, linOffset, lorenzo3]
      norm_num)
  refine ⟨_, _, _, hc, hd, ?_, ?_⟩
  · have : ∀ xs : List ℝ, setCol (fun _ _ => (0 : ℝ)) 0 xs 0 0 = xs.getD 0 0 := fun xs => rfl
    simp only [this]
    simp [hM, realLog3, logMode3, col, logBack, realL]
  · have hrange : List.range M.K = [0, 1, 2] := rfl
    simp only [hrange, setCol, if_true, List.map_cons, List.getD_cons_zero, logFin]
    have : realL.ltM99 (-100) = true := by simp only [realL, decide_eq_true_eq]; norm_num
    rw [this]
    rfl

/-- C28 fails when a quantised bound gets the code 24 that announces a lossless vertex: on a
grid without cells a bound of 3 does; the decompressor then reads lossless values that are not
there. -/
theorem C28_escape_collision :
    ∃ s' str, compressLog3 1 1 1 3 (fun _ _ => 1) = some (s', str) ∧ str.un = [] ∧
      ∀ m0, decompressLog3 1 1 1 (signMaps realL 3 1 (fun _ _ => 1)) m0 str = none := by
  set M := realLog3 (lorenzo3 realOps 1 1) with hM
  have hplan : planLog3 realL (1 / 10 ^ 6) 24 (boundReal3 1 1 1 3) (initState M fun _ _ => 1) 0 =
      some (.try 2 24) := by
    rw [plan_one 3 (by norm_num)]
    have : Real.logb 2 (1 + 3) = 2 := by
      rw [show (1 + 3 : ℝ) = 2 ^ 2 by norm_num, Real.logb_pow]; simp
    rw [this]
  have hq : ebQuant M.O.toDOps M.base M.logBase M.thr 2 = (2, 24) := by
    have := ebq_pow 1
    rw [pow_one] at this
    exact this
  have hlin : linQuant realD 0 2 65536 32768 = some 32768 := by
    have h2 : truncR (-(1 / 2)) = 0 := by
      rw [truncR_neg, truncR_nonneg (by norm_num)]; norm_num
    unfold linQuant
    simp only [realD]
    norm_num
    norm_num at h2
    exact h2
  have hcod : ∀ c q, (initState M (fun _ _ => 1)).cod c q = 0 := by
    intro c q
    simp [initState, hM, realLog3, logMode3, logFwd, realL]
  have hcomp : ∀ c, encComp M ((initState M (fun _ _ => 1)).cod c) 0 2 = some (32768, 0) := by
    intro c
    have h0 : M.pred ((initState M (fun _ _ => 1)).cod c) 0 = 0 := by
      simp [hM, realLog3, logMode3, lorenzo3, realOps]
    unfold encComp
    rw [h0, hcod]
    have e1 : M.O.toD (M.O.subT 0 0) = (0 : ℝ) := by
      simp [hM, realLog3, logMode3, realL, realOps]
    have e2 : linQuant M.O.toDOps 0 2 M.capacity M.radius = some 32768 := hlin
    simp only [e1, e2]
    simp only [hM, realLog3, logMode3, realL, realOps, realD, linOffset]
    norm_num
  have hr : encComps M (initState M (fun _ _ => 1)).cod 0 2 (List.range M.K) =
      some [(32768, 0), (32768, 0), (32768, 0)] := by
    have : List.range M.K = [0, 1, 2] := rfl
    rw [this]
    simp only [encComps, hcomp]
  have hc := compress_one hplan hq (by norm_num) hr
  exact ⟨_, _, hc, rfl, fun m0 => decompress_one_esc
    (isEsc_24 _) (by simp [realLog3, logMode3])⟩

/-! ### C29 -/

/-- C29.  Changing one vertex of a tetrahedron by relative errors below the derived bound
neither creates nor destroys a critical point. -/
theorem C29_vertex_change (a b c d : V3) (x y z e : ℝ) (hx : |x| < e) (hy : |y| < e)
    (hz : |z| < e) (hle : e ≤ derive3 a b c d) :
    HasCP [a, b, c, d] ↔ HasCP [a, b, c, ⟨d.u * (1 + x), d.v * (1 + y), d.w * (1 + z)⟩] :=
  derive3_step (lt_of_le_of_lt (abs_nonneg x) hx) hle hx hy hz

/-- C29, second part, partial.  A complete compression pass followed by decompression preserves, cell
by cell, whether there is a critical point; the vertices of cells with a critical point are
reproduced exactly; every value keeps its sign and is exact or within its relative bound.
Missing: fields with zeros or values below `2^-98` (there the compressor continues with other
values than the decompressor reconstructs, C28_zero_mismatch). -/
theorem C29_critical_cells_partial (r1 r2 r3 : Nat) (maxEb : ℝ) (h0 : 0 ≤ maxEb)
    (hs : maxEb ≤ 1 ∨ (2 ≤ r1 ∧ 2 ≤ r2 ∧ 2 ≤ r3)) (data : Arr ℝ)
    (hm : ∀ c q, c < 3 → q < r1 * r2 * r3 → (2 : ℝ) ^ (-98 : ℤ) ≤ |data c q|)
    (s' : State ℝ) (str : Streams ℝ) (m0 d : Arr ℝ)
    (h : compressLog3 r1 r2 r3 maxEb data = some (s', str))
    (hd : decompressLog3 r1 r2 r3 (signMaps realL 3 (r1 * r2 * r3) data) m0 str = some d) :
    (∀ t : Tet, t.inGrid r1 r2 r3 →
      (cellCP d (t.verts r2 r3) ↔ cellCP data (t.verts r2 r3)) ∧
      (cellCP data (t.verts r2 r3) → ∀ q ∈ t.verts r2 r3, ∀ c, c < 3 → d c q = data c q)) ∧
    (∀ c q, c < 3 → q < r1 * r2 * r3 → SignType.sign (d c q) = SignType.sign (data c q) ∧
      (d c q = data c q ∨ |d c q - data c q| < |data c q| * maxEb)) := by
  have hpos : (0 : ℝ) < 2 ^ (-98 : ℤ) := by positivity
  have hnz : ∀ c q, c < 3 → q < r1 * r2 * r3 → data c q ≠ 0 := fun c q hc hq hz => by
    have := hm c q hc hq
    rw [hz, abs_zero] at this; linarith
  have hI := logInv3_final (goodBound3 r1 r2 r3 maxEb hs)
    (fun t ⟨t', ht', e⟩ q hq => verts_lt ht' (e ▸ hq)) hnz h
  obtain ⟨d', hd', hA⟩ := C28_exact_arithmetic_partial r1 r2 r3 maxEb h0 hs data hm s' str m0 h
  obtain rfl : d' = d := Option.some.inj (hd'.symm.trans hd)
  refine ⟨fun t ht => ⟨?_, fun hcp q hq c hc => ?_⟩, fun c q hc hq => ?_⟩
  · rw [cellCP_congr (fun c q hc hq => hA c q hc (verts_lt ht hq))]
    exact (hI.cell _ ⟨t, ht, rfl⟩).symm
  · rw [hA c q hc (verts_lt ht hq)]
    exact hI.crit _ ⟨t, ht, rfl⟩ hcp q hq c hc
  · rw [hA c q hc hq]
    rcases hI.err c q hc with e | ⟨e1, e2⟩
    · exact ⟨by rw [e], Or.inl e⟩
    · refine ⟨(Online2D.sign_eq_of_mul_pos e2).symm, Or.inr (lt_of_lt_of_le e1 ?_)⟩
      exact mul_le_mul_of_nonneg_left (min_le_left _ _) (abs_nonneg _)

/-! ### Examples -/

/-- The hypotheses of C27 (any arithmetic) hold on a 2 by 2 by 2 grid: three vertices are
quantised, one cell is flagged. -/
def toyField3 : Arr (BitVec 64) := fun c q =>
  if c = 0 then [100#64, 103#64, 7#64, 107#64, 1#64, 2#64, 3#64, 4#64].getD q 0#64
  else if c = 1 then [-50#64, 53#64, 7#64, 812#64, 5#64, 0#64, 2#64, 9#64].getD q 0#64
  else [1#64, 2#64, 3#64, 4#64, 5#64, 6#64, 7#64, 8#64].getD q 0#64

def toyCheck : List Nat → Bool := fun l => l.contains 4 && l.contains 6

example : ∃ s' str, compress (absMode3 toyOps 1#64 1#64 2 2 2 512)
      (planAbs3 toyOps (fun x => x == 0#64) (fun x => x != 0#64) 2 2 2 64#64
        (computeCp toyCheck 2 2 2) (fun _ _ _ _ => 40#64)) (2 * 2 * 2) toyField3 = some (s', str) ∧
    str.eb = [0, 5, 5, 5, 0, 0, 0, 0] ∧
    ∃ bs, compressBytesAbs3 toyCodec toyCodec ⟨fun _ => true, 0#64, 0, fun _ => 0#8⟩
        ⟨fun _ => true, 0#64, 0, fun _ => 0#8⟩ toyOps 1#64 1#64 2 2 2 512
        (planAbs3 toyOps (fun x => x == 0#64) (fun x => x != 0#64) 2 2 2 64#64
        (computeCp toyCheck 2 2 2) (fun _ _ _ _ => 40#64)) (2 * 2 * 2) toyField3 =
          some (s'.val, bs) ∧
      ∀ rest m0 lb, ∃ d, decompressBytesAbs3 toyCodec toyCodec toyOps lb 2 2 (2 * 2 * 2) m0
          (bs ++ rest) = some d ∧ ∀ c q, c < 3 → q < 2 * 2 * 2 → d c q = s'.val c q := by
  have hv : (compress (absMode3 toyOps 1#64 1#64 2 2 2 512)
      (planAbs3 toyOps (fun x => x == 0#64) (fun x => x != 0#64) 2 2 2 64#64
        (computeCp toyCheck 2 2 2) (fun _ _ _ _ => 40#64)) (2 * 2 * 2) toyField3).map
      (fun r => (r.2.eb, r.2.dq, r.2.un)) = some ([0, 5, 5, 5, 0, 0, 0, 0],
      [512, 514, 512, 511, 513, 512, 513, 522, 512],
      [100#64, -50#64, 1#64, 1#64, 5#64, 5#64, 2#64, 0#64, 6#64, 3#64, 2#64, 7#64, 4#64, 9#64, 8#64]) := by
    decide +kernel
  generalize hc : compress (absMode3 toyOps 1#64 1#64 2 2 2 512)
      (planAbs3 toyOps (fun x => x == 0#64) (fun x => x != 0#64) 2 2 2 64#64
        (computeCp toyCheck 2 2 2) (fun _ _ _ _ => 40#64)) (2 * 2 * 2) toyField3 = r at hv
  cases r with
  | none => cases hv
  | some r =>
    obtain ⟨s', str⟩ := r
    simp only [Option.map_some, Option.some.injEq, Prod.mk.injEq] at hv
    obtain ⟨h1, h2, h3⟩ := hv
    refine ⟨s', str, rfl, h1, C27_abs3_roundtrip toyOps toyCodec toyCodec _ _ 1#64 1#64 2 2 2 2 512
      _ _ _ _ _ toyField3 s' str hc (by decide) (by decide) ?_ ?_ ?_⟩
    · rw [h1]
      exact fits_of_short _ _ _ (by decide) (by decide) (by decide) (by decide)
    · rw [h2]
      exact fits_of_short _ _ _ (by decide) (by decide) (by decide) (by decide)
    · rw [h3]; decide

/-- The hypotheses of the second part of C27 hold for the cell with corners 0, 4, 6, 7. -/
example : (⟨0, 0, 0, 0⟩ : Tet).inGrid 2 2 2 ∧ toyCheck ((⟨0, 0, 0, 0⟩ : Tet).verts 2 2) = true ∧
    4 ∈ (⟨0, 0, 0, 0⟩ : Tet).verts 2 2 := by
  refine ⟨⟨by decide, by decide, by decide, by decide⟩, by decide +kernel, ?_⟩
  simp [Tet.verts, Tet.corners, pathCorners, pathEdges, Pos.add, flat3]

def toyFieldL : Arr (BitVec 64) := fun c q =>
  if c = 0 then [100#64, 104#64, 98#64, 109#64, -2#64, 2#64, -4#64, 4#64].getD q 0#64
  else if c = 1 then [-50#64, 54#64, 8#64, 812#64, 6#64, 0#64, 2#64, 10#64].getD q 0#64
  else [2#64, 4#64, 6#64, 8#64, 10#64, 12#64, 14#64, 16#64].getD q 0#64

def toyBound3 (f : Arr (BitVec 64)) (p : Nat) : Option (BitVec 64) :=
  some (if f 1 p == 0#64 then 0#64 else 31#64)

/-- The hypotheses of C28 (any arithmetic) hold on a 2 by 2 by 2 grid; of the vertices without a
zero some are quantised (code 2) and some escape (code 1). -/
example : ∃ s' str, compress (logMode3 toyL 1#64 1#64 (lorenzo3 toyL.toOps 2 2) 2 512)
      (planLog3 toyL 1#64 (escMax toyL.toDOps 1#64 1#64) toyBound3) (2 * 2 * 2) toyFieldL =
      some (s', str) ∧
    str.eb = [2, 2, 2, 1, 2, 0, 2, 1] ∧
    ∃ bs, compressBytes toyL toyCodec ⟨fun _ => true, 0#64, 0, fun _ => 0#8⟩
        ⟨fun _ => true, 0#64, 0, fun _ => 0#8⟩ (2 * 256) true
        (logMode3 toyL 1#64 1#64 (lorenzo3 toyL.toOps 2 2)) 2 512
        (planLog3 toyL 1#64 (escMax toyL.toDOps 1#64 1#64) toyBound3) (2 * 2 * 2) toyFieldL =
        some (s'.val, bs) ∧
      ∀ rest m0, ∃ d, decompressBytes toyL toyCodec (2 * 256) true 3
          (logMode3 toyL 1#64 1#64 (lorenzo3 toyL.toOps 2 2)) (2 * 2 * 2) m0 (bs ++ rest) =
          some d ∧ ∀ c q, c < 3 → q < 2 * 2 * 2 → d c q = s'.val c q := by
  have hv : (compress (logMode3 toyL 1#64 1#64 (lorenzo3 toyL.toOps 2 2) 2 512)
      (planLog3 toyL 1#64 (escMax toyL.toDOps 1#64 1#64) toyBound3)
      (2 * 2 * 2) toyFieldL).map (fun r => (r.2.eb, r.2.dq, r.2.un,
         (List.range 3).all fun c => (List.range 8).all fun q =>
           q == 5 || !(toyL.ltM99 (r.1.cod c q)))) =
      some ([2, 2, 2, 1, 2, 0, 2, 1],
        [562, 537, 513, 514, 514, 513, 511, 491, 514, 463, 490, 516, 514, 531, 512],
        [109#64, 812#64, 8#64, 2#64, 0#64, 12#64, 4#64, 10#64, 16#64], true) := by decide +kernel
  generalize hc : compress (logMode3 toyL 1#64 1#64 (lorenzo3 toyL.toOps 2 2) 2 512)
      (planLog3 toyL 1#64 (escMax toyL.toDOps 1#64 1#64) toyBound3) (2 * 2 * 2) toyFieldL = r at hv
  cases r with
  | none => cases hv
  | some r =>
    obtain ⟨s', str⟩ := r
    simp only [Option.map_some, Option.some.injEq, Prod.mk.injEq] at hv
    obtain ⟨h1, h2, h3, h4⟩ := hv
    refine ⟨s', str, rfl, h1, C28_log3_roundtrip_partial toyL toyL_laws toyCodec _ _ 1#64 1#64 1#64
      2 2 2 2 512 toyBound3 toyFieldL s' str hc (by decide) (by decide) (by decide) ?_ ?_ ?_ ?_ ?_⟩
    · rw [h1]
      exact fits_of_short _ _ _ (by decide) (by decide) (by decide) (by decide)
    · rw [h2]
      exact fits_of_short _ _ _ (by decide) (by decide) (by decide) (by decide)
    · rw [h3]; decide
    · intro s p a hp hpl
      rcases planLog3_cases hpl with h0 | ⟨req0, req, hb, hreq, hpos, h0⟩
      · cases h0
      · simp only [Plan.try.injEq] at h0
        have : req = 31#64 ∨ req = 0#64 := by
          rcases hreq with h | h
          · subst h
            simp only [toyBound3, Option.some.injEq] at hb
            split at hb
            · exact Or.inr hb.symm
            · exact Or.inl hb.symm
          · exact Or.inr h
        rcases this with rfl | rfl
        · rw [h0.1]; decide +kernel
        · exact absurd hpos (by decide)
    · intro c q e hcK hq he h0 _
      simp only [List.all_eq_true, List.mem_range, Bool.or_eq_true, beq_iff_eq,
        Bool.not_eq_true'] at h4
      rcases h4 c hcK q hq with h5 | h5
      · subst h5
        rw [h1] at he
        simp only [List.getElem?_cons_succ, List.getElem?_cons_zero, Option.some.injEq] at he
        exact absurd he.symm h0
      · exact h5

/-- The hypotheses of C29 are met by a field on a 2 by 2 by 2 grid with a critical point in
the first tetrahedron, and the decompressed field has it, too. -/
example : ∃ d : Arr ℝ, (∃ s' str, compressLog3 2 2 2 (1 / 10)
      (fun c q => if c = 0 then [-1, 1, 1, 1, 3, 1, -1, -1].getD q 1
        else if c = 1 then [-1, 1, 1, 1, -1, 1, 3, -1].getD q 1
        else [-1, 1, 1, 1, -1, 1, -1, 3].getD q 1) = some (s', str) ∧
      decompressLog3 2 2 2 (signMaps realL 3 (2 * 2 * 2)
        (fun c q => if c = 0 then [-1, 1, 1, 1, 3, 1, -1, -1].getD q 1
        else if c = 1 then [-1, 1, 1, 1, -1, 1, 3, -1].getD q 1
        else [-1, 1, 1, 1, -1, 1, -1, 3].getD q 1)) (fun _ _ => 9) str = some d) ∧
    cellCP d [0, 4, 6, 7] := by
  have h98 : (2 : ℝ) ^ (-98 : ℤ) ≤ 1 := by
    rw [zpow_neg]; exact inv_le_one_of_one_le₀ (by norm_num)
  set data : Arr ℝ := fun c q => if c = 0 then [-1, 1, 1, 1, 3, 1, -1, -1].getD q 1
        else if c = 1 then [-1, 1, 1, 1, -1, 1, 3, -1].getD q 1
        else [-1, 1, 1, 1, -1, 1, -1, 3].getD q 1 with hdata
  have hm : ∀ c q, c < 3 → q < 2 * 2 * 2 → (2 : ℝ) ^ (-98 : ℤ) ≤ |data c q| := by
    intro c q hc hq
    refine h98.trans ?_
    have hc : c = 0 ∨ c = 1 ∨ c = 2 := by omega
    have hq : q = 0 ∨ q = 1 ∨ q = 2 ∨ q = 3 ∨ q = 4 ∨ q = 5 ∨ q = 6 ∨ q = 7 := by omega
    rcases hc with rfl | rfl | rfl <;>
      rcases hq with rfl | rfl | rfl | rfl | rfl | rfl | rfl | rfl <;>
      norm_num [hdata, abs_of_pos]
  obtain ⟨s', str, h⟩ := compressLog3_defined 2 2 2 (1 / 10) data
  obtain ⟨d, hd, -⟩ := C28_exact_arithmetic_partial 2 2 2 (1 / 10) (by norm_num)
    (Or.inl (by norm_num)) data hm s' str (fun _ _ => 9) h
  refine ⟨d, ⟨s', str, h, hd⟩, ?_⟩
  have ht : (⟨0, 0, 0, 0⟩ : Tet).inGrid 2 2 2 := ⟨by decide, by decide, by decide, by decide⟩
  have hv : (⟨0, 0, 0, 0⟩ : Tet).verts 2 2 = [0, 4, 6, 7] := by decide +kernel
  have := ((C29_critical_cells_partial 2 2 2 (1 / 10) (by norm_num) (Or.inl (by norm_num)) data hm s' str
    _ d h hd).1 _ ht).1
  rw [hv] at this
  rw [this]
  refine (hasCP_four _ _ _ _).2 ⟨1 / 4, 1 / 4, 1 / 4, 1 / 4, by norm_num, by norm_num, by norm_num,
    by norm_num, by norm_num, ?_, ?_, ?_⟩ <;> norm_num [vec, hdata]

end CpSZ.ThreeD
