import Verif.ThreeD.Mesh
import Verif.VMode.Log2D
/-
The 3D compressors as instances of the engine in Verif.VMode:
`sz_compress_cp_preserve_3d_online_log` (src/sz_compress_cp_preserve_3d.cpp L747-974),
`sz_compress_cp_preserve_3d_online_abs` (L1305-1475),
`sz_compress_cp_preserve_3d_unstructured` (L1009-1145).
-/

namespace CpSZ.ThreeD
open VMode Mesh3D

variable {T D : Type}

/-- The 3D Lorenzo predictor (src/sz_compress_cp_preserve_3d.cpp L859-866). -/
def lorenzo3 (O : Ops T D) (r2 r3 : Nat) (f : Nat → T) (p : Nat) : T :=
  let i := p / (r2 * r3)
  let j := p / r3 % r2
  let k := p % r3
  let d0 := if i ≠ 0 ∧ j ≠ 0 ∧ k ≠ 0 then f (p - r2 * r3 - r3 - 1) else O.zeroT
  let d1 := if i ≠ 0 ∧ j ≠ 0 then f (p - r2 * r3 - r3) else O.zeroT
  let d2 := if i ≠ 0 ∧ k ≠ 0 then f (p - r2 * r3 - 1) else O.zeroT
  let d3 := if i ≠ 0 then f (p - r2 * r3) else O.zeroT
  let d4 := if j ≠ 0 ∧ k ≠ 0 then f (p - r3 - 1) else O.zeroT
  let d5 := if j ≠ 0 then f (p - r3) else O.zeroT
  let d6 := if k ≠ 0 then f (p - 1) else O.zeroT
  O.subT (O.subT (O.subT (O.addT (O.addT (O.addT d0 d3) d5) d6) d1) d2) d4

theorem split_pos {r2 r3 p : Nat} :
    (p / (r2 * r3) ≠ 0 → 0 < r2 * r3 ∧ r2 * r3 ≤ p) ∧ (p / r3 % r2 ≠ 0 → 0 < r3 ∧ r3 ≤ p) ∧
      (p % r3 ≠ 0 → 0 < p) := by
  refine ⟨fun h => ?_, fun h => ?_, fun h => ?_⟩
  · have := Nat.pos_of_ne_zero h
    rw [Nat.div_pos_iff] at this
    exact this
  · have h1 : p / r3 ≠ 0 := by intro h0; rw [h0, Nat.zero_mod] at h; exact h rfl
    have := Nat.pos_of_ne_zero h1
    rw [Nat.div_pos_iff] at this
    exact this
  · rcases Nat.eq_zero_or_pos p with h0 | h0
    · rw [h0, Nat.zero_mod] at h; exact absurd rfl h
    · exact h0

/-- The predictor only uses earlier entries. -/
theorem lorenzo3_congr (O : Ops T D) (r2 r3 : Nat) (f g : Nat → T) (p : Nat)
    (h : ∀ q, q < p → f q = g q) : lorenzo3 O r2 r3 f p = lorenzo3 O r2 r3 g p := by
  obtain ⟨hi, hj, hk⟩ := split_pos (r2 := r2) (r3 := r3) (p := p)
  unfold lorenzo3
  simp only
  have key : ∀ (c : Prop) [Decidable c] (q : Nat), (c → q < p) →
      (if c then f q else O.zeroT) = (if c then g q else O.zeroT) := by
    intro c _ q hq
    split
    · rename_i hc; exact h q (hq hc)
    · rfl
  rw [key (p / (r2 * r3) ≠ 0 ∧ p / r3 % r2 ≠ 0 ∧ p % r3 ≠ 0) (p - r2 * r3 - r3 - 1)
      (fun hc => by have := hi hc.1; have := hj hc.2.1; omega),
    key (p / (r2 * r3) ≠ 0 ∧ p / r3 % r2 ≠ 0) (p - r2 * r3 - r3)
      (fun hc => by have := hi hc.1; have := hj hc.2; omega),
    key (p / (r2 * r3) ≠ 0 ∧ p % r3 ≠ 0) (p - r2 * r3 - 1) (fun hc => by have := hi hc.1; omega),
    key (p / (r2 * r3) ≠ 0) (p - r2 * r3) (fun hc => by have := hi hc; omega),
    key (p / r3 % r2 ≠ 0 ∧ p % r3 ≠ 0) (p - r3 - 1) (fun hc => by have := hj hc.1; omega),
    key (p / r3 % r2 ≠ 0) (p - r3) (fun hc => by have := hj hc; omega),
    key (p % r3 ≠ 0) (p - 1) (fun hc => by have := hk hc; omega)]

/-- The seven reads of the predictor are inside the array: with the guards of the code the
differences do not underflow. -/
theorem lorenzo3_inBounds {r1 r2 r3 p : Nat} (hp : p < r1 * r2 * r3) :
    (p / (r2 * r3) ≠ 0 → r2 * r3 ≤ p) ∧ (p / r3 % r2 ≠ 0 → r3 ≤ p) ∧ (p % r3 ≠ 0 → 1 ≤ p) ∧
    (p / (r2 * r3) ≠ 0 → p / r3 % r2 ≠ 0 → r2 * r3 + r3 ≤ p) ∧
    (p / (r2 * r3) ≠ 0 → p % r3 ≠ 0 → r2 * r3 + 1 ≤ p) ∧
    (p / r3 % r2 ≠ 0 → p % r3 ≠ 0 → r3 + 1 ≤ p) ∧
    (p / (r2 * r3) ≠ 0 → p / r3 % r2 ≠ 0 → p % r3 ≠ 0 → r2 * r3 + r3 + 1 ≤ p) := by
  obtain ⟨-, -, -, hf⟩ := split3 hp
  simp only [flat3] at hf
  have h1 : p / (r2 * r3) ≠ 0 → r2 * r3 ≤ p / (r2 * r3) * (r2 * r3) := fun h =>
    Nat.le_mul_of_pos_left _ (Nat.pos_of_ne_zero h)
  have h2 : p / r3 % r2 ≠ 0 → r3 ≤ p / r3 % r2 * r3 := fun h =>
    Nat.le_mul_of_pos_left _ (Nat.pos_of_ne_zero h)
  refine ⟨fun a => ?_, fun a => ?_, fun a => ?_, fun a b => ?_, fun a b => ?_, fun a b => ?_,
    fun a b c => ?_⟩
  · have := h1 a; omega
  · have := h2 a; omega
  · omega
  · have := h1 a; have := h2 b; omega
  · have := h1 a; omega
  · have := h2 a; omega
  · have := h1 a; have := h2 b; omega

/-- `eb_quant_index_max` (src/sz_compress_cp_preserve_3d.cpp L801,
src/sz_decompress_cp_preserve_3d.cpp L48). -/
def escMax (O : DOps D) (logBase thr : D) : Int :=
  O.trunc (O.div (O.log2 (O.div (O.ofInt 1) thr)) logBase) + 1

/-- Constants and functions of the 3D log modes; the structured mode uses the 3D Lorenzo
predictor, the unstructured mode the previous vertex.  (src/sz_compress_cp_preserve_3d.cpp L747-974,
L985-1145; src/sz_decompress_cp_preserve_3d.cpp L7-110.) -/
def logMode3 (L : LOps T D) (logBase thr : D) (pred : (Nat → T) → Nat → T) (base radius : Int) :
    Mode T D where
  O := L.toOps
  base := base
  logBase := logBase
  thr := thr
  capacity := 2 * radius
  radius := radius
  K := 3
  pred := pred
  fwd := logFwd L
  fwdDec := logFwdDec L
  back := logBack L
  pad := false
  isEsc := fun e => e == 0 || e == escMax L.toDOps logBase thr

/-- src/sz_compress_cp_preserve_3d.cpp L839-845 and L886-919: bounds below `tiny` become 0; a
positive bound is tried, with escape code `esc` on failure.  `tiny` is 1e-6 and `esc` is
`eb_quant_index_max` in the structured mode; 1e-10 and 0 in the unstructured mode (L1054-1060,
L1085-1110). -/
def planLog3 (L : LOps T D) (tiny : D) (esc : Int) (bound : Arr T → Nat → Option D)
    (s : State T) (p : Nat) : Option (Plan D) :=
  match bound s.val p with
  | none => none
  | some req =>
    let req := if L.lt req tiny then L.ofInt 0 else req
    some (if L.lt (L.ofInt 0) req then .try (L.log2 (L.add (L.ofInt 1) req)) esc else .lossless 0)

theorem planLog3_cases {L : LOps T D} {tiny : D} {esc : Int} {bound : Arr T → Nat → Option D}
    {s : State T} {p : Nat} {r : Plan D} (h : planLog3 L tiny esc bound s p = some r) :
    r = .lossless 0 ∨ ∃ req0 req, bound s.val p = some req0 ∧
      (req = req0 ∨ req = L.ofInt 0) ∧ L.lt (L.ofInt 0) req = true ∧
      r = .try (L.log2 (L.add (L.ofInt 1) req)) esc := by
  unfold planLog3 at h
  split at h
  · cases h
  · rename_i req hreq
    simp only [Option.some.injEq] at h
    by_cases hc : L.lt (L.ofInt 0) (if L.lt req tiny = true then L.ofInt 0 else req) = true
    · rw [if_pos hc] at h
      refine Or.inr ⟨req, _, hreq, ?_, hc, h.symm⟩
      split
      · exact Or.inr rfl
      · exact Or.inl rfl
    · rw [if_neg hc] at h
      exact Or.inl h.symm

theorem goodLog3 (L : LOps T D) (H : LogLaws L) (logBase thr tiny : D)
    (pred : (Nat → T) → Nat → T) (base radius esc : Int) (bound : Arr T → Nat → Option D)
    (hpred : ∀ f g p, (∀ q, q < p → f q = g q) → pred f p = pred g p)
    (hesc : esc = 0 ∨ esc = escMax L.toDOps logBase thr)
    (n : Nat) (hcoded : ∀ s p a, p < n → planLog3 L tiny esc bound s p = some (.try a esc) →
      (ebQuant L.toDOps base logBase thr a).2 ≠ escMax L.toDOps logBase thr) :
    Good (logMode3 L logBase thr pred base radius) (planLog3 L tiny esc bound) n where
  pred_local := hpred
  fwd_eq := logFwd_eq H
  esc_lossless := fun s p id h => by
    rcases planLog3_cases h with h | ⟨_, _, _, _, _, h⟩
    · cases h; rfl
    · cases h
  esc_try := fun s p a id h => by
    rcases planLog3_cases h with h | ⟨_, _, _, _, _, h⟩
    · cases h
    · cases h
      simp only [logMode3, Bool.or_eq_true, beq_iff_eq]
      exact hesc
  coded := fun s p a id hp h hpos => by
    have hid : id = esc := by
      rcases planLog3_cases h with h | ⟨_, _, _, _, _, h⟩
      · cases h
      · cases h; rfl
    subst hid
    have := hcoded s p a hp h
    simp only [logMode3] at hpos ⊢
    simp only [Bool.or_eq_false_iff, beq_eq_false_iff_ne, ne_eq]
    exact ⟨by omega, this⟩

/-! ### The structured log mode -/

/-- src/sz_compress_cp_preserve_3d.cpp L831-835: `required_eb = MIN(required_eb, …)`; `derive a b c
d` is the bound for the tetrahedron with these corners. -/
def minBody (O : DOps D) (derive : (Nat → T) → (Nat → T) → (Nat → T) → (Nat → T) → D)
    (req : D) (_idx : Int) (a b c d : Nat → T) : D × Bool :=
  (if O.lt req (derive a b c d) then req else derive a b c d, false)

/-- `required_eb` in the structured log mode (src/sz_compress_cp_preserve_3d.cpp L819-837). -/
def boundLog3 (O : DOps D) (r1 r2 r3 : Nat) (maxEb : D)
    (derive : (Nat → T) → (Nat → T) → (Nat → T) → (Nat → T) → D) (f : Arr T) (p : Nat) : Option D :=
  required3 r1 r2 r3 (minBody O derive) f p maxEb

/-! ### The absolute mode -/

/-- Constants and functions of the 3D absolute mode. 
(src/sz_compress_cp_preserve_3d.cpp L1305-1475; src/sz_decompress_cp_preserve_3d.cpp L205-280.) -/
def absMode3 (O : Ops T D) (logBase thr : D) (r2 r3 : Nat) (base radius : Int) : Mode T D where
  O := O
  base := base
  logBase := logBase
  thr := thr
  capacity := 2 * radius
  radius := radius
  K := 3
  pred := lorenzo3 O r2 r3
  fwd := id
  fwdDec := id
  back := fun _ x => x
  pad := false
  isEsc := fun e => e == 0

/-- src/sz_compress_cp_preserve_3d.cpp L1365-1376. -/
def absBody (O : DOps D) (cp : Nat → Bool)
    (derive : (Nat → T) → (Nat → T) → (Nat → T) → (Nat → T) → D)
    (req : D) (idx : Int) (a b c d : Nat → T) : D × Bool :=
  if cp idx.toNat then (O.ofInt 0, true) else minBody O derive req idx a b c d

/-- src/sz_compress_cp_preserve_3d.cpp L1351-1385 and L1440-1446.  `nz x` is `x` used as a
condition. -/
def planAbs3 (O : Ops T D) (isZero : T → Bool) (nz : D → Bool) (r1 r2 r3 : Nat) (maxEb : D)
    (cp : Nat → Bool) (derive : (Nat → T) → (Nat → T) → (Nat → T) → (Nat → T) → D)
    (s : State T) (p : Nat) : Option (Plan D) :=
  let req := if isZero (s.val 0 p) || isZero (s.val 1 p) || isZero (s.val 2 p) then O.ofInt 0
    else maxEb
  match (if nz req then required3 r1 r2 r3 (absBody O.toDOps cp derive) s.val p req
    else some req) with
  | none => none
  | some req => some (if nz req then .try req 0 else .lossless 0)

theorem goodAbs3 (O : Ops T D) (logBase thr : D) (r2 r3 : Nat) (base radius : Int)
    (plan : State T → Nat → Option (Plan D)) (n : Nat)
    (h1 : ∀ s p id, plan s p = some (.lossless id) → id = 0)
    (h2 : ∀ s p a id, plan s p = some (.try a id) → id = 0) :
    Good (absMode3 O logBase thr r2 r3 base radius) plan n where
  pred_local := lorenzo3_congr O r2 r3
  fwd_eq := fun _ => rfl
  esc_lossless := fun s p id h => by rw [h1 s p id h]; rfl
  esc_try := fun s p a id h => by rw [h2 s p a id h]; rfl
  coded := fun s p a id _ _ hpos => by
    simp only [absMode3] at hpos ⊢
    simp only [beq_eq_false_iff_ne, ne_eq]
    omega

theorem planAbs3_ids {O : Ops T D} {isZero : T → Bool} {nz : D → Bool} {r1 r2 r3 : Nat} {maxEb : D}
    {cp : Nat → Bool} {derive : (Nat → T) → (Nat → T) → (Nat → T) → (Nat → T) → D} :
    (∀ s p id, planAbs3 O isZero nz r1 r2 r3 maxEb cp derive s p = some (.lossless id) → id = 0) ∧
    (∀ s p a id, planAbs3 O isZero nz r1 r2 r3 maxEb cp derive s p = some (.try a id) → id = 0) := by
  constructor
  · intro s p id h
    unfold planAbs3 at h
    simp only at h
    split at h
    · cases h
    · simp only [Option.some.injEq] at h
      split at h
      · cases h
      · cases h; rfl
  · intro s p a id h
    unfold planAbs3 at h
    simp only at h
    split at h
    · cases h
    · simp only [Option.some.injEq] at h
      split at h
      · cases h; rfl
      · cases h

/-- The stream of the absolute mode: `base`, `threshold`, `intv_radius`, number of data codes,
lossless values with their count, bound codes, data codes
(src/sz_compress_cp_preserve_3d.cpp L1455-1473). -/
def serializeAbs3 (c : Codec T) (cD : Codec D) (E1 E2 : Env) (base : Int) (thr : D) (radius : Int)
    (s : Streams T) : Option (List Byte) :=
  match encInts E1 (2 * 1024) s.eb, encInts E2 (2 * (2 * radius).toNat) s.dq with
  | some b1, some b2 =>
    some (leBytes 4 base.toNat ++ (cD.enc thr ++ (leBytes 4 radius.toNat ++
      (leBytes 8 s.dq.length ++ (leBytes 8 s.un.length ++ (writeArray c s.un ++ (b1 ++ b2)))))))
  | _, _ => none

/-- Decompressor src/sz_decompress_cp_preserve_3d.cpp L211-228. -/
def parseAbs3 (c : Codec T) (cD : Codec D) (n : Nat) (bs : List Byte) :
    Option (Int × D × Int × Streams T) :=
  match readLE 4 bs with
  | none => none
  | some (base, bs) =>
  match readVar cD bs with
  | none => none
  | some (thr, bs) =>
  match readLE 4 bs with
  | none => none
  | some (radius, bs) =>
  match readLE 8 bs with
  | none => none
  | some (nd, bs) =>
  match readLE 8 bs with
  | none => none
  | some (cnt, bs) =>
  match readArray c cnt bs with
  | none => none
  | some (un, bs) =>
  match decInts (2 * 1024) n bs with
  | none => none
  | some (eb, bs) =>
  match decInts (2 * (2 * radius)) nd bs with
  | none => none
  | some (dq, _) => some (base, thr, radius, ⟨eb, dq, un⟩)

theorem serializeAbs3_parse (c : Codec T) (cD : Codec D) (E1 E2 : Env) (base : Int) (thr : D)
    (radius : Int) (s : Streams T) (n : Nat) (h1 : s.eb.length = n)
    (hun : s.un.length < 2 ^ 64) (hb : 0 ≤ base ∧ base < 2 ^ 31)
    (hr : 0 ≤ radius ∧ radius < 2 ^ 31)
    (f1 : Fits E1 (2 * 1024) s.eb) (f2 : Fits E2 (2 * (2 * radius).toNat) s.dq) :
    ∃ bs, serializeAbs3 c cD E1 E2 base thr radius s = some bs ∧
      ∀ rest, parseAbs3 c cD n (bs ++ rest) = some (base, thr, radius, s) := by
  obtain ⟨b1, e1, d1⟩ := ints_roundtrip E1 _ _ f1
  obtain ⟨b2, e2, d2⟩ := ints_roundtrip E2 _ _ f2
  rw [h1] at d1
  have hc : 2 * (2 * radius).toNat = 2 * (2 * radius.toNat) := by omega
  rw [hc] at d2
  have l2 : s.dq.length < 2 ^ 64 := by have := f2.2.1; omega
  refine ⟨leBytes 4 base.toNat ++ (cD.enc thr ++ (leBytes 4 radius.toNat ++
      (leBytes 8 s.dq.length ++ (leBytes 8 s.un.length ++ (writeArray c s.un ++ (b1 ++ b2)))))),
    by simp only [serializeAbs3, e1, e2], fun rest => ?_⟩
  unfold parseAbs3
  simp only [List.append_assoc]
  rw [readLE_leBytes (by omega)]
  simp only [readVar_enc]
  rw [readLE_leBytes (by omega)]
  simp only
  rw [readLE_leBytes (by omega)]
  simp only
  rw [readLE_leBytes (by omega)]
  simp only [readArray_writeArray, d1, d2]
  obtain ⟨eb, dq, un⟩ := s
  simp only [Int.toNat_of_nonneg hb.1, Int.toNat_of_nonneg hr.1]

/-- `sz_compress_cp_preserve_3d_online_abs`: reconstruction and bytes.
(src/sz_compress_cp_preserve_3d.cpp L1305-1475.) -/
def compressBytesAbs3 (c : Codec T) (cD : Codec D) (E1 E2 : Env) (O : Ops T D) (logBase thr : D)
    (r2 r3 : Nat) (base radius : Int) (plan : State T → Nat → Option (Plan D)) (n : Nat)
    (data : Arr T) : Option (Arr T × List Byte) :=
  match compress (absMode3 O logBase thr r2 r3 base radius) plan n data with
  | none => none
  | some (s', str) =>
    match serializeAbs3 c cD E1 E2 base thr radius str with
    | none => none
    | some bs => some (s'.val, bs)

/-- `sz_decompress_cp_preserve_3d_online_abs` (`logBase` is not used by the decoder).
(src/sz_decompress_cp_preserve_3d.cpp L205-280.) -/
def decompressBytesAbs3 (c : Codec T) (cD : Codec D) (O : Ops T D) (logBase : D) (r2 r3 : Nat)
    (n : Nat) (m0 : Arr T) (bs : List Byte) : Option (Arr T) :=
  match parseAbs3 c cD n bs with
  | none => none
  | some (base, thr, radius, s) =>
    (decompress1 (absMode3 O logBase thr r2 r3 base radius) n m0 s).map (·.cod)

/-- In the absolute mode both working arrays are the same array. -/
theorem abs3_cod_val (O : Ops T D) (logBase thr : D) (r2 r3 : Nat) (base radius : Int)
    (plan : State T → Nat → Option (Plan D)) (n : Nat) (data : Arr T) (s' : State T)
    (str : Streams T)
    (h : compress (absMode3 O logBase thr r2 r3 base radius) plan n data = some (s', str))
    (c q : Nat) (hc : c < 3) : s'.cod c q = s'.val c q := by
  refine compress_inv _ _ _ _ s' str h (fun _ s => ∀ c q, c < 3 → s.cod c q = s.val c q)
    (fun _ _ _ => rfl) (fun _ _ _ h => h) ?_ c q hc
  intro p s s1 e qs hp hI hcod _ c q hc
  obtain ⟨a, id, rs, -, -, -, hr, -, h1, h2⟩ := hcod.ex
  obtain ⟨l1, -⟩ := encComps_spec _ _ _ _ _ _ hr
  rw [List.length_range] at l1
  have hK : (absMode3 O logBase thr r2 r3 base radius).K = 3 := rfl
  rw [hK] at l1
  rw [h1, h2]
  by_cases hq : q = p
  · subst hq
    rw [setCol_same (by simp [l1, hc]), setCol_same (by simp [l1, col_length, hK, hc]),
      List.getElem_zipWith]
    rfl
  · rw [setCol_ne hq, setCol_ne hq]; exact hI c q hc

end CpSZ.ThreeD
