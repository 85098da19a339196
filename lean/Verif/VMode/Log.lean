import Verif.VMode.Lockstep
import Verif.Stream
import Verif.Props.Bytes
/-
Logarithmic domain (include/sz_cp_preserve_utils.hpp L133-149) and the byte streams of the
log-domain compressors.
-/

namespace CpSZ.VMode

/-- Additional operations of the log-domain modes.  (include/sz_cp_preserve_utils.hpp L133-149;
src/sz_compress_cp_preserve_2d.cpp L866-953.) -/
structure LOps (T D : Type) extends Ops T D where
  /-- `x == 0` -/
  isZero : T → Bool
  /-- `x > 0` -/
  pos : T → Bool
  negT : T → T
  /-- `fabs(x)` -/
  absT : T → T
  /-- `log2f(x)` assigned to a `T` -/
  log2T : T → T
  /-- `exp2(x)` assigned to a `T` -/
  exp2T : T → T
  /-- the constant -100 -/
  m100 : T
  /-- `x < -99` -/
  ltM99 : T → Bool

/-- The two facts about comparison and sign that the log modes rely on; they hold for IEEE
arithmetic (with all NaNs identified). -/
structure LogLaws {T D : Type} (L : LOps T D) : Prop where
  pos_ne : ∀ x, L.pos x = true → L.isZero x = false
  log_abs : ∀ x, L.isZero x = false →
    L.log2T (if L.pos x then x else L.negT x) = L.log2T (L.absT x)

variable {T D : Type}

/-- `log_transform` (include/sz_cp_preserve_utils.hpp L139-146), value part. -/
def logFwd (L : LOps T D) (x : T) : T :=
  if L.isZero x then L.m100 else L.log2T (if L.pos x then x else L.negT x)

/-- `log_transform`, sign part.  (include/sz_cp_preserve_utils.hpp L133-149.) -/
def signOf (L : LOps T D) (x : T) : Byte :=
  if L.isZero x then 0#8 else if L.pos x then 1#8 else 0#8

/-- The transformation as written in the decompressors
(src/sz_decompress_cp_preserve_2d.cpp L213-214, src/sz_decompress_cp_preserve_3d.cpp L61). -/
def logFwdDec (L : LOps T D) (x : T) : T :=
  if L.isZero x then L.m100 else L.log2T (L.absT x)

/-- Assignment of the reconstructed value in the compressors
(src/sz_compress_cp_preserve_2d.cpp L940-941). -/
def logBack (L : LOps T D) (x l : T) : T :=
  if L.pos x then L.exp2T l else L.negT (L.exp2T l)

/-- Second pass of the decompressors (src/sz_decompress_cp_preserve_2d.cpp L242-245). -/
def logFin (L : LOps T D) (sign : Nat → Nat → Byte) (c q : Nat) (l : T) : T :=
  if L.ltM99 l then L.zeroT
  else if sign c q ≠ 0#8 then L.exp2T l else L.negT (L.exp2T l)

theorem logFwd_eq {L : LOps T D} (H : LogLaws L) (x : T) : logFwd L x = logFwdDec L x := by
  unfold logFwd logFwdDec
  cases h : L.isZero x with
  | true => rfl
  | false => simp only [Bool.false_eq_true, if_false]; exact H.log_abs x h

theorem sign_pos {L : LOps T D} (H : LogLaws L) (x : T) : signOf L x ≠ 0#8 ↔ L.pos x = true := by
  unfold signOf
  cases hp : L.pos x with
  | true => simp [H.pos_ne x hp]
  | false => cases L.isZero x <;> simp

theorem logFin_eq {L : LOps T D} (H : LogLaws L) (sign : Nat → Nat → Byte) (c q : Nat) (x l : T)
    (hs : sign c q = signOf L x) (hl : L.ltM99 l = false) :
    logFin L sign c q l = logBack L x l := by
  unfold logFin logBack
  rw [hl, hs]
  simp only [Bool.false_eq_true, if_false, sign_pos H]

/-! ### Bytes -/

/-- Sign bitmaps, one after the other.  (src/sz_compress_cp_preserve_2d.cpp L777-787;
src/sz_compression_utils.cpp L31-52.) -/
def packMaps (maps : List (List Byte)) : List Byte := maps.flatMap packFlags

/-- Read `k` bitmaps of `len` flags; `sign_map_size = (len - 1)/8 + 1`.
(src/sz_decompress_cp_preserve_2d.cpp L181-197; src/sz_decompression_utils.cpp L62-89.) -/
def readMaps (len : Nat) : Nat → List Byte → Option (List (List Byte) × List Byte)
  | 0, bs => some ([], bs)
  | k + 1, bs =>
    match unpackFlags len ((len - 1) / 8 + 1) bs with
    | none => none
    | some (m, bs) =>
      match readMaps len k bs with
      | none => none
      | some (ms, bs) => some (m :: ms, bs)

/-- The compressed stream: `base`, `intv_radius`, sign bitmaps, lossless values with their
count, bound codes, data codes; in the 3D modes the numbers of codes are stored in front of
them (2D: src/sz_compress_cp_preserve_2d.cpp L964-978, 3D: src/sz_compress_cp_preserve_3d.cpp L936-973). -/
def serialize (c : Codec T) (E1 E2 : Env) (ebStates : Nat) (counted : Bool) (base radius : Int)
    (maps : List (List Byte)) (s : Streams T) : Option (List Byte) :=
  match encInts E1 ebStates s.eb, encInts E2 (2 * (2 * radius).toNat) s.dq with
  | some b1, some b2 =>
    some (leBytes 4 base.toNat ++ (leBytes 4 radius.toNat ++ (packMaps maps ++
      (leBytes 8 s.un.length ++ (writeArray c s.un ++
        ((if counted then leBytes 8 s.eb.length else []) ++ (b1 ++
          ((if counted then leBytes 8 s.dq.length else []) ++ b2))))))))
  | _, _ => none

/-- A count from the stream if there is one.  (src/sz_decompress_cp_preserve_3d.cpp L30-34.) -/
def readCount (counted : Bool) (dflt : Nat) (bs : List Byte) : Option (Nat × List Byte) :=
  if counted then readLE 8 bs else some (dflt, bs)

/-- Reading the stream (src/sz_decompress_cp_preserve_2d.cpp L181-197,
src/sz_decompress_cp_preserve_3d.cpp L13-35). -/
def parse (c : Codec T) (ebStates : Nat) (counted : Bool) (n K nmaps len : Nat) (bs : List Byte) :
    Option (Int × Int × List (List Byte) × Streams T) :=
  match readLE 4 bs with
  | none => none
  | some (base, bs) =>
  match readLE 4 bs with
  | none => none
  | some (radius, bs) =>
  match readMaps len nmaps bs with
  | none => none
  | some (maps, bs) =>
  match readLE 8 bs with
  | none => none
  | some (cnt, bs) =>
  match readArray c cnt bs with
  | none => none
  | some (un, bs) =>
  match readCount counted n bs with
  | none => none
  | some (ne, bs) =>
  match decInts ebStates ne bs with
  | none => none
  | some (eb, bs) =>
  match readCount counted (K * n) bs with
  | none => none
  | some (nd, bs) =>
  match decInts (2 * (2 * radius)) nd bs with
  | none => none
  | some (dq, _) => some (base, radius, maps, ⟨eb, dq, un⟩)

theorem readMaps_packMaps (len : Nat) (hlen : 0 < len) (maps : List (List Byte))
    (hm : ∀ m ∈ maps, m.length = len ∧ ∀ f ∈ m, f = 0#8 ∨ f = 1#8) (rest : List Byte) :
    readMaps len maps.length (packMaps maps ++ rest) = some (maps, rest) := by
  induction maps with
  | nil => rfl
  | cons m maps ih =>
    obtain ⟨h1, h2⟩ := hm m (List.mem_cons_self ..)
    have hne : m ≠ [] := by rintro rfl; simp at h1; omega
    have := C08_sign_bitmap_exact m (packMaps maps ++ rest) hne h2
    have hb : flagBytes m.length = (len - 1) / 8 + 1 := by
      rw [h1]; unfold flagBytes; split <;> omega
    rw [hb, h1] at this
    simp only [packMaps, List.flatMap_cons, List.append_assoc, List.length_cons, readMaps]
    simp only [packMaps] at this ih
    rw [this]
    simp only
    rw [ih (fun m' hm' => hm m' (List.mem_cons_of_mem _ hm'))]

theorem readCount_spec (counted : Bool) (x dflt : Nat) (hx : x < 2 ^ 64)
    (h : counted = false → dflt = x) (rest : List Byte) :
    readCount counted dflt ((if counted then leBytes 8 x else []) ++ rest) = some (x, rest) := by
  unfold readCount
  cases counted with
  | true => simp only [if_true]; rw [readLE_leBytes (by omega)]
  | false => simp [h rfl]

theorem serialize_parse (c : Codec T) (E1 E2 : Env) (ebStates : Nat) (counted : Bool)
    (base radius : Int) (maps : List (List Byte)) (s : Streams T) (n K len : Nat)
    (hlen : 0 < len) (hm : ∀ m ∈ maps, m.length = len ∧ ∀ f ∈ m, f = 0#8 ∨ f = 1#8)
    (h1 : counted = false → s.eb.length = n) (h2 : counted = false → s.dq.length = K * n)
    (hun : s.un.length < 2 ^ 64) (hb : 0 ≤ base ∧ base < 2 ^ 31)
    (hr : 0 ≤ radius ∧ radius < 2 ^ 31)
    (f1 : Fits E1 ebStates s.eb) (f2 : Fits E2 (2 * (2 * radius).toNat) s.dq) :
    ∃ bs, serialize c E1 E2 ebStates counted base radius maps s = some bs ∧
      ∀ rest, parse c ebStates counted n K maps.length len (bs ++ rest) =
        some (base, radius, maps, s) := by
  obtain ⟨b1, e1, d1⟩ := ints_roundtrip E1 _ _ f1
  obtain ⟨b2, e2, d2⟩ := ints_roundtrip E2 _ _ f2
  have hc : 2 * (2 * radius).toNat = 2 * (2 * radius.toNat) := by omega
  rw [hc] at d2
  have l1 : s.eb.length < 2 ^ 64 := by have := f1.2.1; omega
  have l2 : s.dq.length < 2 ^ 64 := by have := f2.2.1; omega
  refine ⟨leBytes 4 base.toNat ++ (leBytes 4 radius.toNat ++ (packMaps maps ++
      (leBytes 8 s.un.length ++ (writeArray c s.un ++
        ((if counted then leBytes 8 s.eb.length else []) ++ (b1 ++
          ((if counted then leBytes 8 s.dq.length else []) ++ b2))))))),
    by simp only [serialize, e1, e2], fun rest => ?_⟩
  unfold parse
  simp only [List.append_assoc]
  rw [readLE_leBytes (by omega)]
  simp only
  rw [readLE_leBytes (by omega)]
  simp only [readMaps_packMaps len hlen maps hm]
  rw [readLE_leBytes (by omega)]
  simp only [readArray_writeArray]
  rw [readCount_spec counted _ _ l1 (fun h => (h1 h).symm)]
  simp only [d1]
  rw [readCount_spec counted _ _ l2 (fun h => (h2 h).symm)]
  simp only [d2]
  obtain ⟨eb, dq, un⟩ := s
  simp only [Int.toNat_of_nonneg hb.1, Int.toNat_of_nonneg hr.1]

/-- The sign bitmaps of `K` arrays of `n` values.  (include/sz_cp_preserve_utils.hpp L133-149.) -/
def signMaps (L : LOps T D) (K n : Nat) (data : Arr T) : List (List Byte) :=
  (List.range K).map fun c => (List.range n).map fun q => signOf L (data c q)

/-- Look up a flag.  (src/sz_decompress_cp_preserve_2d.cpp L235-247.) -/
def mapAt (maps : List (List Byte)) (c q : Nat) : Byte := (maps.getD c []).getD q 0#8

theorem mapAt_signMaps (L : LOps T D) (K n : Nat) (data : Arr T) (c q : Nat) (hc : c < K)
    (hq : q < n) : mapAt (signMaps L K n data) c q = signOf L (data c q) := by
  simp [mapAt, signMaps, hc, hq]

theorem signMaps_ok (L : LOps T D) (K n : Nat) (data : Arr T) :
    (signMaps L K n data).length = K ∧ ∀ m ∈ signMaps L K n data, m.length = n ∧
      ∀ f ∈ m, f = 0#8 ∨ f = 1#8 := by
  refine ⟨by simp [signMaps], fun m hm => ?_⟩
  simp only [signMaps, List.mem_map] at hm
  obtain ⟨c, -, rfl⟩ := hm
  refine ⟨by simp, fun f hf => ?_⟩
  simp only [List.mem_map] at hf
  obtain ⟨q, -, rfl⟩ := hf
  unfold signOf
  split
  · exact Or.inl rfl
  · split
    · exact Or.inr rfl
    · exact Or.inl rfl

/-- A structured log-domain compressor: reconstruction and bytes.  `mk base radius` is the
mode with the given header values.  (src/sz_compress_cp_preserve_2d.cpp L773-979;
src/sz_compress_cp_preserve_3d.cpp L747-974.) -/
def compressBytes (L : LOps T D) (c : Codec T) (E1 E2 : Env) (ebStates : Nat) (counted : Bool)
    (mk : Int → Int → Mode T D) (base radius : Int)
    (plan : State T → Nat → Option (Plan D)) (n : Nat) (data : Arr T) :
    Option (Arr T × List Byte) :=
  let M := mk base radius
  match compress M plan n data with
  | none => none
  | some (s', str) =>
    match serialize c E1 E2 ebStates counted base radius (signMaps L M.K n data) str with
    | none => none
    | some bs => some (s'.val, bs)

/-- The matching decompressor.  (src/sz_decompress_cp_preserve_2d.cpp L175-252;
src/sz_decompress_cp_preserve_3d.cpp L7-110.) -/
def decompressBytes (L : LOps T D) (c : Codec T) (ebStates : Nat) (counted : Bool) (K : Nat)
    (mk : Int → Int → Mode T D) (n : Nat) (m0 : Arr T) (bs : List Byte) : Option (Arr T) :=
  match parse c ebStates counted n K K n bs with
  | none => none
  | some (base, radius, maps, s) => decompress (mk base radius) (logFin L (mapAt maps)) n m0 s

/-- Byte-level round trip of the structured log-domain modes. -/
theorem log_roundtrip (L : LOps T D) (HL : LogLaws L) (c : Codec T) (E1 E2 : Env)
    (ebStates : Nat) (counted : Bool) (mk : Int → Int → Mode T D) (base radius : Int)
    (plan : State T → Nat → Option (Plan D)) (n : Nat) (data : Arr T)
    (G : Good (mk base radius) plan n) (hback : (mk base radius).back = logBack L)
    (hpad : counted = false → (mk base radius).pad = true) (hn : 0 < n)
    (hb : 0 ≤ base ∧ base < 2 ^ 31) (hr : 0 ≤ radius ∧ radius < 2 ^ 31)
    (s' : State T) (str : Streams T) (h : compress (mk base radius) plan n data = some (s', str))
    (f1 : Fits E1 ebStates str.eb) (f2 : Fits E2 (2 * (2 * radius).toNat) str.dq)
    (hun : str.un.length < 2 ^ 64)
    (hsmall : ∀ c q e, c < (mk base radius).K → q < n → str.eb[q]? = some e →
      (mk base radius).isEsc e = false → L.ltM99 (s'.cod c q) = false) :
    ∃ bs, compressBytes L c E1 E2 ebStates counted mk base radius plan n data =
        some (s'.val, bs) ∧
      ∀ rest m0, ∃ d, decompressBytes L c ebStates counted (mk base radius).K mk n m0
          (bs ++ rest) = some d ∧
        ∀ c q, c < (mk base radius).K → q < n → d c q = s'.val c q := by
  obtain ⟨l1, l2, -, -⟩ := compress_lengths _ _ _ _ _ _ h
  obtain ⟨m1, m2⟩ := signMaps_ok L (mk base radius).K n data
  obtain ⟨bs, hs, hp⟩ := serialize_parse c E1 E2 ebStates counted base radius _ str n
    (mk base radius).K n hn m2 (fun _ => l1) (fun hc => l2 (hpad hc)) hun hb hr f1 f2
  rw [m1] at hp
  refine ⟨bs, by simp only [compressBytes, h, hs], fun rest m0 => ?_⟩
  obtain ⟨d, hd, hA⟩ := lockstep _ plan n G (logFin L (mapAt (signMaps L (mk base radius).K n data)))
    data m0 s' str h (fun c q e hc hq he hne => by
      rw [hback]
      exact logFin_eq HL _ _ _ _ _ (mapAt_signMaps L _ _ _ _ _ hc hq) (hsmall c q e hc hq he hne))
  exact ⟨d, by simp only [decompressBytes, hp rest, hd], hA⟩

end CpSZ.VMode
