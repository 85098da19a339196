import Verif.Stream
import Verif.Online2D.Lockstep
/-
The byte stream of the 2D online compressor and decompressor
(src/sz_compress_cp_preserve_2d.cpp L699-713, src/sz_decompress_cp_preserve_2d.cpp L109-129).
-/

namespace CpSZ.Online2D

variable {T D : Type}

/-- src/sz_compress_cp_preserve_2d.cpp L699-709: header, lossless values, the two entropy coded
index arrays.  The fixed size of the output buffer is not modelled here (see C35). -/
def serialize (c : Codec T) (cD : Codec D) (E1 E2 : Env) (P : Par D) (s : Streams T) :
    Option (List Byte) :=
  match encInts E1 (2 * 1024) s.eb, encInts E2 (2 * P.capacity.toNat) s.dq with
  | some b1, some b2 =>
    some (leBytes 4 P.base.toNat ++ (cD.enc P.thr ++ (leBytes 4 P.radius.toNat ++
      (leBytes 8 s.un.length ++ (writeArray c s.un ++ (b1 ++ b2))))))
  | _, _ => none

/-- Decompressor src/sz_decompress_cp_preserve_2d.cpp L114-129: `base`, `threshold`, `intv_radius`
are taken from the stream. -/
def parse (c : Codec T) (cD : Codec D) (logBase : D) (n : Nat) (bs : List Byte) :
    Option (Par D × Streams T) :=
  match readLE 4 bs with
  | none => none
  | some (base, bs) =>
  match readVar cD bs with
  | none => none
  | some (thr, bs) =>
  match readLE 4 bs with
  | none => none
  | some (radius, bs) =>
  match readLE 8 bs with
  | none => none
  | some (cnt, bs) =>
  match readArray c cnt bs with
  | none => none
  | some (un, bs) =>
  match decInts (2 * 1024) (2 * n) bs with
  | none => none
  | some (eb, bs) =>
  match decInts (2 * (2 * radius)) (2 * n) bs with
  | none => none
  | some (dq, _) => some (⟨base, logBase, thr, 2 * radius, radius⟩, ⟨eb, dq, un⟩)

/-- `sz_compress_cp_preserve_2d_online`: reconstruction and bytes.
(src/sz_compress_cp_preserve_2d.cpp L545-714.) -/
def compressBytes (O : Ops T D) (c : Codec T) (cD : Codec D) (E1 E2 : Env) (P : Par D)
    (r1 r2 : Nat) (absEb : D → T → D) (bound : Field T → Nat → Option D) (m : Field T) :
    Option (Field T × List Byte) :=
  match compress O P r1 r2 absEb bound m with
  | none => none
  | some (m', s) =>
    match serialize c cD E1 E2 P s with
    | none => none
    | some bs => some (m', bs)

/-- `sz_decompress_cp_preserve_2d_online`.  (`logBase` is not used by the decoder.)
(src/sz_decompress_cp_preserve_2d.cpp L109-165). -/
def decompressBytes (O : Ops T D) (c : Codec T) (cD : Codec D) (logBase : D) (r1 r2 : Nat)
    (m0 : Field T) (bs : List Byte) : Option (Field T) :=
  match parse c cD logBase (r1 * r2) bs with
  | none => none
  | some (P, s) => decompress O P r1 r2 m0 s

theorem compress_lengths (O : Ops T D) (P : Par D) (r1 r2 : Nat) (absEb : D → T → D)
    (bound : Field T → Nat → Option D) (m m' : Field T) (s : Streams T)
    (h : compress O P r1 r2 absEb bound m = some (m', s)) :
    s.eb.length = 2 * (r1 * r2) ∧ s.dq.length = 2 * (r1 * r2) ∧
      s.un.length ≤ 2 * (r1 * r2) := by
  unfold compress at h
  split at h
  · cases h
  · rename_i m1 ws hs
    simp only [Option.some.injEq, Prod.mk.injEq] at h
    obtain ⟨rfl, rfl⟩ := h
    have hl : ws.length = r1 * r2 := scanEnc_length _ _ _ _ _ _ hs
    rw [← hl]
    clear hs hl
    induction ws with
    | nil => simp
    | cons w ws ih =>
      simp only [List.flatMap_cons, List.length_append, List.length_cons] at ih ⊢
      cases w <;> simp [VCode.eb, VCode.dq, VCode.un] at ih ⊢ <;> omega

theorem serialize_parse (c : Codec T) (cD : Codec D) (E1 E2 : Env) (P : Par D)
    (s : Streams T) (n : Nat) (h1 : s.eb.length = 2 * n) (h2 : s.dq.length = 2 * n)
    (hun : s.un.length < 2 ^ 64)
    (hb : 0 ≤ P.base ∧ P.base < 2 ^ 31) (hr : 0 ≤ P.radius ∧ P.radius < 2 ^ 31)
    (hcap : P.capacity = 2 * P.radius)
    (f1 : Fits E1 (2 * 1024) s.eb) (f2 : Fits E2 (2 * P.capacity.toNat) s.dq) :
    ∃ bs, serialize c cD E1 E2 P s = some bs ∧
      ∀ rest, parse c cD P.logBase n (bs ++ rest) = some (P, s) := by
  obtain ⟨b1, e1, d1⟩ := ints_roundtrip E1 _ _ f1
  obtain ⟨b2, e2, d2⟩ := ints_roundtrip E2 _ _ f2
  rw [h1] at d1
  rw [h2] at d2
  have hc : 2 * P.capacity.toNat = 2 * (2 * P.radius.toNat) := by rw [hcap]; omega
  rw [hc] at d2
  refine ⟨leBytes 4 P.base.toNat ++ (cD.enc P.thr ++ (leBytes 4 P.radius.toNat ++
    (leBytes 8 s.un.length ++ (writeArray c s.un ++ (b1 ++ b2))))),
    by simp only [serialize, e1, e2], fun rest => ?_⟩
  unfold parse
  simp only [List.append_assoc]
  rw [readLE_leBytes (by omega)]
  simp only [readVar_enc]
  rw [readLE_leBytes (by omega)]
  simp only
  rw [readLE_leBytes (by omega)]
  simp only [readArray_writeArray, d1, d2]
  obtain ⟨base, lb, thr, cap, rad⟩ := P
  obtain ⟨eb, dq, un⟩ := s
  simp only at hb hr hcap ⊢
  subst hcap
  simp only [Int.toNat_of_nonneg hb.1, Int.toNat_of_nonneg hr.1]

end CpSZ.Online2D
