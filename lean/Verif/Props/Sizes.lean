import Verif.Props.Online2D
import Verif.Props.Offline2D
import Verif.Props.Block
/-
Property C35: reported sizes, written bytes and allocated buffers.

A compressor of this code base allocates its output before it knows the size.  The models
return the bytes that are written through `compressed_pos`; the size of the allocation is
restated in each theorem.
-/

namespace CpSZ

open CpSZ.Block CpSZ.Offline2D

variable {T F D : Type}

/-! ### Offline modes -/

/-- C35 is false for `sz_compress_cp_preserve_2d_offline`
(src/sz_compress_cp_preserve_2d.cpp L246-257): every call that returns writes `sizeof(double)`
bytes more than it reports and
allocates. -/
theorem C35_offline_overrun (O : OOps T D) (Q : QPar D) (B : BOps T F D) (f : Fmt T F D)
    (E : Envs) (U V : Nat → T) (eb : Nat → D) (r1 r2 bs : Nat) (indep : Bool) (res : Result)
    (h : compressOff O Q B f E U V eb r1 r2 bs indep = some res) :
    res.bytes.length = res.size + f.cD.size := by
  simp only [compressOff, Option.bind_eq_bind, Option.bind_eq_some_iff] at h
  obtain ⟨c, -, u, -, v, -, h⟩ := h
  cases h
  simp only [List.length_append, leBytes_length, f.cD.enc_length]
  omega

/-- C35 for `sz_compress_cp_preserve_2d_offline_log` (src/sz_compress_cp_preserve_2d.cpp L349-361): it writes exactly the number of
bytes it reports and allocates. -/
theorem C35_log_exact_partial (O : OOps T D) (Q : QPar D) (B : BOps T F D) (f : Fmt T F D)
    (hD : f.cD.size = 8) (E : Envs) (U V : Nat → T) (eb : Nat → D) (r1 r2 bs : Nat)
    (h1 : 0 < r1) (h2 : 0 < r2) (indep : Bool) (res : Result)
    (h : compressLog O Q B f E U V eb r1 r2 bs indep = some res) :
    res.bytes.length = res.size := by
  have hn : 0 < r1 * r2 := Nat.mul_pos h1 h2
  simp only [compressLog, Option.bind_eq_bind, Option.bind_eq_some_iff] at h
  obtain ⟨c, -, u, -, v, -, h⟩ := h
  cases h
  simp only [List.length_append, leBytes_length, f.cD.enc_length, signs_bytes O U _ hn,
    signs_bytes O V _ hn, hD]
  omega

-- Both calls return for the 3 x 4 grid of the examples of C33.
example (E : Envs) : ∃ res,
    compressOff satO exQ satB (satFmt 8) E exU exV (fun _ => 1#64) 3 4 2 false = some res ∧
      res.bytes.length = res.size + 8 := by
  obtain ⟨res, h⟩ := ex_rel_stream E
  exact ⟨res, h, C35_offline_overrun _ _ _ _ _ _ _ _ _ _ _ _ _ h⟩

example (E : Envs) : ∃ res,
    compressLog satO exQ satB (satFmt 8) E exU exV (fun p => BitVec.ofNat 64 (p % 3 * 4)) 3 4 2
      false = some res ∧ res.bytes.length = res.size := by
  obtain ⟨res, h⟩ := ex_log_stream E
  exact ⟨res, h, C35_log_exact_partial _ _ _ _ rfl _ _ _ _ _ _ _ (by decide) (by decide) _ _ h⟩

/-! ### Entropy coder -/

/-- The entropy coder writes at least its three size fields. -/
theorem encInts_length (E : Env) (n : Nat) (l : List Int) (b : List Byte)
    (h : encInts E n l = some b) : 20 ≤ b.length := by
  unfold encInts Huff.huffEncode at h
  split at h
  · cases h
  · split at h
    · cases h
    · dsimp only at h
      split at h
      · cases h
      · split at h
        · cases h
        · cases h
          simp only [List.length_append, leBytes_length]
          omega

/-! ### Online modes -/

namespace Online2D

/-- Number of bytes written by the 2D online modes, from below: the header, the lossless values
and the size fields of the two entropy coded arrays. -/
theorem online_length (O : Ops T D) (c : Codec T) (cD : Codec D) (E1 E2 : Env) (P : Par D)
    (r1 r2 : Nat) (absEb : D → T → D) (bound : Field T → Nat → Option D) (m m' : Field T)
    (bs : List Byte) (h : compressBytes O c cD E1 E2 P r1 r2 absEb bound m = some (m', bs)) :
    ∃ s, compress O P r1 r2 absEb bound m = some (m', s) ∧
      56 + cD.size + s.un.length * c.size ≤ bs.length := by
  unfold compressBytes at h
  split at h
  · cases h
  · rename_i m1 s hs
    split at h
    · cases h
    · rename_i b hb
      cases h
      refine ⟨s, hs, ?_⟩
      unfold serialize at hb
      split at hb
      · rename_i b1 b2 e1 e2
        cases hb
        have h1 := encInts_length _ _ _ _ e1
        have h2 := encInts_length _ _ _ _ e2
        simp only [List.length_append, leBytes_length, cD.enc_length, writeArray_length]
        omega
      · cases hb

/-- C35 is false for the 2D online modes on small grids (buffer of `2 * num_elements *
sizeof(T)` bytes, src/sz_compress_cp_preserve_2d.cpp L699, L1227): every call that returns
writes past the end, whatever the field, up to 7 vertices in single and 3 in double precision. -/
theorem C35_online_small_overflow (O : Ops T D) (c : Codec T) (cD : Codec D) (E1 E2 : Env)
    (P : Par D) (r1 r2 : Nat) (absEb : D → T → D) (bound : Field T → Nat → Option D)
    (m m' : Field T) (bs : List Byte) (hD : cD.size = 8)
    (hn : 2 * (r1 * r2) * c.size < 64)
    (h : compressBytes O c cD E1 E2 P r1 r2 absEb bound m = some (m', bs)) :
    2 * (r1 * r2) * c.size < bs.length := by
  obtain ⟨s, -, hl⟩ := online_length O c cD E1 E2 P r1 r2 absEb bound m m' bs h
  have : 0 ≤ s.un.length * c.size := Nat.zero_le _
  omega

/-- C35 is false for the 2D online modes for every field whose vertices are all stored
losslessly, on grids of any size. -/
theorem C35_online_lossless_overflow (O : Ops T D) (c : Codec T) (cD : Codec D) (E1 E2 : Env)
    (P : Par D) (r1 r2 : Nat) (absEb : D → T → D) (bound : Field T → Nat → Option D)
    (m m' : Field T) (s : Streams T) (bs : List Byte)
    (hs : compress O P r1 r2 absEb bound m = some (m', s)) (hun : s.un.length = 2 * (r1 * r2))
    (h : compressBytes O c cD E1 E2 P r1 r2 absEb bound m = some (m', bs)) :
    2 * (r1 * r2) * c.size + 56 ≤ bs.length := by
  obtain ⟨s', hs', hl⟩ := online_length O c cD E1 E2 P r1 r2 absEb bound m m' bs h
  rw [hs] at hs'
  cases hs'
  rw [hun] at hl
  omega

theorem scan_lossless (O : Ops T D) (P : Par D) (r2 : Nat) (absEb : D → T → D)
    (bound : Field T → Nat → Option D) (m : Field T) (n p : Nat)
    (h : ∀ q, p ≤ q → q < p + n → ∃ req, bound m q = some req ∧ O.lt (O.ofInt 0) req = false) :
    ∃ ws, scanEnc (encVertex O P r2 absEb bound) n p m = some (m, ws) ∧
      (ws.flatMap VCode.un).length = 2 * n := by
  induction n generalizing p with
  | zero => exact ⟨[], rfl, rfl⟩
  | succ n ih =>
    obtain ⟨req, h1, h2⟩ := h p (le_refl _) (by omega)
    obtain ⟨ws, e, l⟩ := ih (p + 1) fun q a b => h q (by omega) (by omega)
    refine ⟨.lossless (m.u p) (m.v p) :: ws, ?_, ?_⟩
    · simp only [scanEnc, encVertex, h1, h2, Bool.false_eq_true, if_false, e]
    · simp only [List.flatMap_cons, List.length_append, l, VCode.un, List.length_cons,
        List.length_nil]
      omega

open Mesh2D in
/-- Every vertex of a grid with at least two rows and columns has a triangle. -/
theorem some_tri {r1 r2 i j : Nat} (hi : i < r1) (hj : j < r2) (h1 : 2 ≤ r1) (h2 : 2 ≤ r2) :
    ∃ k < 6, inMesh r1 r2 i j k = true := by
  by_cases a : i + 1 < r1
  · by_cases b : j + 1 < r2
    · exact ⟨3, by omega, by simp [inMesh, inRange, di, dj, tab, tx, ty]; omega⟩
    · exact ⟨2, by omega, by simp [inMesh, inRange, di, dj, tab, tx, ty]; omega⟩
  · by_cases b : j + 1 < r2
    · exact ⟨5, by omega, by simp [inMesh, inRange, di, dj, tab, tx, ty]; omega⟩
    · exact ⟨0, by omega, by simp [inMesh, inRange, di, dj, tab, tx, ty]; omega⟩

open Mesh2D in
/-- Which fields are stored losslessly throughout, in exact arithmetic: for instance every
constant field without zero components, for every bound of the user. -/
theorem C35_constant_lossless (r1 r2 : Nat) (h1 : 2 ≤ r1) (h2 : 2 ≤ r2) (maxEb x y : ℝ)
    (hx : x ≠ 0) (hy : y ≠ 0) :
    ∃ s, compressRel r1 r2 maxEb ⟨fun _ => x, fun _ => y⟩ = some (⟨fun _ => x, fun _ => y⟩, s) ∧
      s.un.length = 2 * (r1 * r2) := by
  have hb : ∀ q, q < r1 * r2 → ∃ req, boundOnline r1 r2 maxEb ⟨fun _ => x, fun _ => y⟩ q =
      some req ∧ realOps.lt (realOps.ofInt 0) req = false := by
    intro q hq
    have hi : q / r2 < r1 := by rw [Nat.div_lt_iff_lt_mul (by omega)]; exact hq
    have hj : q % r2 < r2 := Nat.mod_lt _ (by omega)
    have hqe : q / r2 * r2 + q % r2 = q := by
      have := Nat.div_add_mod q r2
      rw [Nat.mul_comm] at this
      exact this
    have hsome : ∃ req, boundOnline r1 r2 maxEb ⟨fun _ => x, fun _ => y⟩
        (q / r2 * r2 + q % r2) = some req := by
      have hks : ∀ k ∈ [0, 1, 2, 3, 4, 5], k < 6 := by simp
      obtain ⟨E, hE, -⟩ := requiredLoop_le r1 r2 deriveK ⟨fun _ => x, fun _ => y⟩ (q / r2)
        (q % r2) hi hj [0, 1, 2, 3, 4, 5] hks maxEb
        (fun k hk _ => (deriveK_ne_none (hks k hk) hx hy).1)
      refine ⟨E, ?_⟩
      unfold boundOnline requiredEb
      rw [hE]
      rfl
    obtain ⟨req, hr⟩ := hsome
    obtain ⟨-, hk⟩ := bound_le (f := ⟨fun _ => x, fun _ => y⟩) hi hj hr hx hy
    obtain ⟨k, hk6, hm⟩ : ∃ k < 6, inMesh r1 r2 (q / r2) (q % r2) k = true :=
      some_tri hi hj h1 h2
    obtain ⟨E, hE, hle⟩ := hk k hk6 hm
    have : E = 0 := by
      unfold deriveK deriveOnline at hE
      dsimp only at hE
      rw [if_pos (by ring)] at hE
      exact (Option.some.inj hE).symm
    rw [hqe] at hr
    refine ⟨req, hr, ?_⟩
    simp only [realOps, realD]
    rw [decide_eq_false_iff_not]
    push_cast
    linarith
  obtain ⟨ws, e, l⟩ := scan_lossless realOps parOnline r2 absRel (boundOnline r1 r2 maxEb)
    ⟨fun _ => x, fun _ => y⟩ (r1 * r2) 0 (fun q _ hq => hb q (by omega))
  exact ⟨⟨ws.flatMap VCode.eb, ws.flatMap (VCode.dq parOnline.radius), ws.flatMap VCode.un⟩,
    by simp only [compressRel, compress, e], l⟩

-- One row of two 8-byte values (buffer of 32 bytes).
example (E1 E2 : Env) : ∃ m' bs, compressBytes toyOps toyCodec toyCodec E1 E2 toyPar 1 2
      (fun req _ => req) (Mesh2D.requiredEb 1 2 8#64 (fun a _ => a) (fun _ _ _ _ _ _ _ => 8#64))
      toyField = some (m', bs) ∧ 2 * (1 * 2) * toyCodec.size < bs.length := by
  obtain ⟨m', s, h, l1, l2⟩ := C13_compress_defined toyOps toyPar 1 2 (fun req _ => req) 8#64
    (fun a _ => a) (fun _ _ _ _ _ _ _ => 8#64) toyField
  have hv : (compress toyOps toyPar 1 2 (fun req _ => req)
      (Mesh2D.requiredEb 1 2 8#64 (fun a _ => a) (fun _ _ _ _ _ _ _ => 8#64)) toyField).map
      (fun r => (r.2.eb, r.2.dq)) = some ([3, 3, 3, 3], [38, 35, 32, 32]) := by
    decide +kernel
  rw [h] at hv
  simp only [Option.map_some, Option.some.injEq, Prod.mk.injEq] at hv
  obtain ⟨e1, e2⟩ := hv
  obtain ⟨bs, hb, -⟩ := C13_online_roundtrip toyOps toyCodec toyCodec E1 E2 toyPar 1 2 _ _
    toyField m' s h (by decide) (by decide) (by decide)
    (by rw [e1]; exact fits_of_short _ _ _ (by decide) (by decide) (by decide) (by decide))
    (by rw [e2]; exact fits_of_short _ _ _ (by decide) (by decide) (by decide) (by decide))
  exact ⟨m', bs, hb, C35_online_small_overflow toyOps toyCodec toyCodec E1 E2 toyPar 1 2 _ _
    toyField m' bs rfl (by decide) hb⟩

-- A 3 x 3 grid without admissible error.
example (E1 E2 : Env) : ∃ m' bs, compressBytes toyOps toyCodec toyCodec E1 E2 toyPar 3 3
      (fun req _ => req) (Mesh2D.requiredEb 3 3 0#64 (fun a _ => a) (fun _ _ _ _ _ _ _ => 0#64))
      toyField = some (m', bs) ∧ 2 * (3 * 3) * toyCodec.size + 56 ≤ bs.length := by
  obtain ⟨m', s, h, l1, l2⟩ := C13_compress_defined toyOps toyPar 3 3 (fun req _ => req) 0#64
    (fun a _ => a) (fun _ _ _ _ _ _ _ => 0#64) toyField
  have hv : (compress toyOps toyPar 3 3 (fun req _ => req)
      (Mesh2D.requiredEb 3 3 0#64 (fun a _ => a) (fun _ _ _ _ _ _ _ => 0#64)) toyField).map
      (fun r => (r.2.eb, r.2.dq, r.2.un.length)) =
      some (List.replicate 18 0, List.replicate 18 32, 18) := by
    decide +kernel
  rw [h] at hv
  simp only [Option.map_some, Option.some.injEq, Prod.mk.injEq] at hv
  obtain ⟨e1, e2, e3⟩ := hv
  obtain ⟨bs, hb, -⟩ := C13_online_roundtrip toyOps toyCodec toyCodec E1 E2 toyPar 3 3 _ _
    toyField m' s h (by decide) (by decide) (by decide)
    (by rw [e1]; exact fits_of_short _ _ _ (by decide) (by decide) (by decide) (by decide))
    (by rw [e2]; exact fits_of_short _ _ _ (by decide) (by decide) (by decide) (by decide))
  exact ⟨m', bs, hb, C35_online_lossless_overflow toyOps toyCodec toyCodec E1 E2 toyPar 3 3 _ _
    toyField m' s bs h e3 hb⟩

-- The hypotheses of `C35_constant_lossless` for a 100 x 200 grid.
example : ∃ s, compressRel 100 200 (1 / 10) ⟨fun _ => 1, fun _ => 2⟩ =
    some (⟨fun _ => 1, fun _ => 2⟩, s) ∧ s.un.length = 40000 :=
  C35_constant_lossless 100 200 (by norm_num) (by norm_num) _ 1 2 (by norm_num) (by norm_num)

end Online2D

/-! ### Block codec -/

namespace Block

/-- C35 is false for the block codec on small arrays (buffer of `num_elements * sizeof(T) * 1.2`
bytes, src/sz_compress_3d.cpp L216): every call of `sz_compress_2d_with_eb` that returns writes
past the end, up to 9 elements in single and 5 in double precision. -/
theorem C35_block_small_overflow (B : BOps T F D) (f : Fmt T F D) (E1 E2 : Env) (data : Nat → T)
    (prec : Nat → D) (r1 r2 bs : Nat) (indep : Bool) (bytes : List Byte)
    (hM : f.cT.size < f.cM.size) (hn : 12 * (r1 * r2 * f.cT.size) < 10 * (46 + f.cT.size))
    (h : compressEb2 B f E1 E2 data prec r1 r2 bs indep = some bytes) :
    12 * (r1 * r2 * f.cT.size) < 10 * bytes.length := by
  unfold compressEb2 encodeStream at h
  split at h
  · rename_i b1 b2 e1 e2
    cases h
    have h2 := encInts_length _ _ _ _ e2
    simp only [List.length_append, List.length_cons, leBytes_length, f.cM.enc_length,
      writeArray_length, List.length_nil]
    omega
  · cases h

-- One row of two 8-byte values with bounds 4 (buffer of 19 bytes).
example (E1 E2 : Env) : ∃ bytes,
    compressEb2 satB (satFmt 8) E1 E2 (fun p => BitVec.ofNat 64 (7 * p)) (fun _ => 4#64) 1 2 6
      false = some bytes ∧ 12 * (1 * 2 * 8) < 10 * bytes.length := by
  have hd : DepthOK E2 131072
      (outEb2 satB (fun p => BitVec.ofNat 64 (7 * p)) (fun _ => 4#64) 1 2 6).ty :=
    depthOK_of_short E2 131072 _ (by decide +kernel) (by decide +kernel) (by norm_num)
      (by decide +kernel)
  obtain ⟨bytes, h, -⟩ := C31_roundtrip satB (satFmt 8) rfl E1 E2
    (fun p => BitVec.ofNat 64 (7 * p)) (fun _ => 4#64) 1 2 6 false (by decide) (by decide)
    (by decide) (by decide) (by decide) (fun _ _ _ diff q hq => by
      have := satQ_codes 4#64 (by decide) 32768 (by norm_num) 32768 (by norm_num) diff q hq
      omega) hd
  exact ⟨bytes, h, C35_block_small_overflow satB (satFmt 8) E1 E2 _ _ 1 2 6 false bytes
    (by decide) (by decide) h⟩

end Block

end CpSZ
