import Verif.Ieee.Keep
import Verif.Props.Ieee
/-
Property C88: critical points of the 2D absolute mode in IEEE-754 arithmetic, from bytes to bytes.

None is lost, and the vertices around it come back bit for bit, when the data are of moderate size
(`C88_float`, `C88_double`).  With a fill value among the data one can be lost (`C88_lost`), and
one can be created in data of any size (`C88_created`).
-/

namespace CpSZ.Ieee
open CpSZ.Online2D

/-- The values that the decompressed arrays `d` and the data `m` have at the vertices of `t` are the
same bit patterns. -/
def SameAt (r2 : Nat) {F : Fmt} (t : Tri) (d m : Online2D.Field (Pat F)) : Prop :=
  ∀ P ∈ t.verts, d.u (P.1 * r2 + P.2) = m.u (P.1 * r2 + P.2) ∧
    d.v (P.1 * r2 + P.2) = m.v (P.1 * r2 + P.2)

theorem SameAt.hasCP {r2 : Nat} {F : Fmt} {t : Tri} {d m : Online2D.Field (Pat F)}
    (h : SameAt r2 t d m) (hc : t.hasCP r2 (realField (dec F) m)) :
    t.hasCP r2 (realField (dec F) d) := by
  have hq : ∀ q, q < 3 → t.vec r2 (realField (dec F) d) q = t.vec r2 (realField (dec F) m) q := by
    intro q hq
    have hmem : t.verts.getD q (0, 0) ∈ t.verts := by
      unfold Tri.verts
      have : q = 0 ∨ q = 1 ∨ q = 2 := by omega
      split <;> rcases this with rfl | rfl | rfl <;> simp
    obtain ⟨e1, e2⟩ := h _ hmem
    unfold Tri.vec
    simp only [gridVal, realField]
    rw [e1, e2]
  unfold Tri.hasCP at hc ⊢
  rw [hq 0 (by norm_num), hq 1 (by norm_num), hq 2 (by norm_num)]
  exact hc

theorem verts_lt {r1 r2 : Nat} {t : Tri} (ht : t.inGrid r1 r2) {P : Nat × Nat}
    (hP : P ∈ t.verts) : P.1 * r2 + P.2 < r1 * r2 := by
  apply Mesh2D.flat_lt <;>
  · unfold Tri.inGrid at ht
    unfold Tri.verts at hP
    split at hP <;> simp only [List.mem_cons, List.not_mem_nil, or_false] at hP <;>
      rcases hP with rfl | rfl | rfl <;> simp only <;> omega

/-- C88, `float`.  Data (finite, at most `2^60`, fewer than `2^59` vertices) and bound of the user
are bit patterns, the code computes with IEEE-754 arithmetic (assumptions as in C83).  If no code
word of the data codes is longer than 64 bits, the compressor produces a stream, and whatever the
decompressor finds behind it, the vertices of every triangle with a critical point come back bit
for bit, so the triangle still has it. -/
theorem C88_float (tr : Pat binary64 → Int) (lg : Pat binary64 → Pat binary64) (eps : ℚ)
    (hlg : LogOk lg eps) (hlb : dec binary64 (lg (enc binary64 false (.fin 4))) = .fin 2)
    (he0 : 0 ≤ eps) (he1 : eps ≤ p2 (-30)) (ov : Bool) (E1 E2 : Env) (r1 r2 : Nat)
    (hn : 0 < r1 * r2) (hn2 : r1 * r2 < 2 ^ 59)
    (maxEb : Pat binary64) (e : ℚ) (hm : dec binary64 maxEb = .fin e) (hep : 0 ≤ e)
    (her : e ≤ p2 60) (m : Online2D.Field (Pat binary32))
    (hf : ∀ q, q < r1 * r2 → Size binary32 (p2 60) (m.u q) ∧ Size binary32 (p2 60) (m.v q)) :
    ∃ m' s, runAbs binary32 tr lg ov r1 r2 maxEb m = some (m', s) ∧
      (Shallow E2 (2 * 65536) s.dq →
        ∃ bs, compressBytes (bitsOps binary32 tr lg) (wordCodec 4) (wordCodec 8) E1 E2 (parBits lg)
            r1 r2 (fun a _ => a)
            (boundAbsT (bitsOps binary32 tr lg) (bitsE binary32 tr lg ov) r1 r2 maxEb) m =
              some (m', bs) ∧
          ∀ rest m0, ∃ d, decompressBytes (bitsOps binary32 tr lg) (wordCodec 4) (wordCodec 8)
              (parBits lg).logBase r1 r2 m0 (bs ++ rest) = some d ∧
            ∀ t : Tri, t.inGrid r1 r2 → t.hasCP r2 (realField (dec binary32) m) →
              SameAt r2 t d m ∧ t.hasCP r2 (realField (dec binary32) d)) := by
  obtain ⟨m', s, h⟩ := runAbs_defined binary32 tr lg ov r1 r2 maxEb m
  obtain ⟨-, hc1, hc2⟩ := runAbs_within ok32 (by decide) (by decide) (by decide) (by decide) hlg hlb
    he0 he1 (r := 60) (by norm_num) (by norm_num) (by decide) hm hep her hf h
  obtain ⟨l1, l2, -⟩ := compress_lengths _ _ _ _ _ _ _ _ _ h
  refine ⟨m', s, h, fun h2 => ?_⟩
  have f1 : Fits E1 (2 * 1024) s.eb := fits_of_low (ne_nil_of_length (by omega)) (by omega)
    (by norm_num) (by norm_num) (fun x hx => by have := hc1 x hx; omega)
  have f2 : Fits E2 (2 * 65536) s.dq := fits_of_range (ne_nil_of_length (by omega)) (by omega)
    (by norm_num) (fun x hx => by have := hc2 x hx; push_cast; omega) h2
  obtain ⟨bs, hbs, hd⟩ := C13_online_roundtrip (bitsOps binary32 tr lg) (wordCodec 4) (wordCodec 8)
    E1 E2 (parBits lg) r1 r2 (fun a _ => a) _ m m' s h ⟨by change (0 : Int) ≤ 4; decide, by change (4 : Int) < _; decide⟩
    ⟨by change (0 : Int) ≤ 32768; decide, by change (32768 : Int) < _; decide⟩ rfl f1 f2
  refine ⟨bs, hbs, fun rest m0 => ?_⟩
  obtain ⟨d, hd1, hd2⟩ := hd rest m0
  refine ⟨d, hd1, fun t ht hcp => ?_⟩
  have key : SameAt r2 t d m := by
    intro Q hQ
    obtain ⟨e1, e2⟩ := hd2 _ (verts_lt ht hQ)
    rw [e1, e2]
    exact abs2_keep (P := parBits lg)
      (bits_ieee ok32 (by decide) (by decide) (by decide) tr hlg)
      (bits_ieeeE ok32 (by decide) (by decide) (by decide) tr hlg ov) ok32 (by decide) (by decide)
      (by decide) (by decide) he0 he1 rfl hlb (dec_enc ok64 _ (rep_p2 (by decide) (by decide)))
      (r := 60) (by norm_num) (by norm_num) (by decide) hm hep her hf h ht hcp Q hQ
  exact ⟨key, key.hasCP hcp⟩

/-- C88, `double`: as above for data of at most `2^400`. -/
theorem C88_double (tr : Pat binary64 → Int) (lg : Pat binary64 → Pat binary64) (eps : ℚ)
    (hlg : LogOk lg eps) (hlb : dec binary64 (lg (enc binary64 false (.fin 4))) = .fin 2)
    (he0 : 0 ≤ eps) (he1 : eps ≤ p2 (-30)) (ov : Bool) (E1 E2 : Env) (r1 r2 : Nat)
    (hn : 0 < r1 * r2) (hn2 : r1 * r2 < 2 ^ 59)
    (maxEb : Pat binary64) (e : ℚ) (hm : dec binary64 maxEb = .fin e) (hep : 0 ≤ e)
    (her : e ≤ p2 400) (m : Online2D.Field (Pat binary64))
    (hf : ∀ q, q < r1 * r2 → Size binary64 (p2 400) (m.u q) ∧ Size binary64 (p2 400) (m.v q)) :
    ∃ m' s, runAbs binary64 tr lg ov r1 r2 maxEb m = some (m', s) ∧
      (Shallow E1 (2 * 1024) s.eb → Shallow E2 (2 * 65536) s.dq →
        ∃ bs, compressBytes (bitsOps binary64 tr lg) (wordCodec 8) (wordCodec 8) E1 E2 (parBits lg)
            r1 r2 (fun a _ => a)
            (boundAbsT (bitsOps binary64 tr lg) (bitsE binary64 tr lg ov) r1 r2 maxEb) m =
              some (m', bs) ∧
          ∀ rest m0, ∃ d, decompressBytes (bitsOps binary64 tr lg) (wordCodec 8) (wordCodec 8)
              (parBits lg).logBase r1 r2 m0 (bs ++ rest) = some d ∧
            ∀ t : Tri, t.inGrid r1 r2 → t.hasCP r2 (realField (dec binary64) m) →
              SameAt r2 t d m ∧ t.hasCP r2 (realField (dec binary64) d)) := by
  obtain ⟨m', s, h⟩ := runAbs_defined binary64 tr lg ov r1 r2 maxEb m
  obtain ⟨-, hc1, hc2⟩ := runAbs_within ok64 (by decide) (by decide) (by decide) (by decide) hlg hlb
    he0 he1 (r := 400) (by norm_num) (by norm_num) (by decide) hm hep her hf h
  obtain ⟨l1, l2, -⟩ := compress_lengths _ _ _ _ _ _ _ _ _ h
  refine ⟨m', s, h, fun h1 h2 => ?_⟩
  have f1 : Fits E1 (2 * 1024) s.eb := fits_of_range (ne_nil_of_length (by omega)) (by omega)
    (by norm_num) (fun x hx => by have := hc1 x hx; push_cast; omega) h1
  have f2 : Fits E2 (2 * 65536) s.dq := fits_of_range (ne_nil_of_length (by omega)) (by omega)
    (by norm_num) (fun x hx => by have := hc2 x hx; push_cast; omega) h2
  obtain ⟨bs, hbs, hd⟩ := C13_online_roundtrip (bitsOps binary64 tr lg) (wordCodec 8) (wordCodec 8)
    E1 E2 (parBits lg) r1 r2 (fun a _ => a) _ m m' s h ⟨by change (0 : Int) ≤ 4; decide, by change (4 : Int) < _; decide⟩
    ⟨by change (0 : Int) ≤ 32768; decide, by change (32768 : Int) < _; decide⟩ rfl f1 f2
  refine ⟨bs, hbs, fun rest m0 => ?_⟩
  obtain ⟨d, hd1, hd2⟩ := hd rest m0
  refine ⟨d, hd1, fun t ht hcp => ?_⟩
  have key : SameAt r2 t d m := by
    intro Q hQ
    obtain ⟨e1, e2⟩ := hd2 _ (verts_lt ht hQ)
    rw [e1, e2]
    exact abs2_keep (P := parBits lg)
      (bits_ieee ok64 (by decide) (by decide) (by decide) tr hlg)
      (bits_ieeeE ok64 (by decide) (by decide) (by decide) tr hlg ov) ok64 (by decide) (by decide)
      (by decide) (by decide) he0 he1 rfl hlb (dec_enc ok64 _ (rep_p2 (by decide) (by decide)))
      (r := 400) (by norm_num) (by norm_num) (by decide) hm hep her hf h ht hcp Q hQ
  exact ⟨key, key.hasCP hcp⟩

/-! ### Examples and witnesses -/

theorem num_fin {F : Fmt} {a : Pat F} {x : ℚ} (h : num F a = x) (hx : x ≠ -1) :
    dec F a = .fin x := by
  unfold num at h
  split at h
  · rename_i y hy; rw [hy, h]
  · exact absurd h.symm hx

/-- Observations of a run on 2×2 vertices: number of values stored verbatim, indices, both
reconstructed components. -/
def seenUV (r : Option (Online2D.Field (Pat binary32) × Streams (Pat binary32))) :
    Option (Nat × List Int × List Int × List ℚ × List ℚ) :=
  r.map fun (f, s) => (s.un.length, s.eb, s.dq, [0, 1, 2, 3].map fun q => num binary32 (f.u q),
    [0, 1, 2, 3].map fun q => num binary32 (f.v q))

theorem seenUV_some {r : Option (Online2D.Field (Pat binary32) × Streams (Pat binary32))}
    {k a b l l'} (h : seenUV r = some (k, a, b, l, l')) :
    ∃ f s, r = some (f, s) ∧ s.un.length = k ∧ s.eb = a ∧ s.dq = b ∧
      ([0, 1, 2, 3].map fun q => num binary32 (f.u q)) = l ∧
      ([0, 1, 2, 3].map fun q => num binary32 (f.v q)) = l' := by
  unfold seenUV at h
  obtain ⟨⟨f, s⟩, hr, h1⟩ := Option.map_eq_some_iff.1 h
  simp only [Prod.mk.injEq] at h1
  exact ⟨f, s, hr, h1.1, h1.2.1, h1.2.2.1, h1.2.2.2.1, h1.2.2.2.2⟩

/-- Two triangles; the lower one has a critical point, and its vertex 2 is large. -/
def lostField : Online2D.Field (Pat binary32) :=
  ⟨fun q => [f32 1000, f32 900, f32 (-2 ^ 120), f32 1000].getD q 0,
   fun q => [f32 1010, f32 1000, f32 (-(201 / 200 * 2 ^ 120)), f32 900].getD q 0⟩

/-- The field of C58 and C71 (Props/FloatCP.lean) as bit patterns: the upper triangle has no
critical point. -/
def madeField : Online2D.Field (Pat binary32) :=
  ⟨fun q => [f32 13627137, f32 (-6590757), f32 13627137, f32 13627136].getD q 0,
   fun q => [f32 9538996, f32 (-6154504), f32 9538996, f32 9538995].getD q 0⟩

/-- A vector in each of three quadrants: the upper triangle has a critical point, the lower one
has none. -/
def oneCP : Online2D.Field (Pat binary32) :=
  ⟨fun q => [f32 (31 / 10), f32 (-57 / 10), f32 (1017 / 100), f32 (13 / 10)].getD q 0,
   fun q => [f32 (22 / 10), f32 (17 / 10), f32 (373 / 100), f32 (-48 / 10)].getD q 0⟩

/-- The bound 4194304. -/
def ebBig : Pat binary64 := enc binary64 false (.fin 4194304)

theorem lost_seen (ov : Bool) :
    seenUV (runAbs binary32 (fun _ => 0) floorLog2 ov 2 2 eb100 lostField) =
    some (4, [30, 30, 22, 22, 0, 0, 0, 0],
      [32770, 32770, 16896, 29696, 32768, 32768, 32768, 32768],
      [1024, 900, -2 ^ 120, 1000],
      [1024, 1000, -1335874129425587451127179088098230272, 900]) := by
  cases ov <;> decide +kernel

theorem made_seen (ov : Bool) :
    seenUV (runAbs binary32 (fun _ => 0) floorLog2 ov 2 2 ebBig madeField) =
    some (6, [0, 0, 36, 36, 0, 0, 0, 0],
      [32768, 32768, 32758, 32761, 32768, 32768, 32768, 32768],
      [13627137, -7344383, 13627137, 13627136], [9538996, -5141068, 9538996, 9538995]) := by
  cases ov <;> decide +kernel

/-- Minors of one sign whose sum is not zero: there is a critical point. -/
theorem cp_of_minors {u0 u1 u2 v0 v1 v2 M : ℝ}
    (hM : M = (u2 * v0 - u0 * v2) + (u1 * v2 - u2 * v1) + (u0 * v1 - u1 * v0)) (h0 : M ≠ 0)
    (h1 : 0 ≤ (u2 * v0 - u0 * v2) / M) (h2 : 0 ≤ (u1 * v2 - u2 * v1) / M)
    (h3 : 0 ≤ (u0 * v1 - u1 * v0) / M) : HasCP (u0, v0) (u1, v1) (u2, v2) := by
  refine ⟨_, _, _, h2, h1, h3, ?_, ?_, ?_⟩
  · rw [← add_div, ← add_div, div_eq_one_iff_eq h0, hM]; ring
  · simp only; field_simp; ring
  · simp only; field_simp; ring

theorem hasCP_low {f : Online2D.Field (Pat binary32)} {x0 y0 x2 y2 x3 y3 : ℚ}
    (a0 : dec binary32 (f.u 0) = .fin x0) (b0 : dec binary32 (f.v 0) = .fin y0)
    (a2 : dec binary32 (f.u 2) = .fin x2) (b2 : dec binary32 (f.v 2) = .fin y2)
    (a3 : dec binary32 (f.u 3) = .fin x3) (b3 : dec binary32 (f.v 3) = .fin y3) :
    Tri.hasCP 2 (realField (dec binary32) f) ⟨0, 0, false⟩ ↔
      HasCP ((x0 : ℝ), (y0 : ℝ)) ((x2 : ℝ), (y2 : ℝ)) ((x3 : ℝ), (y3 : ℝ)) := by
  simp [Tri.hasCP, Tri.vec, Tri.verts, gridVal, realField, a0, b0, a2, b2, a3, b3, valR]

theorem hasCP_up {f : Online2D.Field (Pat binary32)} {x0 y0 x1 y1 x3 y3 : ℚ}
    (a0 : dec binary32 (f.u 0) = .fin x0) (b0 : dec binary32 (f.v 0) = .fin y0)
    (a1 : dec binary32 (f.u 1) = .fin x1) (b1 : dec binary32 (f.v 1) = .fin y1)
    (a3 : dec binary32 (f.u 3) = .fin x3) (b3 : dec binary32 (f.v 3) = .fin y3) :
    Tri.hasCP 2 (realField (dec binary32) f) ⟨0, 0, true⟩ ↔
      HasCP ((x0 : ℝ), (y0 : ℝ)) ((x1 : ℝ), (y1 : ℝ)) ((x3 : ℝ), (y3 : ℝ)) := by
  simp [Tri.hasCP, Tri.vec, Tri.verts, gridVal, realField, a0, b0, a1, b1, a3, b3, valR]

theorem not_cp {u0 u1 u2 v0 v1 v2 : ℝ} (h : (u2 * v0 - u0 * v2 < 0 ∨ u1 * v2 - u2 * v1 < 0 ∨
      u0 * v1 - u1 * v0 < 0) ∧ (0 < u2 * v0 - u0 * v2 ∨ 0 < u1 * v2 - u2 * v1 ∨
      0 < u0 * v1 - u1 * v0)) : ¬ HasCP (u0, v0) (u1, v1) (u2, v2) := by
  intro hc
  obtain ⟨h1, h2⟩ := h
  rcases minors_of_cp hc with ⟨a, b, c⟩ | ⟨a, b, c⟩
  · rcases h1 with h1 | h1 | h1 <;> linarith
  · rcases h2 with h2 | h2 | h2 <;> linarith

/-- From a run on 2×2 vertices whose observations are known to the bytes. -/
theorem bytes_of_seen {ov : Bool} {E1 E2 : Env} {maxEb : Pat binary64}
    {m : Online2D.Field (Pat binary32)} {k a b l l'}
    (h : seenUV (runAbs binary32 (fun _ => 0) floorLog2 ov 2 2 maxEb m) = some (k, a, b, l, l'))
    (ha : a ≠ [] ∧ a.length ≤ 65 ∧ ∀ x ∈ a, 0 ≤ x ∧ x < (2 * 1024 : Nat))
    (hb : b ≠ [] ∧ b.length ≤ 65 ∧ ∀ x ∈ b, 0 ≤ x ∧ x < (2 * 65536 : Nat)) :
    ∃ m' bs, compressBytes (bitsOps binary32 (fun _ => 0) floorLog2) (wordCodec 4) (wordCodec 8)
        E1 E2 (parBits floorLog2) 2 2 (fun a _ => a)
        (boundAbsT (bitsOps binary32 (fun _ => 0) floorLog2)
          (bitsE binary32 (fun _ => 0) floorLog2 ov) 2 2 maxEb) m = some (m', bs) ∧
      ∀ m0, ∃ d, decompressBytes (bitsOps binary32 (fun _ => 0) floorLog2) (wordCodec 4)
          (wordCodec 8) (parBits floorLog2).logBase 2 2 m0 bs = some d ∧
        ([0, 1, 2, 3].map fun q => num binary32 (d.u q)) = l ∧
        ([0, 1, 2, 3].map fun q => num binary32 (d.v q)) = l' := by
  obtain ⟨f, t, h1, h2, rfl, rfl, h5, h6⟩ := seenUV_some h
  have f1 : Fits E1 (2 * 1024) t.eb := fits_of_short _ _ _ ha.1 ha.2.1 (by norm_num) ha.2.2
  have f2 : Fits E2 (2 * 65536) t.dq := fits_of_short _ _ _ hb.1 hb.2.1 (by norm_num) hb.2.2
  obtain ⟨bs, hbs, hd⟩ := C13_online_roundtrip (bitsOps binary32 (fun _ => 0) floorLog2)
    (wordCodec 4) (wordCodec 8) E1 E2 (parBits floorLog2) 2 2 (fun a _ => a) _ m f t h1
    (by decide) (by decide) rfl f1 f2
  refine ⟨f, bs, hbs, fun m0 => ?_⟩
  obtain ⟨d, d1, d2⟩ := hd [] m0
  rw [List.append_nil] at d1
  have e0 := d2 0 (by norm_num)
  have e1 := d2 1 (by norm_num)
  have e2 := d2 2 (by norm_num)
  have e3 := d2 3 (by norm_num)
  refine ⟨d, d1, ?_, ?_⟩
  · rw [← h5]; simp only [List.map_cons, List.map_nil, e0.1, e1.1, e2.1, e3.1]
  · rw [← h6]; simp only [List.map_cons, List.map_nil, e0.2, e1.2, e2.2, e3.2]

/-- C88 without a limit on the size of the data is false: all values are finite, the bound is
1/100, the lower triangle has a critical point, and what comes back from the bytes has none in it.
The products with vertex 2 overflow, the bound of that triangle is NaN, and the bound of vertex 0
is that of the other triangle alone. -/
theorem C88_lost (ov : Bool) (E1 E2 : Env) :
    Tri.hasCP 2 (realField (dec binary32) lostField) ⟨0, 0, false⟩ ∧
    ∃ m' bs, compressBytes (bitsOps binary32 (fun _ => 0) floorLog2) (wordCodec 4) (wordCodec 8)
        E1 E2 (parBits floorLog2) 2 2 (fun a _ => a)
        (boundAbsT (bitsOps binary32 (fun _ => 0) floorLog2)
          (bitsE binary32 (fun _ => 0) floorLog2 ov) 2 2 eb100) lostField = some (m', bs) ∧
      ∀ m0, ∃ d, decompressBytes (bitsOps binary32 (fun _ => 0) floorLog2) (wordCodec 4)
          (wordCodec 8) (parBits floorLog2).logBase 2 2 m0 bs = some d ∧
        ¬ Tri.hasCP 2 (realField (dec binary32) d) ⟨0, 0, false⟩ := by
  constructor
  · rw [hasCP_low (x0 := 1000) (y0 := 1010) (x2 := -2 ^ 120)
      (y2 := -1335874129425587451127179088098230272) (x3 := 1000) (y3 := 900) (by decide +kernel)
      (by decide +kernel) (by decide +kernel) (by decide +kernel) (by decide +kernel)
      (by decide +kernel)]
    push_cast
    refine cp_of_minors rfl ?_ ?_ ?_ ?_ <;> norm_num
  · obtain ⟨m', bs, h1, h2⟩ := bytes_of_seen (E1 := E1) (E2 := E2) (lost_seen ov)
      (by decide) (by decide)
    refine ⟨m', bs, h1, fun m0 => ?_⟩
    obtain ⟨d, d1, d2, d3⟩ := h2 m0
    refine ⟨d, d1, ?_⟩
    simp only [List.map_cons, List.map_nil, List.cons.injEq] at d2 d3
    rw [hasCP_low (num_fin d2.1 (by norm_num)) (num_fin d3.1 (by norm_num))
      (num_fin d2.2.2.1 (by norm_num)) (num_fin d3.2.2.1 (by norm_num))
      (num_fin d2.2.2.2.1 (by norm_num)) (num_fin d3.2.2.2.1 (by norm_num))]
    push_cast
    refine not_cp ?_
    norm_num

/-- Critical points can be created, also with data below `2^24`: the upper triangle has none, and
what comes back from the bytes has one in it. -/
theorem C88_created (ov : Bool) (E1 E2 : Env) :
    (∀ q, q < 4 → Size binary32 (p2 24) (madeField.u q) ∧ Size binary32 (p2 24) (madeField.v q)) ∧
    ¬ Tri.hasCP 2 (realField (dec binary32) madeField) ⟨0, 0, true⟩ ∧
    ∃ m' bs, compressBytes (bitsOps binary32 (fun _ => 0) floorLog2) (wordCodec 4) (wordCodec 8)
        E1 E2 (parBits floorLog2) 2 2 (fun a _ => a)
        (boundAbsT (bitsOps binary32 (fun _ => 0) floorLog2)
          (bitsE binary32 (fun _ => 0) floorLog2 ov) 2 2 ebBig) madeField = some (m', bs) ∧
      ∀ m0, ∃ d, decompressBytes (bitsOps binary32 (fun _ => 0) floorLog2) (wordCodec 4)
          (wordCodec 8) (parBits floorLog2).logBase 2 2 m0 bs = some d ∧
        Tri.hasCP 2 (realField (dec binary32) d) ⟨0, 0, true⟩ := by
  refine ⟨?_, ?_, ?_⟩
  · intro q hq
    have : ∀ q ∈ [0, 1, 2, 3], sizeB binary32 (p2 24) (madeField.u q) = true ∧
        sizeB binary32 (p2 24) (madeField.v q) = true := by decide +kernel
    obtain ⟨a, b⟩ := this q (by simp; omega)
    exact ⟨size_of a, size_of b⟩
  · rw [hasCP_up (x0 := 13627137) (y0 := 9538996) (x1 := -6590757) (y1 := -6154504)
      (x3 := 13627136) (y3 := 9538995) (by decide +kernel)
      (by decide +kernel) (by decide +kernel) (by decide +kernel) (by decide +kernel)
      (by decide +kernel)]
    push_cast
    refine not_cp ?_
    norm_num
  · obtain ⟨m', bs, h1, h2⟩ := bytes_of_seen (E1 := E1) (E2 := E2) (made_seen ov)
      (by decide) (by decide)
    refine ⟨m', bs, h1, fun m0 => ?_⟩
    obtain ⟨d, d1, d2, d3⟩ := h2 m0
    refine ⟨d, d1, ?_⟩
    simp only [List.map_cons, List.map_nil, List.cons.injEq] at d2 d3
    rw [hasCP_up (num_fin d2.1 (by norm_num)) (num_fin d3.1 (by norm_num))
      (num_fin d2.2.1 (by norm_num)) (num_fin d3.2.1 (by norm_num))
      (num_fin d2.2.2.2.1 (by norm_num)) (num_fin d3.2.2.2.1 (by norm_num))]
    push_cast
    refine cp_of_minors rfl ?_ ?_ ?_ ?_ <;> norm_num

theorem oneCP_seen (ov : Bool) :
    seenUV (runAbs binary32 (fun _ => 0) floorLog2 ov 2 2 eb100 oneCP) =
    some (6, [0, 0, 0, 0, 22, 22, 0, 0],
      [32768, 32768, 32768, 32768, 33673, 32964, 32768, 32768],
      [6501171 / 2097152, -5976883 / 1048576, 5332173 / 524288, 5452595 / 4194304],
      [9227469 / 4194304, 7130317 / 4194304, 15649997 / 4194304, -5033165 / 1048576]) := by
  cases ov <;> decide +kernel

/-- The hypotheses of `C88_float` are met by `oneCP` with the bound 1/100; the upper triangle has a
critical point and comes back bit for bit, while the vertex outside is changed. -/
example (ov : Bool) (E1 E2 : Env) : ∃ m' s bs,
    runAbs binary32 (fun _ => 0) floorLog2 ov 2 2 eb100 oneCP = some (m', s) ∧
    num binary32 (m'.u 2) ≠ num binary32 (oneCP.u 2) ∧
    compressBytes (bitsOps binary32 (fun _ => 0) floorLog2) (wordCodec 4) (wordCodec 8) E1 E2
      (parBits floorLog2) 2 2 (fun a _ => a) (boundAbsT (bitsOps binary32 (fun _ => 0) floorLog2)
        (bitsE binary32 (fun _ => 0) floorLog2 ov) 2 2 eb100) oneCP = some (m', bs) ∧
    ∀ m0, ∃ d, decompressBytes (bitsOps binary32 (fun _ => 0) floorLog2) (wordCodec 4)
        (wordCodec 8) (parBits floorLog2).logBase 2 2 m0 bs = some d ∧
      SameAt 2 ⟨0, 0, true⟩ d oneCP := by
  have hm : dec binary64 eb100 = .fin (num binary64 eb100) := by decide +kernel
  have hcp : Tri.hasCP 2 (realField (dec binary32) oneCP) ⟨0, 0, true⟩ := by
    rw [hasCP_up (x0 := 6501171 / 2097152) (y0 := 9227469 / 4194304) (x1 := -5976883 / 1048576)
      (y1 := 7130317 / 4194304) (x3 := 5452595 / 4194304) (y3 := -5033165 / 1048576)
      (by decide +kernel) (by decide +kernel) (by decide +kernel) (by decide +kernel)
      (by decide +kernel) (by decide +kernel)]
    push_cast
    refine cp_of_minors rfl ?_ ?_ ?_ ?_ <;> norm_num
  obtain ⟨m', s, h, hc⟩ := C88_float (fun _ => 0) floorLog2 0 (floorLog2_ok (le_refl 0))
    floorLog2_four (le_refl 0) (p2_pos _).le ov E1 E2 2 2 (by norm_num) (by norm_num) eb100 _ hm
    (by decide +kernel) (by decide +kernel) oneCP (by
      intro q hq
      have : ∀ q ∈ [0, 1, 2, 3], sizeB binary32 (p2 60) (oneCP.u q) = true ∧
        sizeB binary32 (p2 60) (oneCP.v q) = true := by decide +kernel
      obtain ⟨a, b⟩ := this q (by simp; omega)
      exact ⟨size_of a, size_of b⟩)
  obtain ⟨f, t, h1, h2, h3, h4, h5, h6⟩ := seenUV_some (oneCP_seen ov)
  rw [h1] at h
  simp only [Option.some.injEq, Prod.mk.injEq] at h
  obtain ⟨rfl, rfl⟩ := h
  obtain ⟨bs, b1, b2⟩ := hc
    (shallow_of_short (by rw [h4]; simp) (by rw [h4]; simp) (by norm_num) (by rw [h4]; simp))
  refine ⟨f, t, bs, h1, ?_, b1, fun m0 => ?_⟩
  · simp only [List.map_cons, List.cons.injEq] at h5
    rw [h5.2.2.1]
    decide +kernel
  · obtain ⟨d, d1, d2⟩ := b2 [] m0
    rw [List.append_nil] at d1
    exact ⟨d, d1, (d2 ⟨0, 0, true⟩ ⟨by decide, by decide⟩ hcp).1⟩

/-- The hypotheses of `C88_double` are met by the same numbers. -/
example (ov : Bool) (E1 E2 : Env) : ∃ m' s,
    runAbs binary64 (fun _ => 0) floorLog2 ov 2 2 eb100
      ⟨fun q => enc binary64 false (dec binary32 (oneCP.u q)),
       fun q => enc binary64 false (dec binary32 (oneCP.v q))⟩ = some (m', s) := by
  have hm : dec binary64 eb100 = .fin (num binary64 eb100) := by decide +kernel
  obtain ⟨m', s, h, -⟩ := C88_double (fun _ => 0) floorLog2 0 (floorLog2_ok (le_refl 0))
    floorLog2_four (le_refl 0) (p2_pos _).le ov E1 E2 2 2 (by norm_num) (by norm_num) eb100 _ hm
    (by decide +kernel) (by decide +kernel)
    ⟨fun q => enc binary64 false (dec binary32 (oneCP.u q)),
       fun q => enc binary64 false (dec binary32 (oneCP.v q))⟩ (by
      intro q hq
      have : ∀ q ∈ [0, 1, 2, 3],
        sizeB binary64 (p2 400) (enc binary64 false (dec binary32 (oneCP.u q))) = true ∧
        sizeB binary64 (p2 400) (enc binary64 false (dec binary32 (oneCP.v q))) = true := by
          decide +kernel
      obtain ⟨a, b⟩ := this q (by simp; omega)
      exact ⟨size_of a, size_of b⟩)
  exact ⟨m', s, h⟩

end CpSZ.Ieee
