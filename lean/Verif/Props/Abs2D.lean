import Verif.Online2D.Abs
import Verif.Props.Online2D
/-
Property C20 (2D online compressor with absolute error bound).
-/

namespace CpSZ.Online2D
open Mesh2D

/-- The compressor is defined on every input. -/
theorem compressAbs_defined (r1 r2 : Nat) (maxEb : ℝ) (m m0 : Field ℝ) :
    ∃ m' s d, compressAbs r1 r2 maxEb m = some (m', s) ∧ decompressRel r1 r2 m0 s = some d := by
  have hd : ∀ q f, 0 ≤ q → q < 0 + r1 * r2 →
      (encVertex realOps parOnline r2 (fun req _ => req) (boundAbs r1 r2 maxEb) f q).isSome := by
    intro q f _ hq
    rw [Nat.zero_add] at hq
    obtain ⟨hi, hj, hpe⟩ := flat_split hq
    have hreq' : ∃ req, boundAbs r1 r2 maxEb f q = some req := by
      unfold boundAbs
      split
      · exact ⟨_, rfl⟩
      · have hb := requiredLoop_defined r1 r2 minfX (fun _ => deriveAbs) f (q / r2) (q % r2)
          [0, 1, 2, 3, 4, 5] (by simp) (some maxEb) hi hj
        rw [hpe] at hb
        obtain ⟨req, hreq⟩ := Option.isSome_iff_exists.1 hb
        exact ⟨req.getD 0, by unfold requiredEb; rw [hreq]; rfl⟩
    obtain ⟨req, hreq⟩ := hreq'
    unfold encVertex
    rw [hreq]
    simp only
    split
    · split <;> rfl
    · rfl
  obtain ⟨⟨m', ws⟩, h⟩ := Option.isSome_iff_exists.1
    (scanEnc_defined (encVertex realOps parOnline r2 (fun req _ => req) (boundAbs r1 r2 maxEb))
      (r1 * r2) 0 hd m)
  have hc : compressAbs r1 r2 maxEb m = some (m', ⟨ws.flatMap VCode.eb,
      ws.flatMap (VCode.dq parOnline.radius), ws.flatMap VCode.un⟩) := by
    simp only [compressAbs, compress, h]
  obtain ⟨d, hd, -⟩ := lockstep realOps parOnline r1 r2 (fun req _ => req) _ m m0 m' _ hc
  exact ⟨m', _, d, hc, hd⟩

/-- C20, round trip.  For any arithmetic and any bound computation, the 2D decompressor
returns the reconstruction of the absolute-mode compressor from its bytes. -/
theorem C20_roundtrip {T D : Type} (O : Ops T D) (c : Codec T) (cD : Codec D) (E1 E2 : Env)
    (P : Par D) (r1 r2 : Nat) (bound : Field T → Nat → Option D) (m m' : Field T) (s : Streams T)
    (h : compress O P r1 r2 (fun req _ => req) bound m = some (m', s))
    (hb : 0 ≤ P.base ∧ P.base < 2 ^ 31) (hr : 0 ≤ P.radius ∧ P.radius < 2 ^ 31)
    (hcap : P.capacity = 2 * P.radius)
    (f1 : Fits E1 (2 * 1024) s.eb) (f2 : Fits E2 (2 * P.capacity.toNat) s.dq) :
    ∃ bs, compressBytes O c cD E1 E2 P r1 r2 (fun req _ => req) bound m = some (m', bs) ∧
      ∀ rest m0, ∃ d, decompressBytes O c cD P.logBase r1 r2 m0 (bs ++ rest) = some d ∧
        ∀ q, q < r1 * r2 → d.u q = m'.u q ∧ d.v q = m'.v q :=
  C13_online_roundtrip O c cD E1 E2 P r1 r2 _ bound m m' s h hb hr hcap f1 f2

theorem absInv_final (r1 r2 : Nat) (maxEb : ℝ) (m m' m0 d : Field ℝ) (s : Streams ℝ)
    (h : compressAbs r1 r2 maxEb m = some (m', s)) (hd : decompressRel r1 r2 m0 s = some d) :
    AbsInv r1 r2 maxEb m (r1 * r2) m' ∧ ∀ q, q < r1 * r2 → d.u q = m'.u q ∧ d.v q = m'.v q := by
  obtain ⟨d', hd', hA⟩ := lockstep realOps parOnline r1 r2 (fun req _ => req) _ m m0 m' s h
  have : d' = d := Option.some.inj (hd'.symm.trans hd)
  subst this
  exact ⟨compress_inv realOps parOnline r1 r2 _ _ m m' s h (AbsInv r1 r2 maxEb m)
    ⟨fun _ _ => ⟨rfl, rfl⟩, fun _ => ⟨Or.inl rfl, Or.inl rfl⟩, fun _ _ => Iff.rfl,
      fun _ _ _ _ _ => ⟨rfl, rfl⟩⟩
    (fun p f _ hI => ⟨fun q hq => hI.later q (by omega), hI.close, hI.cp, hI.exact⟩)
    (fun p f x y hp hI hs => absInv_step hp hI hs), hA⟩

/-- C20, error bound.  Every decompressed value is exact or strictly within the user's
absolute bound. -/
theorem C20_absolute_error (r1 r2 : Nat) (maxEb : ℝ) (m m' m0 d : Field ℝ) (s : Streams ℝ)
    (h : compressAbs r1 r2 maxEb m = some (m', s)) (hd : decompressRel r1 r2 m0 s = some d)
    (q : Nat) (hq : q < r1 * r2) :
    (d.u q = m.u q ∨ |d.u q - m.u q| < maxEb) ∧ (d.v q = m.v q ∨ |d.v q - m.v q| < maxEb) := by
  obtain ⟨hI, hA⟩ := absInv_final r1 r2 maxEb m m' m0 d s h hd
  rw [(hA q hq).1, (hA q hq).2]
  exact hI.close q

/-- C20, critical points.  No triangle gains or loses a critical point. -/
theorem C20_critical_points_preserved (r1 r2 : Nat) (maxEb : ℝ) (m m' m0 d : Field ℝ)
    (s : Streams ℝ) (h : compressAbs r1 r2 maxEb m = some (m', s))
    (hd : decompressRel r1 r2 m0 s = some d) (t : Tri) (ht : t.inGrid r1 r2) :
    t.hasCP r2 d ↔ t.hasCP r2 m := by
  obtain ⟨hI, hA⟩ := absInv_final r1 r2 maxEb m m' m0 d s h hd
  rw [(tri_congr ht hA).1, hI.cp t ht]

/-- C20, exactness.  The vertices of a triangle with a critical point are reproduced
exactly. -/
theorem C20_critical_triangles_exact (r1 r2 : Nat) (maxEb : ℝ) (m m' m0 d : Field ℝ)
    (s : Streams ℝ) (h : compressAbs r1 r2 maxEb m = some (m', s))
    (hd : decompressRel r1 r2 m0 s = some d) (t : Tri) (ht : t.inGrid r1 r2)
    (hc : t.hasCP r2 m) : ∀ P ∈ t.verts,
      gridVal r2 d.u P = gridVal r2 m.u P ∧ gridVal r2 d.v P = gridVal r2 m.v P := by
  obtain ⟨hI, hA⟩ := absInv_final r1 r2 maxEb m m' m0 d s h hd
  intro P hP
  have hlt : P.1 * r2 + P.2 < r1 * r2 := by
    unfold Tri.inGrid at ht
    have : P.1 < r1 ∧ P.2 < r2 := by
      unfold Tri.verts at hP
      split at hP <;> simp only [List.mem_cons, List.not_mem_nil, or_false] at hP <;>
        rcases hP with rfl | rfl | rfl <;> simp only <;> omega
    exact flat_lt _ _ _ _ this.1 this.2
  have := hI.exact t ht hc P hP
  unfold gridVal
  rw [(hA _ hlt).1, (hA _ hlt).2]
  exact this

/-! ### Concrete cases -/

/-- The lower triangle of a 2 by 2 grid contains a critical point; its vertices come back
exactly and the upper one stays free of critical points. -/
example : ∃ d : Field ℝ, (∃ m' s, compressAbs 2 2 (1 / 10)
      ⟨fun q => [-1, 7, 1, 0].getD q 0, fun q => [-1, 7, 0, 1].getD q 0⟩ = some (m', s) ∧
      decompressRel 2 2 ⟨fun _ => 9, fun _ => 9⟩ s = some d) ∧
    (⟨0, 0, false⟩ : Tri).hasCP 2 d ∧ d.u 0 = -1 := by
  obtain ⟨m', s, d, h1, h2⟩ := compressAbs_defined 2 2 (1 / 10)
    ⟨fun q => [-1, 7, 1, 0].getD q 0, fun q => [-1, 7, 0, 1].getD q 0⟩ ⟨fun _ => 9, fun _ => 9⟩
  have hc : (⟨0, 0, false⟩ : Tri).hasCP 2
      ⟨fun q => [-1, 7, 1, 0].getD q 0, fun q => [-1, 7, 0, 1].getD q 0⟩ := by
    refine ⟨1 / 3, 1 / 3, 1 / 3, by norm_num, by norm_num, by norm_num, by norm_num, ?_, ?_⟩ <;>
      simp [Tri.vec, Tri.verts, gridVal]
  refine ⟨d, ⟨m', s, h1, h2⟩, ?_, ?_⟩
  · exact (C20_critical_points_preserved 2 2 (1 / 10) _ m' _ d s h1 h2 ⟨0, 0, false⟩
      (by simp [Tri.inGrid])).2 hc
  · have := (C20_critical_triangles_exact 2 2 (1 / 10) _ m' _ d s h1 h2 ⟨0, 0, false⟩
      (by simp [Tri.inGrid]) hc (0, 0) (by simp [Tri.verts])).1
    simpa [gridVal] using this

/-- A triangle without critical point has a positive bound. -/
example : deriveAbs 1 2 1 1 1 2 = some 2 := by
  norm_num [deriveAbs, keepAbs, optMinf, optMaxf, minf, maxf]

end CpSZ.Online2D
