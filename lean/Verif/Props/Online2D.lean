import Verif.Online2D.Real
import Verif.Online2D.Bytes
import Verif.Toy
/-
Properties C13-C17, C41 (2D online compressor with relative error bound).
-/

namespace CpSZ.Online2D
open Mesh2D

section lockstep
variable {T D : Type}

/-- C13.  For any arithmetic `O`, any per-triangle bound, and any field on any grid, the
compressor runs without out-of-bounds accesses up to its index streams, whose lengths are
`2*r1*r2`. -/
theorem C13_compress_defined (O : Ops T D) (P : Par D) (r1 r2 : Nat) (absEb : D → T → D)
    (maxEb : D) (minf : D → D → D) (derive : Nat → T → T → T → T → T → T → D) (m : Field T) :
    ∃ m' s, compress O P r1 r2 absEb (requiredEb r1 r2 maxEb minf derive) m = some (m', s) ∧
      s.eb.length = 2 * (r1 * r2) ∧ s.dq.length = 2 * (r1 * r2) := by
  have hd : ∀ q f, 0 ≤ q → q < 0 + r1 * r2 →
      (encVertex O P r2 absEb (requiredEb r1 r2 maxEb minf derive) f q).isSome := by
    intro q f _ hq
    rw [Nat.zero_add] at hq
    have hr2 : 0 < r2 := by
      rcases Nat.eq_zero_or_pos r2 with h0 | h0
      · subst h0; omega
      · exact h0
    have hi : q / r2 < r1 := by rw [Nat.div_lt_iff_lt_mul hr2]; exact hq
    have hpe : q / r2 * r2 + q % r2 = q := by
      have := Nat.div_add_mod q r2
      rw [Nat.mul_comm] at this; exact this
    have hb := requiredLoop_defined r1 r2 minf derive f (q / r2) (q % r2) [0, 1, 2, 3, 4, 5]
      (by simp) maxEb hi (Nat.mod_lt _ hr2)
    rw [hpe] at hb
    obtain ⟨req, hreq⟩ := Option.isSome_iff_exists.1 hb
    have hreq' : requiredEb r1 r2 maxEb minf derive f q = some req := hreq
    unfold encVertex
    rw [hreq']
    simp only
    split
    · split <;> rfl
    · rfl
  obtain ⟨⟨m', ws⟩, h⟩ := Option.isSome_iff_exists.1
    (scanEnc_defined (encVertex O P r2 absEb (requiredEb r1 r2 maxEb minf derive))
      (r1 * r2) 0 hd m)
  have hc : compress O P r1 r2 absEb (requiredEb r1 r2 maxEb minf derive) m =
      some (m', ⟨ws.flatMap VCode.eb, ws.flatMap (VCode.dq P.radius), ws.flatMap VCode.un⟩) := by
    simp only [compress, h]
  obtain ⟨l1, l2, -⟩ := compress_lengths O P r1 r2 absEb _ m m' _ hc
  exact ⟨m', _, hc, l1, l2⟩

/-- C13.  For any arithmetic, decompressing the bytes (header, lossless values, entropy coded
indices) yields at every vertex exactly the compressor's reconstruction `m'`, whatever
follows the stream and whatever the fresh output arrays contained.  `Fits` says that the
entropy coder can represent the index arrays. -/
theorem C13_online_roundtrip (O : Ops T D) (c : Codec T) (cD : Codec D) (E1 E2 : Env)
    (P : Par D) (r1 r2 : Nat) (absEb : D → T → D) (bound : Field T → Nat → Option D)
    (m m' : Field T) (s : Streams T)
    (h : compress O P r1 r2 absEb bound m = some (m', s))
    (hb : 0 ≤ P.base ∧ P.base < 2 ^ 31) (hr : 0 ≤ P.radius ∧ P.radius < 2 ^ 31)
    (hcap : P.capacity = 2 * P.radius)
    (f1 : Fits E1 (2 * 1024) s.eb) (f2 : Fits E2 (2 * P.capacity.toNat) s.dq) :
    ∃ bs, compressBytes O c cD E1 E2 P r1 r2 absEb bound m = some (m', bs) ∧
      ∀ rest m0, ∃ d, decompressBytes O c cD P.logBase r1 r2 m0 (bs ++ rest) = some d ∧
        ∀ q, q < r1 * r2 → d.u q = m'.u q ∧ d.v q = m'.v q := by
  obtain ⟨l1, l2, l3⟩ := compress_lengths O P r1 r2 absEb bound m m' s h
  obtain ⟨bs, hs, hp⟩ := serialize_parse c cD E1 E2 P s (r1 * r2) l1 l2
    (by have := f1.2.1; omega) hb hr hcap f1 f2
  refine ⟨bs, by simp only [compressBytes, h, hs], fun rest m0 => ?_⟩
  obtain ⟨d, hd, hA⟩ := lockstep O P r1 r2 absEb bound m m0 m' s h
  exact ⟨d, by simp only [decompressBytes, hp rest, hd], hA⟩

end lockstep

/-- Invariant of the sweep in exact arithmetic: visited vertices hold the original value or
one within the relative bound; vertices not yet visited hold the original value. -/
def RelInv (maxEb : ℝ) (m : Field ℝ) (p : Nat) (f : Field ℝ) : Prop :=
  (∀ q, p ≤ q → f.u q = m.u q ∧ f.v q = m.v q) ∧
  ∀ q, (f.u q = m.u q ∨ |f.u q - m.u q| < |m.u q| * maxEb) ∧
    (f.v q = m.v q ∨ |f.v q - m.v q| < |m.v q| * maxEb)

theorem flat_split {r1 r2 p : Nat} (hp : p < r1 * r2) :
    p / r2 < r1 ∧ p % r2 < r2 ∧ p / r2 * r2 + p % r2 = p := by
  have hr2 : 0 < r2 := by
    rcases Nat.eq_zero_or_pos r2 with h0 | h0
    · subst h0; omega
    · exact h0
  refine ⟨by rw [Nat.div_lt_iff_lt_mul hr2]; exact hp, Nat.mod_lt _ hr2, ?_⟩
  have := Nat.div_add_mod p r2
  rw [Nat.mul_comm] at this; exact this

/-- An accepted vertex has nonzero components and a bound of at most the user's. -/
theorem step_le {r1 r2 : Nat} {maxEb : ℝ} {f : Field ℝ} {p : Nat} {x y : ℝ} (hp : p < r1 * r2)
    (h : Step realOps parOnline r2 absRel (boundOnline r1 r2 maxEb) f p x y) :
    ∃ req, boundOnline r1 r2 maxEb f p = some req ∧ 0 < req ∧ req ≤ maxEb ∧
      |x - f.u p| < |f.u p| * req ∧ |y - f.v p| < |f.v p| * req := by
  obtain ⟨req, hb, hpos, hx, hy⟩ := step_rel h
  have hu0 : f.u p ≠ 0 := by
    intro h0; rw [h0] at hx; simp at hx; exact absurd hx (not_lt.2 (abs_nonneg _))
  have hv0 : f.v p ≠ 0 := by
    intro h0; rw [h0] at hy; simp at hy; exact absurd hy (not_lt.2 (abs_nonneg _))
  obtain ⟨hi, hj, hpe⟩ := flat_split hp
  obtain ⟨hle, -⟩ := bound_le hi hj (by rw [hpe]; exact hb) (by rw [hpe]; exact hu0)
    (by rw [hpe]; exact hv0)
  exact ⟨req, hb, hpos, hle, hx, hy⟩

theorem relInv_step {r1 r2 : Nat} {maxEb : ℝ} {m f : Field ℝ} {p : Nat} {x y : ℝ}
    (hp : p < r1 * r2) (hI : RelInv maxEb m p f)
    (h : Step realOps parOnline r2 absRel (boundOnline r1 r2 maxEb) f p x y) :
    RelInv maxEb m (p + 1) (f.set p x y) := by
  obtain ⟨req, -, hpos, hle, hx, hy⟩ := step_le hp h
  obtain ⟨h1, h2⟩ := hI
  obtain ⟨eu, ev⟩ := h1 p (le_refl p)
  refine ⟨fun q hq => ?_, fun q => ?_⟩
  · have hqp : q ≠ p := by omega
    have := h1 q (by omega)
    simp only [Field.set, setAt, hqp, if_false]
    exact this
  · by_cases hqp : q = p
    · subst hqp
      simp only [Field.set, setAt, if_true]
      rw [eu] at hx
      rw [ev] at hy
      exact ⟨Or.inr (lt_of_lt_of_le hx (mul_le_mul_of_nonneg_left hle (abs_nonneg _))),
        Or.inr (lt_of_lt_of_le hy (mul_le_mul_of_nonneg_left hle (abs_nonneg _)))⟩
    · simp only [Field.set, setAt, hqp, if_false]
      exact h2 q

/-- C14.  In exact arithmetic each component of the decompressed field equals the input or
differs from it by strictly less than its magnitude times the user's bound. -/
theorem C14_relative_error (r1 r2 : Nat) (maxEb : ℝ) (m m' m0 d : Field ℝ) (s : Streams ℝ)
    (h : compressRel r1 r2 maxEb m = some (m', s)) (hd : decompressRel r1 r2 m0 s = some d)
    (q : Nat) (hq : q < r1 * r2) :
    (d.u q = m.u q ∨ |d.u q - m.u q| < |m.u q| * maxEb) ∧
    (d.v q = m.v q ∨ |d.v q - m.v q| < |m.v q| * maxEb) := by
  obtain ⟨d', hd', hA⟩ := lockstep realOps parOnline r1 r2 absRel _ m m0 m' s h
  have : d' = d := Option.some.inj (hd'.symm.trans hd)
  subst this
  have hI := compress_inv realOps parOnline r1 r2 absRel _ m m' s h (RelInv maxEb m)
    ⟨fun _ _ => ⟨rfl, rfl⟩, fun _ => ⟨Or.inl rfl, Or.inl rfl⟩⟩
    (fun p f _ hI => ⟨fun q hq => hI.1 q (by omega), hI.2⟩)
    (fun p f x y hp hI hs => relInv_step hp hI hs)
  rw [(hA q hq).1, (hA q hq).2]
  exact hI.2 q

/-- Values of a triangle of the grid only depend on the grid. -/
theorem tri_congr {r1 r2 : Nat} {t : Tri} (ht : t.inGrid r1 r2) {f g : Field ℝ}
    (h : ∀ q, q < r1 * r2 → f.u q = g.u q ∧ f.v q = g.v q) :
    (t.hasCP r2 f ↔ t.hasCP r2 g) ∧ ∀ J, t.isJac r2 f J ↔ t.isJac r2 g J := by
  have hval : ∀ P ∈ t.verts, gridVal r2 f.u P = gridVal r2 g.u P ∧
      gridVal r2 f.v P = gridVal r2 g.v P := by
    intro P hP
    apply h
    unfold Tri.inGrid at ht
    have : P.1 < r1 ∧ P.2 < r2 := by
      unfold Tri.verts at hP
      split at hP <;> simp only [List.mem_cons, List.not_mem_nil, or_false] at hP <;>
        rcases hP with rfl | rfl | rfl <;> simp only <;> omega
    exact flat_lt _ _ _ _ this.1 this.2
  constructor
  · obtain ⟨V0, V1, V2, hV⟩ : ∃ V0 V1 V2, t.verts = [V0, V1, V2] := by
      unfold Tri.verts; split <;> exact ⟨_, _, _, rfl⟩
    rw [hV] at hval
    have k0 := hval V0 (by simp)
    have k1 := hval V1 (by simp)
    have k2 := hval V2 (by simp)
    unfold Tri.hasCP Tri.vec
    rw [hV]
    simp only [List.getD_cons_zero, List.getD_cons_succ]
    rw [k0.1, k0.2, k1.1, k1.2, k2.1, k2.2]
  · intro J
    unfold Tri.isJac IsJac
    constructor
    · intro h P hP Q hQ
      rw [← (hval P hP).1, ← (hval P hP).2, ← (hval Q hQ).1, ← (hval Q hQ).2]
      exact h P hP Q hQ
    · intro h P hP Q hQ
      rw [(hval P hP).1, (hval P hP).2, (hval Q hQ).1, (hval Q hQ).2]
      exact h P hP Q hQ

theorem cp_inv (r1 r2 : Nat) (maxEb : ℝ) (m m' : Field ℝ) (s : Streams ℝ)
    (h : compressRel r1 r2 maxEb m = some (m', s)) :
    ∀ t : Tri, t.inGrid r1 r2 → (t.hasCP r2 m ↔ t.hasCP r2 m') ∧
      (t.hasCP r2 m → ∀ J J', t.isJac r2 m J → t.isJac r2 m' J' → SameType J J') := by
  refine compress_inv realOps parOnline r1 r2 absRel _ m m' s h
    (fun _ f => ∀ t : Tri, t.inGrid r1 r2 → (t.hasCP r2 m ↔ t.hasCP r2 f) ∧
      (t.hasCP r2 m → ∀ J J', t.isJac r2 m J → t.isJac r2 f J' → SameType J J')) ?_ ?_ ?_
  · intro t ht
    refine ⟨Iff.rfl, fun _ J J' hJ hJ' => ?_⟩
    obtain rfl := isJac_unique ht hJ hJ'
    exact ⟨rfl, rfl, fun _ => rfl, rfl⟩
  · intro p f _ hI; exact hI
  · intro p f x y hp hI hs t ht
    obtain ⟨a1, a2⟩ := hI t ht
    obtain ⟨b1, b2⟩ := step_tri hp hs t ht
    refine ⟨a1.trans b1, fun hc J J' hJ hJ' => ?_⟩
    obtain ⟨K, hK⟩ := exists_isJac r1 r2 t ht f
    exact (a2 hc J K hJ hK).trans (b2 (a1.1 hc) K J' hK hJ')

/-- C15.  In exact arithmetic, every triangle of the mesh contains a zero of the linear
interpolant of the decompressed field iff it contains one of the original field's. -/
theorem C15_critical_points_preserved (r1 r2 : Nat) (maxEb : ℝ) (m m' m0 d : Field ℝ)
    (s : Streams ℝ) (h : compressRel r1 r2 maxEb m = some (m', s))
    (hd : decompressRel r1 r2 m0 s = some d) (t : Tri) (ht : t.inGrid r1 r2) :
    t.hasCP r2 d ↔ t.hasCP r2 m := by
  obtain ⟨d', hd', hA⟩ := lockstep realOps parOnline r1 r2 absRel _ m m0 m' s h
  have : d' = d := Option.some.inj (hd'.symm.trans hd)
  subst this
  rw [(tri_congr ht hA).1]
  exact (cp_inv r1 r2 maxEb m m' s h t ht).1.symm

/-- C16.  In exact arithmetic, in every triangle with a critical point the Jacobians before
and after compression have determinants and discriminants of equal sign, traces of equal sign
unless the point is a saddle, and the same type. -/
theorem C16_critical_point_types_preserved (r1 r2 : Nat) (maxEb : ℝ) (m m' m0 d : Field ℝ)
    (s : Streams ℝ) (h : compressRel r1 r2 maxEb m = some (m', s))
    (hd : decompressRel r1 r2 m0 s = some d) (t : Tri) (ht : t.inGrid r1 r2)
    (hcp : t.hasCP r2 m) :
    ∃ J J', t.isJac r2 m J ∧ t.isJac r2 d J' ∧ cpType J = cpType J' ∧
      SignType.sign J.det = SignType.sign J'.det ∧
      SignType.sign J.disc = SignType.sign J'.disc ∧
      (0 < J.det → SignType.sign J.tr = SignType.sign J'.tr) := by
  obtain ⟨d', hd', hA⟩ := lockstep realOps parOnline r1 r2 absRel _ m m0 m' s h
  have : d' = d := Option.some.inj (hd'.symm.trans hd)
  subst this
  obtain ⟨J, hJ⟩ := exists_isJac r1 r2 t ht m
  obtain ⟨J', hJ'⟩ := exists_isJac r1 r2 t ht m'
  obtain ⟨s1, s2, s3, s4⟩ := (cp_inv r1 r2 maxEb m m' s h t ht).2 hcp J J' hJ hJ'
  exact ⟨J, J', hJ, ((tri_congr ht hA).2 J').2 hJ', s4, s1, s2, s3⟩

/-- The compressor in exact arithmetic is defined for every field, so the hypotheses of C14,
C15 and C16 can be met for every input. -/
theorem compressRel_defined (r1 r2 : Nat) (maxEb : ℝ) (m m0 : Field ℝ) :
    ∃ m' s d, compressRel r1 r2 maxEb m = some (m', s) ∧ decompressRel r1 r2 m0 s = some d := by
  have hd : ∀ q f, 0 ≤ q → q < 0 + r1 * r2 →
      (encVertex realOps parOnline r2 absRel (boundOnline r1 r2 maxEb) f q).isSome := by
    intro q f _ hq
    rw [Nat.zero_add] at hq
    obtain ⟨hi, hj, hpe⟩ := flat_split hq
    have hb := requiredLoop_defined r1 r2 minfX deriveK f (q / r2) (q % r2) [0, 1, 2, 3, 4, 5]
      (by simp) (some maxEb) hi hj
    rw [hpe] at hb
    obtain ⟨req, hreq⟩ := Option.isSome_iff_exists.1 hb
    have hreq' : boundOnline r1 r2 maxEb f q = some (req.getD 0) := by
      unfold boundOnline requiredEb; rw [hreq]; rfl
    unfold encVertex
    rw [hreq']
    simp only
    split
    · split <;> rfl
    · rfl
  obtain ⟨⟨m', ws⟩, h⟩ := Option.isSome_iff_exists.1
    (scanEnc_defined (encVertex realOps parOnline r2 absRel (boundOnline r1 r2 maxEb))
      (r1 * r2) 0 hd m)
  have hc : compressRel r1 r2 maxEb m = some (m', ⟨ws.flatMap VCode.eb,
      ws.flatMap (VCode.dq parOnline.radius), ws.flatMap VCode.un⟩) := by
    simp only [compressRel, compress, h]
  obtain ⟨d, hd, -⟩ := lockstep realOps parOnline r1 r2 absRel _ m m0 m' _ hc
  exact ⟨m', _, d, hc, hd⟩

/-- All codes of a compressed field fit the alphabets of the entropy coder: data codes are
between 0 and 65536, bound codes below 2048 as long as the data times the bound stay below
`2^1024`, the largest `double`. -/
theorem C13_codes_in_range (r1 r2 : Nat) (maxEb : ℝ) (m m' : Field ℝ) (s : Streams ℝ)
    (h : compressRel r1 r2 maxEb m = some (m', s))
    (hm : ∀ q, q < r1 * r2 → |m.u q| * maxEb < 2 ^ 1024 ∧ |m.v q| * maxEb < 2 ^ 1024) :
    (∀ x ∈ s.eb, 0 ≤ x ∧ x < 2 * 1024) ∧ (∀ x ∈ s.dq, 0 < x ∧ x < 65536) := by
  unfold compressRel compress at h
  split at h
  · cases h
  · rename_i m1 ws hs
    simp only [Option.some.injEq, Prod.mk.injEq] at h
    obtain ⟨rfl, rfl⟩ := h
    have hid : ∀ (a : ℝ) (f : Nat → ℝ) (p : Nat) (id q : Int) (x : ℝ), a < 2 ^ 1024 →
        encComp realOps parOnline r2 f p a = some (id, q, x) →
        0 ≤ id ∧ id < 2048 ∧ 0 < q ∧ q < 65536 := by
      intro a f p id q x ha he
      obtain ⟨h1, h2, h3, -, -⟩ := encComp_some realOps parOnline r2 f p a id q x he
      obtain ⟨p1, p2, p3⟩ := parOnline_ok
      have hspec := ebQuant_spec parOnline.base p1 parOnline.thr a p3
      rw [← p2] at hspec
      simp only at hspec
      obtain ⟨s1, s2, s3, s4⟩ := hspec
      have h2' : id = (ebQuant realD parOnline.base parOnline.logBase parOnline.thr a).2 := h2
      rw [← h2'] at s1 s2 s3
      have hgt : parOnline.thr < a := by
        by_contra hc
        have := s4 (not_lt.1 hc)
        rw [this] at h2'
        simp only at h2'
        omega
      obtain ⟨t1, t2, -⟩ := s3 hgt
      have hthr : parOnline.thr = 1 / 2 ^ 52 := rfl
      have hpos : 0 < (ebQuant realD parOnline.base parOnline.logBase parOnline.thr a).1 := by
        rw [t1]
        have : (0 : ℝ) < (parOnline.base : ℝ) := by norm_num [parOnline]
        positivity
      have hq := linQuant_range (rT := _root_.id) (rD := _root_.id) (lg := Real.logb 2) IsRounding.id
        _ _ 32768 hpos (by norm_num) q h3
      refine ⟨h1.le, ?_, hq.1, hq.2⟩
      rw [t1, hthr] at t2
      have hb4 : (parOnline.base : ℝ) = 4 := by norm_num [parOnline]
      rw [hb4] at t2
      have : (4 : ℝ) ^ id < 4 ^ (538 : ℤ) := by
        have e : (4 : ℝ) ^ (538 : ℤ) = 2 ^ 1024 * 2 ^ 52 := by
          rw [show (4 : ℝ) = 2 ^ (2 : ℕ) by norm_num]
          rw [← zpow_natCast, ← zpow_mul, ← zpow_natCast, ← zpow_natCast,
            ← zpow_add₀ (by norm_num : (2 : ℝ) ≠ 0)]
          norm_num
        rw [e]
        have h52 : (0 : ℝ) < 2 ^ 52 := by positivity
        have : (4 : ℝ) ^ id = (4 : ℝ) ^ id * (1 / 2 ^ 52) * 2 ^ 52 := by field_simp
        rw [this]
        exact mul_lt_mul_of_pos_right (lt_of_le_of_lt t2 ha) h52
      have := (zpow_lt_zpow_iff_right₀ (by norm_num : (1 : ℝ) < 4)).1 this
      omega
    have hall := scanEnc_forall_inv
      (encVertex realOps parOnline r2 absRel (boundOnline r1 r2 maxEb)) (RelInv maxEb m)
      (fun w => (∀ x ∈ w.eb, 0 ≤ x ∧ x < 2 * 1024) ∧
        ∀ x ∈ w.dq parOnline.radius, 0 < x ∧ x < 65536)
      (r1 * r2) 0 (by
        intro q f f' w _ hq hI he
        rw [Nat.zero_add] at hq
        rcases encVertex_cases realOps parOnline r2 absRel _ f f' q w he with ⟨rfl, rfl⟩ | hc
        · refine ⟨⟨fun q' hq' => hI.1 q' (by omega), hI.2⟩, ?_, ?_⟩
          · simp [VCode.eb]
          · simp [VCode.dq, parOnline]
        · obtain ⟨req, e0, q0, x, e1, q1, y, a1, a2, a3, a4, rfl, rfl⟩ := hc
          have hstep : Step realOps parOnline r2 absRel (boundOnline r1 r2 maxEb) f q x y :=
            ⟨req, e0, q0, e1, q1, a1, a2, a3, a4⟩
          obtain ⟨req', b1, -, hle, -, -⟩ := step_le hq hstep
          obtain rfl : req = req' := Option.some.inj (a1.symm.trans b1)
          obtain ⟨eu, ev⟩ := hI.1 q (le_refl q)
          have hbu : absRel req (f.u q) < 2 ^ 1024 := by
            rw [eu]
            exact lt_of_le_of_lt (mul_le_mul_of_nonneg_left hle (abs_nonneg _)) (hm q hq).1
          have hbv : absRel req (f.v q) < 2 ^ 1024 := by
            rw [ev]
            exact lt_of_le_of_lt (mul_le_mul_of_nonneg_left hle (abs_nonneg _)) (hm q hq).2
          obtain ⟨i1, i2, i3, i4⟩ := hid _ _ _ _ _ _ hbu a3
          obtain ⟨j1, j2, j3, j4⟩ := hid _ _ _ _ _ _ hbv a4
          refine ⟨relInv_step hq hI hstep, ?_, ?_⟩
          · simp [VCode.eb]; omega
          · simp [VCode.dq]; omega)
      m m1 ws ⟨fun _ _ => ⟨rfl, rfl⟩, fun _ => ⟨Or.inl rfl, Or.inl rfl⟩⟩ hs
    constructor
    · intro x hx
      obtain ⟨w, hw, hx⟩ := List.mem_flatMap.1 hx
      exact (hall.2 w hw).1 x hx
    · intro x hx
      obtain ⟨w, hw, hx⟩ := List.mem_flatMap.1 hx
      exact (hall.2 w hw).2 x hx

/-! ### C17 -/

/-- Number of a cell in the critical point bitmap as computed by `compute_cp`
(src/sz_compress_cp_preserve_2d.cpp L1300-1326): the lower triangle of grid cell `(i, j)` is
`2*(i*(r2-1) + j)`, the upper one the next. -/
def cellNo (r2 : Nat) (t : Tri) : Int := 2 * ((t.a : Int) * (r2 - 1) + t.b) + if t.up then 1 else 0

/-- `cell_offset` of the relaxed and SZ3 modes (src/sz_compress_cp_preserve_2d.cpp L1384-1386):
relative to `2*(i*(r2-1) + j)`. -/
def cellOffset (r2 : Nat) (k : Nat) : Int :=
  [-2 * ((r2 : Int) - 1) - 1, -2 * ((r2 : Int) - 1) - 2, -1, 0, 1, -2 * ((r2 : Int) - 1)].getD k 0

/-- C17.  For a vertex `(i, j)` of the grid:
1. every in-mesh table row addresses, through the flat offsets, two grid points that form
   with the vertex a triangle of the grid, and the cell number computed from the row is
   the number of that triangle, within the bitmap;
2. every triangle of the grid that contains the vertex is addressed by exactly one row. -/
theorem C17_adjacency (r1 r2 i j : Nat) (hi : i < r1) (hj : j < r2) :
    (∀ k, k < 6 → inMesh r1 r2 i j k = true →
      ∃ (t : Tri) (i0 j0 i1 j1 : Nat), t.inGrid r1 r2 ∧ (i, j) ∈ t.verts ∧
        t.verts.Perm [(i0, j0), (i1, j1), (i, j)] ∧
        i0 < r1 ∧ j0 < r2 ∧ i1 < r1 ∧ j1 < r2 ∧
        ((i * r2 + j : Nat) : Int) + offsets r2 k = (i0 * r2 + j0 : Nat) ∧
        ((i * r2 + j : Nat) : Int) + offsets r2 (k + 1) = (i1 * r2 + j1 : Nat) ∧
        2 * ((i : Int) * (r2 - 1) + j) + cellOffset r2 k = cellNo r2 t ∧
        0 ≤ cellNo r2 t ∧ cellNo r2 t < 2 * ((r1 : Int) - 1) * (r2 - 1)) ∧
    (∀ t : Tri, t.inGrid r1 r2 → (i, j) ∈ t.verts → ∃ k, (k < 6 ∧ inMesh r1 r2 i j k = true ∧
        ∃ i0 j0 i1 j1 : Nat, t.verts.Perm [(i0, j0), (i1, j1), (i, j)] ∧
        ((i * r2 + j : Nat) : Int) + offsets r2 k = (i0 * r2 + j0 : Nat) ∧
        ((i * r2 + j : Nat) : Int) + offsets r2 (k + 1) = (i1 * r2 + j1 : Nat)) ∧
      ∀ k', k' < 6 → inMesh r1 r2 i j k' = true →
        2 * ((i : Int) * (r2 - 1) + j) + cellOffset r2 k' = cellNo r2 t → k' = k) := by
  have hcell : ∀ k, k < 6 → inMesh r1 r2 i j k = true →
      2 * ((i : Int) * (r2 - 1) + j) + cellOffset r2 k = cellNo r2 (triOf i j k) := by
    intro k hk hm
    obtain ⟨hg, h01, h2, h5⟩ := (inMesh_iff r1 r2 i j k hi hj hk).1 hm
    have hk' : k = 0 ∨ k = 1 ∨ k = 2 ∨ k = 3 ∨ k = 4 ∨ k = 5 := by omega
    rcases hk' with rfl | rfl | rfl | rfl | rfl | rfl
    · have := h01 (by omega)
      obtain ⟨i, rfl⟩ : ∃ i', i = i' + 1 := ⟨i - 1, by omega⟩
      obtain ⟨j, rfl⟩ : ∃ j', j = j' + 1 := ⟨j - 1, by omega⟩
      simp [cellOffset, cellNo, triOf]; ring
    · have := h01 (by omega)
      obtain ⟨i, rfl⟩ : ∃ i', i = i' + 1 := ⟨i - 1, by omega⟩
      obtain ⟨j, rfl⟩ : ∃ j', j = j' + 1 := ⟨j - 1, by omega⟩
      simp [cellOffset, cellNo, triOf]; ring
    · have := h2 rfl
      obtain ⟨j, rfl⟩ : ∃ j', j = j' + 1 := ⟨j - 1, by omega⟩
      simp [cellOffset, cellNo, triOf]; ring
    · simp [cellOffset, cellNo, triOf]
    · simp [cellOffset, cellNo, triOf]
    · have := h5 rfl
      obtain ⟨i, rfl⟩ : ∃ i', i = i' + 1 := ⟨i - 1, by omega⟩
      simp [cellOffset, cellNo, triOf]; ring
  have hrange : ∀ t : Tri, t.inGrid r1 r2 → 0 ≤ cellNo r2 t ∧
      cellNo r2 t < 2 * ((r1 : Int) - 1) * (r2 - 1) := by
    intro t ht
    obtain ⟨a, b, up⟩ := t
    unfold Tri.inGrid at ht
    simp only at ht
    obtain ⟨c, hc⟩ : ∃ c : Nat, r2 = c + 1 := ⟨r2 - 1, by omega⟩
    subst hc
    have e : ((c + 1 : Nat) : Int) - 1 = c := by push_cast; ring
    have h1 : (a : Int) * c + c ≤ ((r1 : Int) - 1) * c := by
      have : ((a : Int) + 1) * c ≤ ((r1 : Int) - 1) * c :=
        mul_le_mul_of_nonneg_right (by omega) (by omega)
      linarith
    have h2 : 0 ≤ (a : Int) * c := by positivity
    have h3 : (2 * ((r1 : Int) - 1)) * c = 2 * (((r1 : Int) - 1) * c) := by ring
    unfold cellNo
    simp only [e]
    rw [h3]
    constructor <;> split <;> omega
  have hinj : ∀ t t' : Tri, t.inGrid r1 r2 → t'.inGrid r1 r2 → cellNo r2 t = cellNo r2 t' →
      t = t' := by
    intro t t' ht ht' he
    obtain ⟨a, b, up⟩ := t
    obtain ⟨a', b', up'⟩ := t'
    unfold Tri.inGrid at ht ht'
    simp only at ht ht'
    obtain ⟨c, hc⟩ : ∃ c : Nat, r2 = c + 1 := ⟨r2 - 1, by omega⟩
    subst hc
    have e : ((c + 1 : Nat) : Int) - 1 = c := by push_cast; ring
    simp only [cellNo, e] at he
    have hup : up = up' := by
      cases up <;> cases up' <;> simp at he ⊢ <;> omega
    subst hup
    have h2 : (a * c + b : Nat) = a' * c + b' := by
      have : ((a : Int) * c + b) = (a' : Int) * c + b' := by omega
      exact_mod_cast this
    obtain ⟨e1, e2⟩ := flat_inj (by omega) (by omega) h2
    rw [e1, e2]
  constructor
  · intro k hk hm
    obtain ⟨i0, j0, i1, j1, h1, h2, h3, h4, -, -, -, -, h5, h6, hg, hp⟩ :=
      neighbours r1 r2 i j k hi hj hk hm
    refine ⟨triOf i j k, i0, j0, i1, j1, hg, ?_, hp, h1, h2, h3, h4, h5, h6, hcell k hk hm,
      hrange _ hg⟩
    rw [hp.mem_iff]; simp
  · intro t ht hv
    obtain ⟨k, hk, hm, he, -⟩ := incident_unique r1 r2 i j t hi hj ht hv
    obtain ⟨i0, j0, i1, j1, -, -, -, -, -, -, -, -, h5, h6, -, hp⟩ :=
      neighbours r1 r2 i j k hi hj hk hm
    refine ⟨k, ⟨hk, hm, i0, j0, i1, j1, he ▸ hp, h5, h6⟩, fun k' hk' hm' hc' => ?_⟩
    rw [hcell k' hk' hm'] at hc'
    have hg' := ((inMesh_iff r1 r2 i j k' hi hj hk').1 hm').1
    have ht' := hinj _ _ hg' ht hc'
    obtain ⟨k0, -, -, -, hu⟩ := incident_unique r1 r2 i j t hi hj ht hv
    rw [hu k' hk' hm' ht', hu k hk hm he]

/-- An inner vertex of a 3 by 3 grid and the six triangles around it. -/
example : ∀ t : Tri, t.inGrid 3 3 → (1, 1) ∈ t.verts →
    ∃ k, k < 6 ∧ inMesh 3 3 1 1 k = true := by
  intro t ht hv
  obtain ⟨k, ⟨h1, h2, -⟩, -⟩ := (C17_adjacency 3 3 1 1 (by omega) (by omega)).2 t ht hv
  exact ⟨k, h1, h2⟩

/-! ### C41 -/

/-- C41.  If the bound of some triangle at a vertex is NaN (the only unguarded division, by
`2*a`, has a zero denominator), the vertex is stored losslessly; and at all other vertices
the final bound is a number not exceeding the user's bound nor the bound of any incident
triangle. -/
theorem C41_nan_vertex_lossless (r1 r2 : Nat) (maxEb : ℝ) (f : Field ℝ) (i j : Nat)
    (hi : i < r1) (hj : j < r2) :
    ((∃ k, k < 6 ∧ inMesh r1 r2 i j k = true ∧
      deriveK k (f.u (nbr r2 (i * r2 + j) k)) (f.u (nbr r2 (i * r2 + j) (k + 1)))
        (f.u (i * r2 + j)) (f.v (nbr r2 (i * r2 + j) k)) (f.v (nbr r2 (i * r2 + j) (k + 1)))
        (f.v (i * r2 + j)) = none) →
      encVertex realOps parOnline r2 absRel (boundOnline r1 r2 maxEb) f (i * r2 + j) =
        some (f, .lossless (f.u (i * r2 + j)) (f.v (i * r2 + j)))) ∧
    (∀ x y, Step realOps parOnline r2 absRel (boundOnline r1 r2 maxEb) f (i * r2 + j) x y →
      ∃ req, boundOnline r1 r2 maxEb f (i * r2 + j) = some req ∧ req ≤ maxEb ∧
        ∀ k, k < 6 → inMesh r1 r2 i j k = true → ∃ E,
          deriveK k (f.u (nbr r2 (i * r2 + j) k)) (f.u (nbr r2 (i * r2 + j) (k + 1)))
            (f.u (i * r2 + j)) (f.v (nbr r2 (i * r2 + j) k))
            (f.v (nbr r2 (i * r2 + j) (k + 1))) (f.v (i * r2 + j)) = some E ∧ req ≤ E) := by
  constructor
  · rintro ⟨k, hk, hm, hnone⟩
    have hz : f.u (i * r2 + j) = 0 ∨ f.v (i * r2 + j) = 0 := by
      by_contra hc
      push Not at hc
      exact (deriveK_ne_none hk hc.1 hc.2).1 hnone
    have hsome : (encVertex realOps parOnline r2 absRel (boundOnline r1 r2 maxEb) f
        (i * r2 + j)).isSome := by
      have hb := requiredLoop_defined r1 r2 minfX deriveK f i j [0, 1, 2, 3, 4, 5]
        (by simp) (some maxEb) hi hj
      obtain ⟨req, hreq⟩ := Option.isSome_iff_exists.1 hb
      have hreq' : boundOnline r1 r2 maxEb f (i * r2 + j) = some (req.getD 0) := by
        unfold boundOnline requiredEb; rw [hreq]; rfl
      unfold encVertex
      rw [hreq']
      simp only
      split
      · split <;> rfl
      · rfl
    obtain ⟨⟨f', w⟩, hw⟩ := Option.isSome_iff_exists.1 hsome
    rcases encVertex_cases realOps parOnline r2 absRel _ f f' _ w hw with ⟨rfl, rfl⟩ | hc
    · exact hw
    · exfalso
      obtain ⟨req, e0, q0, x, e1, q1, y, a1, a2, a3, a4, -, -⟩ := hc
      obtain ⟨_, -, -, hx, hy⟩ := step_rel (r1 := r1) (maxEb := maxEb)
        ⟨req, e0, q0, e1, q1, a1, a2, a3, a4⟩
      rcases hz with h0 | h0
      · rw [h0] at hx; simp at hx; exact absurd hx (not_lt.2 (abs_nonneg _))
      · rw [h0] at hy; simp at hy; exact absurd hy (not_lt.2 (abs_nonneg _))
  · intro x y hs
    obtain ⟨req, hb, -, hx, hy⟩ := step_rel hs
    have hu0 : f.u (i * r2 + j) ≠ 0 := by
      intro h0; rw [h0] at hx; simp at hx; exact absurd hx (not_lt.2 (abs_nonneg _))
    have hv0 : f.v (i * r2 + j) ≠ 0 := by
      intro h0; rw [h0] at hy; simp at hy; exact absurd hy (not_lt.2 (abs_nonneg _))
    obtain ⟨h1, h2⟩ := bound_le hi hj hb hu0 hv0
    exact ⟨req, hb, h1, h2⟩

end CpSZ.Online2D

/-! ### Concrete cases -/

namespace CpSZ.Online2D
open Mesh2D

/-- Parameters for the toy arithmetic. -/
def toyPar : Par (BitVec 64) := ⟨2, 1#64, 1#64, 64, 32⟩

def toyField : Field (BitVec 64) :=
  ⟨fun q => [100#64, 103#64, 99#64, 107#64].getD q 0#64,
   fun q => [50#64, 53#64, 7#64, 812#64].getD q 0#64⟩

/-- The hypotheses of C13 hold for a field on a 2 by 2 grid; three vertices are lossy and
one, whose `v` prediction error is too large, is stored losslessly. -/
example : ∃ m' s, compress toyOps toyPar 2 2 (fun req _ => req)
      (requiredEb 2 2 8#64 (fun a _ => a) (fun _ _ _ _ _ _ _ => 8#64)) toyField = some (m', s) ∧
    s.eb = [3, 3, 3, 3, 3, 3, 0, 0] ∧ s.dq = [38, 35, 32, 32, 32, 29, 32, 32] ∧
    s.un = [107#64, 812#64] ∧
    m'.u 0 = 96#64 ∧
    ∃ bs, compressBytes toyOps toyCodec toyCodec ⟨fun _ => true, 0#64, 0, fun _ => 0#8⟩
      ⟨fun _ => true, 0#64, 0, fun _ => 0#8⟩ toyPar 2 2 (fun req _ => req)
      (requiredEb 2 2 8#64 (fun a _ => a) (fun _ _ _ _ _ _ _ => 8#64)) toyField = some (m', bs) ∧
      ∀ rest m0, ∃ d, decompressBytes toyOps toyCodec toyCodec 1#64 2 2 m0 (bs ++ rest) = some d ∧
        ∀ q, q < 2 * 2 → d.u q = m'.u q ∧ d.v q = m'.v q := by
  obtain ⟨m', s, h, l1, l2⟩ := C13_compress_defined toyOps toyPar 2 2 (fun req _ => req) 8#64
    (fun a _ => a) (fun _ _ _ _ _ _ _ => 8#64) toyField
  have hv : (compress toyOps toyPar 2 2 (fun req _ => req)
      (requiredEb 2 2 8#64 (fun a _ => a) (fun _ _ _ _ _ _ _ => 8#64)) toyField).map
      (fun r => (r.2.eb, r.2.dq, r.2.un, r.1.u 0)) =
      some ([3, 3, 3, 3, 3, 3, 0, 0], [38, 35, 32, 32, 32, 29, 32, 32], [107#64, 812#64],
        96#64) := by
    decide +kernel
  rw [h] at hv
  simp only [Option.map_some, Option.some.injEq, Prod.mk.injEq] at hv
  obtain ⟨h1, h2, h3, h4⟩ := hv
  refine ⟨m', s, h, h1, h2, h3, h4, ?_⟩
  apply C13_online_roundtrip toyOps toyCodec toyCodec _ _ toyPar 2 2 _ _ toyField m' s h
    (by decide) (by decide) (by decide)
  · rw [h1]
    exact fits_of_short _ _ _ (by decide) (by decide) (by decide) (by decide)
  · rw [h2]
    exact fits_of_short _ _ _ (by decide) (by decide) (by decide) (by decide)

/-- A triangle with a saddle whose bound is 1. -/
example : deriveK 3 1 0 (-1) 0 1 (-1) = some 1 := by
  norm_num [deriveK, deriveOnline, keepType, keepPosition, keepSign, minf, minfX, invC, tab, tx, ty]

/-- A field on a 2 by 2 grid with a critical point in the lower triangle; it survives
compression with a bound of 10 percent. -/
example : ∃ d : Field ℝ, (∃ m' s, compressRel 2 2 (1 / 10)
      ⟨fun q => [-1, 7, 1, 0].getD q 0, fun q => [-1, 7, 0, 1].getD q 0⟩ = some (m', s) ∧
      decompressRel 2 2 ⟨fun _ => 9, fun _ => 9⟩ s = some d) ∧
    (⟨0, 0, false⟩ : Tri).hasCP 2 d := by
  obtain ⟨m', s, d, h1, h2⟩ := compressRel_defined 2 2 (1 / 10)
    ⟨fun q => [-1, 7, 1, 0].getD q 0, fun q => [-1, 7, 0, 1].getD q 0⟩ ⟨fun _ => 9, fun _ => 9⟩
  refine ⟨d, ⟨m', s, h1, h2⟩, ?_⟩
  rw [C15_critical_points_preserved 2 2 (1 / 10) _ m' _ d s h1 h2 ⟨0, 0, false⟩
    (by simp [Tri.inGrid])]
  refine ⟨1 / 3, 1 / 3, 1 / 3, by norm_num, by norm_num, by norm_num, by norm_num, ?_, ?_⟩ <;>
    simp [Tri.vec, Tri.verts, gridVal]

end CpSZ.Online2D
