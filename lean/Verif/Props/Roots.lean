import Verif.Offline3D.Exceeds
import Verif.Props.Offline3D
/-
Property C68: the approximate roots and their effect on the 3D offline log mode.
-/

namespace CpSZ.Offline3D
open ThreeD VMode Mesh3D Offline2D Roots

/-- C68, cube root.  For every positive normal `float` the result of `acbrt1` is within
`-4·10^-7` and `+1.7·10^-6` (relatively) of the cube root, for every `float` arithmetic of relative
error `2^-24`. -/
theorem C68_cbrt (r : ℝ → ℝ)
    (hr : ∀ x, (2 : ℝ) ^ (-126 : ℤ) ≤ x → x ≤ (2 : ℝ) ^ (127 : ℤ) → |r x - x| ≤ (2 : ℝ) ^ (-24 : ℤ) * x)
    (E m : ℕ) (hE : 1 ≤ E) (hE2 : E ≤ 254) (hm : m < 2 ^ 23) (s : ℝ) (hs : 0 < s)
    (h : s ^ 3 = ((2 ^ 23 + m : ℕ) : ℝ) * (2 : ℝ) ^ ((E : ℤ) - 150)) :
    (1 - 4 / 10 ^ 7) * s ≤ acbrt1 r (2 ^ 23 * E + m) ∧
    acbrt1 r (2 ^ 23 * E + m) ≤ (1 + 17 / 10 ^ 7) * s := by
  refine acbrt1_near hr hE hE2 hm hs ?_
  have := valF_of (E := E) (n := 2 ^ 23 + m) hE (by omega) (by omega)
  rw [show 2 ^ 23 + m - 2 ^ 23 = m by omega] at this
  rw [h, this]

example : (1 - 4 / 10 ^ 7) * 2 ≤ acbrt1 (fl nearest 24) (2 ^ 23 * 130 + 0) :=
  (C68_cbrt (fl nearest 24) (fl_binary32 nearest_isNearest).fr 130 0 (by norm_num) (by norm_num)
    (by norm_num) 2 (by norm_num) (by norm_num)).1

/-- C68, square root: within `-2·10^-7` and `+5·10^-7`. -/
theorem C68_sqrt (r : ℝ → ℝ)
    (hr : ∀ x, (2 : ℝ) ^ (-126 : ℤ) ≤ x → x ≤ (2 : ℝ) ^ (127 : ℤ) → |r x - x| ≤ (2 : ℝ) ^ (-24 : ℤ) * x)
    (E m : ℕ) (hE : 1 ≤ E) (hE2 : E ≤ 254) (hm : m < 2 ^ 23) (s : ℝ) (hs : 0 < s)
    (h : s ^ 2 = ((2 ^ 23 + m : ℕ) : ℝ) * (2 : ℝ) ^ ((E : ℤ) - 150)) :
    (1 - 2 / 10 ^ 7) * s ≤ asqrt1 r (2 ^ 23 * E + m) ∧
    asqrt1 r (2 ^ 23 * E + m) ≤ (1 + 5 / 10 ^ 7) * s := by
  refine asqrt1_near hr hE hE2 hm hs ?_
  have := valF_of (E := E) (n := 2 ^ 23 + m) hE (by omega) (by omega)
  rw [show 2 ^ 23 + m - 2 ^ 23 = m by omega] at this
  rw [h, this]

example : asqrt1 (fl nearest 24) (2 ^ 23 * 129 + 0) ≤ (1 + 5 / 10 ^ 7) * 2 :=
  (C68_sqrt (fl nearest 24) (fl_binary32 nearest_isNearest).fr 129 0 (by norm_num) (by norm_num)
    (by norm_num) 2 (by norm_num) (by norm_num)).2

/-- C68, the bound of a tetrahedron.  Computed with `float` sums and approximate roots it is at
most 1, at most `2·10^-6` above the bound with exact roots, and zero or less when there is a
critical point. -/
theorem C68_bound (r : ℝ → ℝ) (hr : IsBinary32 r) (a b c d : V3) :
    offlineEbA r a b c d ≤ 1 ∧
    (ThreeD.HasCP [a, b, c, d] → offlineEbA r a b c d ≤ 0) ∧
    ((∀ x ∈ [a.u, a.v, a.w, b.u, b.v, b.w, c.u, c.v, c.w, d.u, d.v, d.w],
        x = 0 ∨ (2 : ℝ) ^ (-41 : ℤ) ≤ |x| ∧ |x| ≤ (2 : ℝ) ^ (39 : ℤ)) →
      offlineEbA r a b c d ≤ offlineEb3 a b c d + 2 / 10 ^ 6) := by
  refine ⟨offlineEbA_le_one hr a b c d, offlineEbA_cp hr, fun hx => offlineEbA_le hr ?_⟩
  exact sumsInRange ⟨hx _ (by simp), hx _ (by simp), hx _ (by simp)⟩
    ⟨hx _ (by simp), hx _ (by simp), hx _ (by simp)⟩ ⟨hx _ (by simp), hx _ (by simp), hx _ (by simp)⟩
    ⟨hx _ (by simp), hx _ (by simp), hx _ (by simp)⟩

/-- C68, a run.  A pass with bounds computed by `float` sums and approximate roots, followed by
decompression, yields a field in which every tetrahedron with a critical point is reproduced
exactly, every tetrahedron whose own bound is at least `2·10^-6` above the bounds in use at its
corners keeps its status, and every value keeps its sign and is exact or within the user's
relative bound. -/
theorem C68_run (r : ℝ → ℝ) (hr : IsBinary32 r) (r1 r2 r3 : Nat) (maxEb : ℝ)
    (hs : maxEb ≤ 1 ∨ (2 ≤ r1 ∧ 2 ≤ r2 ∧ 2 ≤ r3)) (data : Arr ℝ)
    (hm : ∀ c q, c < 3 → q < r1 * r2 * r3 →
      data c q = 0 ∨ (2 : ℝ) ^ (-41 : ℤ) ≤ |data c q| ∧ |data c q| ≤ (2 : ℝ) ^ (39 : ℤ))
    (s' : State ℝ) (str : Streams ℝ) (m0 : Arr ℝ)
    (h : compressOffA r r1 r2 r3 maxEb data = some (s', str)) :
    ∃ eb d, ebSweep3 realD (onCols (offlineEbA r)) r1 r2 r3 maxEb data = some eb ∧
      decompressLog3 r1 r2 r3 (signMaps realL 3 (r1 * r2 * r3) data) m0 str = some d ∧
      (∀ t : Tet, t.inGrid r1 r2 r3 → cellCP data (t.verts r2 r3) →
        ∀ q ∈ t.verts r2 r3, ∀ c, c < 3 → d c q = data c q) ∧
      (∀ t : Tet, t.inGrid r1 r2 r3 → ∀ q0 q1 q2 q3, (t.verts r2 r3).Perm [q0, q1, q2, q3] →
        (∀ q ∈ t.verts r2 r3, eb q + 2 / 10 ^ 6 ≤
          offlineEbA r (vec data q0) (vec data q1) (vec data q2) (vec data q3)) →
        (cellCP d (t.verts r2 r3) ↔ cellCP data (t.verts r2 r3))) ∧
      (∀ c q, c < 3 → q < r1 * r2 * r3 → SignType.sign (d c q) = SignType.sign (data c q) ∧
        (d c q = data c q ∨ |d c q - data c q| < |data c q| * maxEb)) := by
  unfold compressOffA at h
  split at h
  · cases h
  · rename_i eb heb
    have h98 : ∀ c q, c < 3 → q < r1 * r2 * r3 → data c q = 0 ∨ (2 : ℝ) ^ (-98 : ℤ) ≤ |data c q| :=
      fun c q hc hq => (hm c q hc hq).imp_right fun g =>
        (zpow_le_zpow_right₀ (by norm_num) (by norm_num)).trans g.1
    obtain ⟨d, hd, hn, hsgn⟩ := run_near_eb (ebA_le_one hr heb hs) h98 h m0
    refine ⟨eb, d, heb, hd, fun t ht hcp q hq c hc => ?_, fun t ht q0 q1 q2 q3 hp hle => ?_,
      fun c q hc hq => ⟨hsgn c q hc hq, ?_⟩⟩
    · obtain ⟨q0, q1, q2, q3, hp, hle⟩ := (ebSweep3_le heb).2 t ht
      have c1 := (hasCP_perm (hp.map (vec data))).1 hcp
      exact near_nonpos (hn c q hc (tet_lt ht hq)) ((hle q hq).trans (offlineEbA_cp hr c1))
    · exact cell_keptA hr hm hn t ht hp fun q hq => by linarith [hle q hq]
    · rcases hn c q hc hq with e | e
      · exact Or.inl e
      · refine Or.inr (e.trans_le ?_)
        rw [mul_comm]
        exact mul_le_mul_of_nonneg_left ((ebSweep3_le heb).1 q) (abs_nonneg _)

/-- C68, why a margin is needed: in every `float` arithmetic the bound computed for the sums 2 and
13/8 exceeds the bound with exact cube roots. -/
theorem C68_exceeds (r : ℝ → ℝ) (hr : IsBinary32 r) : keep3 2 (13 / 8) < keepA r 2 (13 / 8) :=
  keepA_exceeds hr

example : keep3 2 (13 / 8) < keepA (fl nearest 24) 2 (13 / 8) :=
  C68_exceeds _ (fl_binary32 nearest_isNearest)

/-- Every field has a run; here on a cube with a critical point. -/
example (m0 : Arr ℝ) : ∃ str d, decompressLog3 2 2 2
    (signMaps realL 3 8 (fun c q => if c = q then 1 else -1)) m0 str = some d ∧
    ∀ c q, c < 3 → q < 8 → SignType.sign (d c q) = SignType.sign (if c = q then (1 : ℝ) else -1) := by
  obtain ⟨s', str, h⟩ := compressOffA_defined (fl nearest 24) 2 2 2 (1 / 100)
    (fun c q => if c = q then 1 else -1)
  obtain ⟨-, d, -, hd, -, -, hs⟩ := C68_run (fl nearest 24) (fl_binary32 nearest_isNearest) 2 2 2 (1 / 100)
    (Or.inl (by norm_num)) _ (fun c q _ _ => Or.inr (by
      have : |if c = q then (1 : ℝ) else -1| = 1 := by split <;> norm_num
      rw [this]; norm_num)) s' str m0 h
  exact ⟨str, d, hd, fun c q hc hq => (hs c q hc hq).1⟩

end CpSZ.Offline3D
