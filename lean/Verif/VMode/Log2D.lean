import Verif.VMode.Real
import Verif.Props.Online2D
/-
`sz_compress_cp_preserve_2d_online_log` (src/sz_compress_cp_preserve_2d.cpp L773-979) and its
decompressor (src/sz_decompress_cp_preserve_2d.cpp L175-252).
-/

namespace CpSZ.VMode
open Mesh2D

variable {T D : Type}

/-- Constants and functions of the 2D log mode (src/sz_compress_cp_preserve_2d.cpp L799-802,
src/sz_decompress_cp_preserve_2d.cpp L181-204); `base` and `radius` are stored in the stream, the
threshold is `FLT_EPSILON` on both sides. -/
def mode2 (L : LOps T D) (logBase thr : D) (r2 : Nat) (base radius : Int) : Mode T D where
  O := L.toOps
  base := base
  logBase := logBase
  thr := thr
  capacity := 2 * radius
  radius := radius
  K := 2
  pred := Online2D.lorenzo L.toOps r2
  fwd := logFwd L
  fwdDec := logFwdDec L
  back := logBack L
  pad := true
  isEsc := fun e => e == 0

/-- The two arrays of a field.  (src/sz_compress_cp_preserve_2d.cpp L777-792.) -/
def arr2 (m : Online2D.Field T) : Arr T := fun c q => if c = 0 then m.u q else m.v q

/-- The two arrays as a field (src/sz_compress_cp_preserve_2d.cpp L777-792). -/
def field2 (f : Arr T) : Online2D.Field T := ⟨f 0, f 1⟩

/-- `if((required_eb > 0) && (*cur_U_pos != 0) && (*cur_V_pos != 0))`, `abs_eb = log2(1 +
required_eb)` (src/sz_compress_cp_preserve_2d.cpp L886-890). -/
def plan2 (L : LOps T D) (bound : Online2D.Field T → Nat → Option D) (s : State T) (p : Nat) :
    Option (Plan D) :=
  match bound (field2 s.val) p with
  | none => none
  | some req =>
    some (if L.lt (L.ofInt 0) req && !L.isZero (s.val 0 p) && !L.isZero (s.val 1 p) then
      .try (L.log2 (L.add (L.ofInt 1) req)) 0 else .lossless 0)

theorem plan2_cases (L : LOps T D) (bound : Online2D.Field T → Nat → Option D) (s : State T)
    (p : Nat) (r : Plan D) (h : plan2 L bound s p = some r) :
    r = .lossless 0 ∨ ∃ req, bound (field2 s.val) p = some req ∧ L.lt (L.ofInt 0) req = true ∧
      L.isZero (s.val 0 p) = false ∧ L.isZero (s.val 1 p) = false ∧
      r = .try (L.log2 (L.add (L.ofInt 1) req)) 0 := by
  unfold plan2 at h
  split at h
  · cases h
  · rename_i req hreq
    simp only [Option.some.injEq] at h
    split at h
    · rename_i hc
      simp only [Bool.and_eq_true, Bool.not_eq_true'] at hc
      exact Or.inr ⟨req, hreq, hc.1.1, hc.1.2, hc.2, h.symm⟩
    · exact Or.inl h.symm

theorem good2 (L : LOps T D) (H : LogLaws L) (logBase thr : D) (r2 : Nat) (base radius : Int)
    (bound : Online2D.Field T → Nat → Option D) (n : Nat) :
    Good (mode2 L logBase thr r2 base radius) (plan2 L bound) n where
  pred_local := fun f g p h => Online2D.lorenzo_congr L.toOps r2 p f g h
  fwd_eq := logFwd_eq H
  esc_lossless := fun s p id h => by
    rcases plan2_cases L bound s p _ h with h | ⟨_, _, _, _, _, h⟩
    · cases h; rfl
    · cases h
  esc_try := fun s p a id h => by
    rcases plan2_cases L bound s p _ h with h | ⟨_, _, _, _, _, h⟩
    · cases h
    · cases h; rfl
  coded := fun s p a id _ _ hpos => by
    simp only [mode2] at hpos ⊢
    simp only [beq_eq_false_iff_ne, ne_eq]
    omega

/-- The compressor is defined if the bound is. -/
theorem compress_defined (M : Mode T D) (plan : State T → Nat → Option (Plan D)) (n : Nat)
    (data : Arr T) (h : ∀ s p, p < n → (plan s p).isSome) :
    ∃ s' str, compress M plan n data = some (s', str) := by
  have hd : ∀ q s, 0 ≤ q → q < 0 + n → (encVertex M plan s q).isSome := by
    intro q s _ hq
    obtain ⟨r, hr⟩ := Option.isSome_iff_exists.1 (h s q (by omega))
    unfold encVertex
    rw [hr]
    cases r with
    | lossless id => rfl
    | «try» a id =>
      simp only
      split
      · split <;> rfl
      · rfl
  obtain ⟨⟨s', ws⟩, hs⟩ := Option.isSome_iff_exists.1
    (scanEnc_defined (encVertex M plan) n 0 hd (initState M data))
  exact ⟨s', ⟨ws.flatMap VCode.eb, ws.flatMap (VCode.dq M), ws.flatMap VCode.un⟩,
    by simp only [compress, hs]⟩

theorem bound_defined {r1 r2 : Nat} (maxEb : D) (minf : D → D → D)
    (derive : Nat → T → T → T → T → T → T → D) (m : Online2D.Field T) {p : Nat}
    (hp : p < r1 * r2) : (requiredEb r1 r2 maxEb minf derive m p).isSome := by
  obtain ⟨hi, hj, hpe⟩ := Online2D.flat_split hp
  have hb := requiredLoop_defined r1 r2 minf derive m (p / r2) (p % r2) [0, 1, 2, 3, 4, 5]
    (by simp) maxEb hi hj
  rw [hpe] at hb
  exact hb

/-! ### Exact arithmetic -/

/-- The 2D log mode in exact arithmetic: base 2, threshold `FLT_EPSILON = 2^-23`, capacity
65536.  (src/sz_compress_cp_preserve_2d.cpp L799-802.) -/
noncomputable def realMode2 (r2 : Nat) : Mode ℝ ℝ :=
  mode2 realL (Real.logb 2 2) (1 / 2 ^ 23) r2 2 32768

/-- The compressor in exact arithmetic (src/sz_compress_cp_preserve_2d.cpp L773-979). -/
noncomputable def compressLog (r1 r2 : Nat) (maxEb : ℝ) (m : Online2D.Field ℝ) :
    Option (State ℝ × Streams ℝ) :=
  compress (realMode2 r2) (plan2 realL (Online2D.boundOnline r1 r2 maxEb)) (r1 * r2) (arr2 m)

/-- Both passes of the decompressor with the sign bitmaps of `m`.
(src/sz_decompress_cp_preserve_2d.cpp L175-252.) -/
noncomputable def decompressLog (r1 r2 : Nat) (maps : List (List Byte)) (m0 : Arr ℝ)
    (s : Streams ℝ) : Option (Arr ℝ) :=
  decompress (realMode2 r2) (logFin realL (mapAt maps)) (r1 * r2) m0 s

theorem compressLog_defined (r1 r2 : Nat) (maxEb : ℝ) (m : Online2D.Field ℝ) :
    ∃ s' str, compressLog r1 r2 maxEb m = some (s', str) := by
  apply compress_defined
  intro s p hp
  have hb := bound_defined (r1 := r1) (r2 := r2) (some maxEb) minfX Online2D.deriveK
    (field2 s.val) hp
  obtain ⟨b, hb⟩ := Option.isSome_iff_exists.1 hb
  have : Online2D.boundOnline r1 r2 maxEb (field2 s.val) p = some (b.getD 0) := by
    unfold Online2D.boundOnline; rw [hb]; rfl
  unfold plan2
  rw [this]
  rfl

/-- One coded vertex in exact arithmetic. -/
theorem step_log {r1 r2 : Nat} {maxEb : ℝ} {m : Online2D.Field ℝ} {s s' : State ℝ} {p : Nat}
    {e : Int} {qs : List Int} (hp : p < r1 * r2)
    (h : Coded (realMode2 r2) (plan2 realL (Online2D.boundOnline r1 r2 maxEb)) s s' p e qs)
    (hl : ∀ c q, p ≤ q → s.cod c q = (realMode2 r2).fwd (arr2 m c q) ∧ s.val c q = arr2 m c q) :
    ∃ req, Online2D.boundOnline r1 r2 maxEb (field2 s.val) p = some req ∧ 0 < req ∧
      req ≤ maxEb ∧
      (∀ c, c < 2 → s.val c p ≠ 0 ∧ |s'.val c p - s.val c p| < |s.val c p| * req ∧
        0 < s.val c p * s'.val c p ∧
        abs (s'.cod c p - Real.logb 2 |s.val c p|) < Real.logb 2 (1 + req)) ∧
      field2 s'.val = (field2 s.val).set p (s'.val 0 p) (s'.val 1 p) := by
  obtain ⟨a, id, h1, -, h2, h3⟩ := h.real rfl (by norm_num [realMode2, mode2]) (by norm_num [realMode2, mode2])
    (by norm_num [realMode2, mode2])
  rcases plan2_cases realL _ s p _ h1 with h0 | ⟨req, hb, hpos, hu, hv, h0⟩
  · cases h0
  · simp only [Plan.try.injEq] at h0
    obtain ⟨ha, -⟩ := h0
    have hpos : 0 < req := by
      have : ((0 : Int) : ℝ) < req := of_decide_eq_true hpos
      simpa using this
    have ha : a = Real.logb 2 (1 + req) := by
      rw [ha]; simp only [realL, realOps, realD]; push_cast; rfl
    have hu : s.val 0 p ≠ 0 := of_decide_eq_false hu
    have hv : s.val 1 p ≠ 0 := of_decide_eq_false hv
    obtain ⟨hi, hj, hpe⟩ := Online2D.flat_split hp
    have hle : req ≤ maxEb := (Online2D.bound_le (f := field2 s.val) hi hj
      (by rw [hpe]; exact hb) (by rw [hpe]; exact hu) (by rw [hpe]; exact hv)).1
    refine ⟨req, hb, hpos, hle, fun c hc => ?_, ?_⟩
    · have hne : s.val c p ≠ 0 := by
        have : c = 0 ∨ c = 1 := by omega
        rcases this with rfl | rfl
        · exact hu
        · exact hv
      obtain ⟨k1, k2⟩ := h2 c hc
      have hcod : s.cod c p = Real.logb 2 |s.val c p| := by
        rw [(hl c p (le_refl p)).1, (hl c p (le_refl p)).2]
        apply logFwd_real
        rw [← (hl c p (le_refl p)).2]; exact hne
      rw [hcod, ha] at k1
      obtain ⟨b1, b2⟩ := logBack_real hne hpos k1
      have hk2 : s'.val c p = logBack realL (s.val c p) (s'.cod c p) := k2
      rw [hk2]
      exact ⟨hne, b1, b2, k1⟩
    · have : ∀ c q, s'.val c q = if q = p then s'.val c p else s.val c q := by
        intro c q
        by_cases hq : q = p
        · subst hq; simp
        · simp [hq, (h3 c q hq).2]
      unfold field2 Online2D.Field.set Online2D.setAt
      congr 1 <;> funext q <;> exact this _ q

/-- What the sweep maintains. -/
structure LogInv (r1 r2 : Nat) (maxEb : ℝ) (m : Online2D.Field ℝ) (p : Nat) (s : State ℝ) :
    Prop where
  later : ∀ c q, p ≤ q → s.val c q = arr2 m c q
  err : ∀ c q, c < 2 → s.val c q = arr2 m c q ∨
    (|s.val c q - arr2 m c q| < |arr2 m c q| * maxEb ∧ 0 < arr2 m c q * s.val c q)
  cod : ∀ c q, c < 2 → arr2 m c q = 0 ∨
    abs (s.cod c q - Real.logb 2 |arr2 m c q|) < Real.logb 2 (1 + maxEb) ∨
    s.cod c q = Real.logb 2 |arr2 m c q|
  tri : ∀ t : Tri, t.inGrid r1 r2 → (t.hasCP r2 m ↔ t.hasCP r2 (field2 s.val)) ∧
      (t.hasCP r2 m → ∀ J J', t.isJac r2 m J → t.isJac r2 (field2 s.val) J' →
        Online2D.SameType J J')

theorem logInv_final (r1 r2 : Nat) (maxEb : ℝ) (m : Online2D.Field ℝ) (s' : State ℝ)
    (str : Streams ℝ) (h : compressLog r1 r2 maxEb m = some (s', str)) :
    LogInv r1 r2 maxEb m (r1 * r2) s' := by
  refine compress_inv _ _ _ _ s' str h (LogInv r1 r2 maxEb m) ?_ ?_ ?_
  · refine ⟨fun _ _ _ => rfl, fun _ _ _ => Or.inl rfl, fun c q _ => ?_, fun t ht => ?_⟩
    · by_cases h0 : arr2 m c q = 0
      · exact Or.inl h0
      · right; right
        exact logFwd_real h0
    · have : field2 (initState (realMode2 r2) (arr2 m)).val = m := rfl
      rw [this]
      refine ⟨Iff.rfl, fun _ J J' hJ hJ' => ?_⟩
      obtain rfl := Online2D.isJac_unique ht hJ hJ'
      exact ⟨rfl, rfl, fun _ => rfl, rfl⟩
  · intro p s _ hI
    exact ⟨fun c q hq => hI.later c q (by omega), hI.err, hI.cod, hI.tri⟩
  · intro p s s1 e qs hp hI hc hl
    obtain ⟨req, hb, hpos, hle, hcomp, hset⟩ := step_log hp hc hl
    obtain ⟨_, _, _, _, _, hother⟩ := hc.real rfl (by norm_num [realMode2, mode2]) (by norm_num [realMode2, mode2])
      (by norm_num [realMode2, mode2])
    refine ⟨fun c q hq => ?_, fun c q hc2 => ?_, fun c q hc2 => ?_, fun t ht => ?_⟩
    · rw [(hother c q (by omega)).2]; exact hI.later c q (by omega)
    · by_cases hq : q = p
      · subst hq
        obtain ⟨-, k1, k2, -⟩ := hcomp c hc2
        rw [hI.later c q (le_refl q)] at k1 k2
        exact Or.inr ⟨lt_of_lt_of_le k1 (mul_le_mul_of_nonneg_left hle (abs_nonneg _)), k2⟩
      · rw [(hother c q hq).2]; exact hI.err c q hc2
    · by_cases hq : q = p
      · subst hq
        obtain ⟨-, -, -, k3⟩ := hcomp c hc2
        rw [hI.later c q (le_refl q)] at k3
        refine Or.inr (Or.inl (lt_of_lt_of_le k3 ?_))
        exact Real.logb_le_logb_of_le (by norm_num) (by linarith) (by linarith)
      · rw [(hother c q hq).1]; exact hI.cod c q hc2
    · rw [hset]
      obtain ⟨a1, a2⟩ := hI.tri t ht
      obtain ⟨-, u1, -, -⟩ := hcomp 0 (by omega)
      obtain ⟨-, v1, -, -⟩ := hcomp 1 (by omega)
      obtain ⟨b1, b2⟩ := Online2D.step_tri_of (f := field2 s.val) hp ⟨req, hb, hpos, u1, v1⟩ t ht
      refine ⟨a1.trans b1, fun hcp J J' hJ hJ' => ?_⟩
      obtain ⟨K, hK⟩ := exists_isJac r1 r2 t ht (field2 s.val)
      exact (a2 hcp J K hJ hK).trans (b2 (a1.1 hcp) K J' hK hJ')

/-- Coded values stay clear of the decoder's zero threshold if the data do. -/
theorem cod_large {r1 r2 : Nat} {maxEb : ℝ} {m : Online2D.Field ℝ} {s' : State ℝ} {p : Nat}
    (h0 : 0 ≤ maxEb) (h1 : maxEb ≤ 1) (hI : LogInv r1 r2 maxEb m p s') (c q : Nat) (hc : c < 2)
    (hm : (2 : ℝ) ^ (-98 : ℤ) ≤ |arr2 m c q|) : realL.ltM99 (s'.cod c q) = false := by
  have hpos : (0 : ℝ) < 2 ^ (-98 : ℤ) := by positivity
  have hlog : (-98 : ℝ) ≤ Real.logb 2 |arr2 m c q| := by
    rw [Real.le_logb_iff_rpow_le (by norm_num) (by linarith)]
    have : (2 : ℝ) ^ (-98 : ℝ) = (2 : ℝ) ^ (-98 : ℤ) := by
      rw [← Real.rpow_intCast]; norm_num
    rw [this]; exact hm
  have hlog1 : Real.logb 2 (1 + maxEb) ≤ 1 := by
    rw [Real.logb_le_iff_le_rpow (by norm_num) (by linarith)]
    norm_num; linarith
  simp only [realL, decide_eq_false_iff_not, not_lt]
  rcases hI.cod c q hc with h | h | h
  · rw [h] at hm; simp only [abs_zero] at hm; linarith
  · rw [abs_lt] at h; linarith
  · rw [h]; linarith

end CpSZ.VMode
