import Verif.Props.IeeeCheck
/-
Property C104: the relaxed 2D mode on fixed-point data.
-/

namespace CpSZ.Ieee
open CpSZ.Online2D CpSZ.Mesh2D

/-- The linear interpolant of three vectors is not degenerate and has a zero in the open triangle. -/
def InnerCP (p0 p1 p2 : ℝ × ℝ) : Prop :=
  (p0.1 - p2.1) * (p1.2 - p2.2) ≠ (p0.2 - p2.2) * (p1.1 - p2.1) ∧
  ∃ a b c : ℝ, 0 < a ∧ 0 < b ∧ 0 < c ∧ a + b + c = 1 ∧
    a * p0.1 + b * p1.1 + c * p2.1 = 0 ∧ a * p0.2 + b * p1.2 + c * p2.2 = 0

/-- The field has such a zero in the triangle. -/
def innerCP (r2 : Nat) (f : Online2D.Field ℝ) (t : Tri) : Prop :=
  InnerCP (t.vec r2 f 0) (t.vec r2 f 1) (t.vec r2 f 2)

theorem InnerCP.swap01 {p q w : ℝ × ℝ} (h : InnerCP p q w) : InnerCP q p w := by
  obtain ⟨h0, a, b, c, ha, hb, hc, hs, h1, h2⟩ := h
  exact ⟨fun e => h0 (by linarith), b, a, c, hb, ha, hc, by linarith, by linarith, by linarith⟩

theorem InnerCP.swap12 {p q w : ℝ × ℝ} (h : InnerCP p q w) : InnerCP p w q := by
  obtain ⟨h0, a, b, c, ha, hb, hc, hs, h1, h2⟩ := h
  exact ⟨fun e => h0 (by linarith), a, c, b, ha, hc, hb, by linarith, by linarith, by linarith⟩

/-- The order of the vertices does not matter. -/
theorem InnerCP.perm {p q w p' q' w' : ℝ × ℝ} (h : [p, q, w].Perm [p', q', w'])
    (hc : InnerCP p q w) : InnerCP p' q' w' := by
  have hm := List.mem_permutations'.2 h.symm
  rw [show [p, q, w].permutations' = [[p, q, w], [q, p, w], [q, w, p], [p, w, q], [w, p, q], [w, q, p]]
    from rfl] at hm
  simp only [List.mem_cons, List.cons.injEq, and_true, List.not_mem_nil, or_false] at hm
  rcases hm with ⟨rfl, rfl, rfl⟩ | ⟨rfl, rfl, rfl⟩ | ⟨rfl, rfl, rfl⟩ | ⟨rfl, rfl, rfl⟩ |
    ⟨rfl, rfl, rfl⟩ | ⟨rfl, rfl, rfl⟩
  · exact hc
  · exact hc.swap01
  · exact hc.swap01.swap12
  · exact hc.swap12
  · exact hc.swap12.swap01
  · exact hc.swap01.swap12.swap01

section
variable {F : Fmt} {trT : Pat F → Int} {tr : Pat binary64 → Int} {lg : Pat binary64 → Pat binary64}
  {eps : ℚ}

/-- `x` is a multiple of `2^k` of at most `B` units. -/
def Fixed (F : Fmt) (k B : Int) (x : Pat F) : Prop :=
  ∃ n : Int, dec F x = .fin (n * p2 k) ∧ |n| ≤ B

/-- The vector that two bit patterns stand for. -/
noncomputable def realVec (p : Pat F × Pat F) : ℝ × ℝ := (valR (dec F p.1), valR (dec F p.2))

/-- `check_cp` on fixed-point vectors. -/
theorem chk_fixed (hF : F = binary32 ∨ F = binary64) {k : Int} (hk1 : F.umin ≤ 2 * k)
    (hk2 : 2 * k + 22 ≤ F.emax) {p q w : Pat F × Pat F}
    (hp : Fixed F k 512 p.1 ∧ Fixed F k 512 p.2) (hq : Fixed F k 512 q.1 ∧ Fixed F k 512 q.2)
    (hw : Fixed F k 512 w.1 ∧ Fixed F k 512 w.2) :
    (chkBits F p q w = true → HasCP (realVec p) (realVec q) (realVec w)) ∧
    (InnerCP (realVec p) (realVec q) (realVec w) → chkBits F p q w = true) := by
  obtain ⟨⟨u0, a0, b0⟩, v0, c0, d0⟩ := hp
  obtain ⟨⟨u1, a1, b1⟩, v1, c1, d1⟩ := hq
  obtain ⟨⟨u2, a2, b2⟩, v2, c2, d2⟩ := hw
  obtain ⟨h1, h2, -⟩ := C103_check hF hk1 hk2 ⟨a0, c0⟩ ⟨a1, c1⟩ ⟨a2, c2⟩ ⟨b0, d0, b1, d1, b2, d2⟩
  have hs : (0 : ℝ) < ((p2 k : ℚ) : ℝ) := by exact_mod_cast p2_pos k
  generalize hsd : ((p2 k : ℚ) : ℝ) = s at hs
  have e : ∀ n : Int, valR (.fin ((n : ℚ) * p2 k)) = n * s := by
    intro n; unfold valR; push_cast; rw [hsd]
  unfold realVec
  rw [a0, a1, a2, c0, c1, c2]
  simp only [e]
  constructor
  · intro h
    obtain ⟨a, b, c, ha, hb, hc, hsum, g1, g2⟩ := h1 h
    simp only at g1 g2
    exact ⟨a, b, c, ha, hb, hc, hsum, by simp only; linear_combination s * g1,
      by simp only; linear_combination s * g2⟩
  · rintro ⟨h0, a, b, c, ha, hb, hc, hsum, g1, g2⟩
    simp only at h0 g1 g2
    refine h2 (fun h => h0 ?_) ⟨a, b, c, ha, hb, hc, hsum, ?_, ?_⟩
    · have : ((u0 : ℝ) - u2) * (v1 - v2) = (v0 - v2) * (u1 - u2) := by exact_mod_cast h
      linear_combination s * s * this
    · have : (a * u0 + b * u1 + c * u2) * s = 0 := by linear_combination g1
      exact (mul_eq_zero.1 this).resolve_right hs.ne'
    · have : (a * v0 + b * v1 + c * v2) * s = 0 := by linear_combination g2
      exact (mul_eq_zero.1 this).resolve_right hs.ne'

/-- The prediction from fixed-point values. -/
theorem lorenzo_fixed (hF : F.Ok) (hp : F.p ≤ binary64.p) (hu : binary64.umin ≤ F.umin)
    (he : F.emax ≤ binary64.emax) (hlg : LogOk lg eps) (hp24 : 24 ≤ F.p) {k : Int}
    (hk1 : F.umin ≤ k) (hk2 : k + 22 ≤ F.emax) {r2 : Nat} {f : Nat → Pat F} {p : Nat}
    (hf : ∀ q ≤ p, Fixed F k 512 (f q)) :
    Fixed F k 1536 (lorenzo (relaxBits F trT tr lg).toOps r2 f p) := by
  have hO := bits_ieee hF hp hu he tr hlg
  have z : Fixed F k 512 ((relaxBits F trT tr lg).zeroT) := ⟨0, by
    rw [Int.cast_zero, zero_mul]; exact hO.zeroT, by norm_num⟩
  unfold lorenzo
  simp only
  have g : ∀ (c : Prop) [Decidable c] (n : Nat), n ≤ p →
      Fixed F k 512 (if c then f n else (relaxBits F trT tr lg).zeroT) := by
    intro c _ n hn
    split
    · exact hf n hn
    · exact z
  obtain ⟨n1, x1, y1⟩ := g (p / r2 ≠ 0) (p - r2) (by omega)
  obtain ⟨n2, x2, y2⟩ := g (p % r2 ≠ 0) (p - 1) (by omega)
  obtain ⟨n0, x0, y0⟩ := g (p / r2 ≠ 0 ∧ p % r2 ≠ 0) (p - 1 - r2) (by omega)
  rw [abs_le] at y0 y1 y2
  refine ⟨n1 + n2 - n0, ?_, by rw [abs_le]; constructor <;> omega⟩
  have s1 := hO.addT (if p / r2 ≠ 0 then f (p - r2) else (relaxBits F trT tr lg).zeroT)
    (if p % r2 ≠ 0 then f (p - 1) else (relaxBits F trT tr lg).zeroT)
  rw [x1, x2] at s1
  simp only [Fp.add] at s1
  rw [← add_mul, ← Int.cast_add, round_rep hF (rep_scaled hp24 (by
    rw [abs_le]; constructor <;> omega) hk1 hk2)] at s1
  have s2 := hO.subT ((relaxBits F trT tr lg).addT
      (if p / r2 ≠ 0 then f (p - r2) else (relaxBits F trT tr lg).zeroT)
      (if p % r2 ≠ 0 then f (p - 1) else (relaxBits F trT tr lg).zeroT))
    (if p / r2 ≠ 0 ∧ p % r2 ≠ 0 then f (p - 1 - r2) else (relaxBits F trT tr lg).zeroT)
  refine s2.trans ?_
  rw [x0]
  refine (congrArg (fun z => Fp.sub (round F) z _) s1).trans ?_
  rw [sub_fin, ← sub_mul, ← Int.cast_sub]
  exact round_rep hF (rep_scaled hp24 (by rw [abs_le]; constructor <;> omega) hk1 hk2)

/-- A tentative value is a fixed-point number. -/
theorem tentative_fixed (hF : F.Ok) (hp : F.p ≤ binary64.p) (hu : binary64.umin ≤ F.umin)
    (he : F.emax ≤ binary64.emax) (hlg : LogOk lg eps) (hp24 : 24 ≤ F.p) (hemax : 100 ≤ F.emax)
    {k : Int} (hk1 : F.umin ≤ k) (hk2 : k + 25 ≤ F.emax) (hk0 : -50 ≤ k) (hk3 : k ≤ 50)
    {r2 : Nat} {f : Nat → Pat F} {p : Nat}
    {eb : Pat binary64} {E : Int} (hE1 : k ≤ E) (hE2 : E ≤ k + 7)
    (heb : dec binary64 eb = .fin (p2 E)) {q : Int} {x : Pat F}
    (h : Relax.tentative (relaxBits F trT tr lg) (parBits lg) r2 f p eb = some (q, x))
    (hf : ∀ q ≤ p, Fixed F k 512 (f q)) (hc : Fixed F k 256 (f p)) : Fixed F k 512 x := by
  have hO := bits_ieee hF hp hu he tr hlg
  obtain ⟨n, hn, hnb⟩ := hc
  have hk := p2_pos k
  have hn' : |(n : ℚ)| ≤ 256 := by exact_mod_cast hnb
  have hpk : p2 8 = 256 := by rw [show (8 : Int) = ((8 : Nat) : Int) from rfl, p2_nat]; norm_num
  have hC : |(n : ℚ) * p2 k| ≤ 256 * p2 k := by
    rw [abs_mul, abs_of_pos hk]; exact mul_le_mul_of_nonneg_right hn' hk.le
  obtain ⟨X, hX, hXb⟩ := tentative_near hF hp hu he hlg hp24 hemax (by omega) (by omega) (by omega)
    heb h hn (hC.trans (by rw [← hpk, ← p2_add]; exact p2_le (by omega)))
  obtain ⟨c1, c2⟩ := tentative_code hF hp hu he hlg (by omega) (by omega) (emin_le hF).2.1 heb h
  obtain ⟨P, hP, hPb⟩ := lorenzo_fixed (trT := trT) (tr := tr) hF hp hu he hlg hp24 hk1 (by omega) (r2 := r2) hf
  -- the value
  have hx : x = (relaxBits F trT tr lg).ofD ((relaxBits F trT tr lg).add
      ((relaxBits F trT tr lg).toD (lorenzo (relaxBits F trT tr lg).toOps r2 f p))
      (linOffset (bitsD tr lg) eb 32768 q)) := by
    unfold Relax.tentative at h
    simp only at h
    split at h
    · cases h
    · split at h
      · simp only [Option.some.injEq, Prod.mk.injEq] at h
        obtain ⟨h1, h2⟩ := h
        rw [← h2, h1]
        rfl
      · cases h
  obtain ⟨e, he'⟩ : ∃ e : Nat, E = k + e := ⟨(E - k).toNat, by omega⟩
  have he7 : e ≤ 7 := by omega
  have hpe : (2 : Int) ^ e ≤ 128 := (pow_le_pow_right₀ (by norm_num) he7).trans (by norm_num)
  have hpe0 : (0 : Int) < 2 ^ e := by positivity
  have hpE : p2 E = ((2 ^ e : Int) : ℚ) * p2 k := by
    rw [he', add_comm, p2_add, p2_nat]; push_cast; rfl
  have h2 : |2 * (q - 32768) * 2 ^ e| ≤ 65536 * 128 := by
    have h1 : |2 * (q - 32768)| ≤ 65536 := by rw [abs_le]; constructor <;> omega
    rw [abs_mul, abs_of_pos hpe0]
    exact mul_le_mul h1 hpe hpe0.le (by norm_num)
  have hW : |P + 2 * (q - 32768) * 2 ^ e| ≤ 2 ^ 24 := by
    rw [abs_le] at h2 hPb ⊢
    constructor <;> omega
  have hb64 : binary64.umin ≤ -52 ∧ (200 : Int) ≤ binary64.emax := by decide
  have rep : ∀ {G : Fmt} {m : Int}, 24 ≤ G.p → |m| ≤ 2 ^ 24 → G.umin ≤ k → k + 25 ≤ G.emax →
      Rep G (m * p2 k) := by
    intro G m g1 g2 g3 g4
    refine ⟨m, k, rfl, g2.trans (pow_le_pow_right₀ (by norm_num) g1), g3, ?_⟩
    have hm : (|m| : ℚ) ≤ p2 24 := by
      rw [show (24 : Int) = ((24 : Nat) : Int) from rfl, p2_nat]
      exact_mod_cast g2
    rw [abs_mul, abs_of_pos hk]
    calc |(m : ℚ)| * p2 k ≤ p2 24 * p2 k := mul_le_mul_of_nonneg_right hm hk.le
      _ = p2 (k + 24) := by rw [← p2_add, add_comm]
      _ < p2 (G.emax + 1) := p2_lt (by omega)
  have hoff : dec binary64 (linOffset (bitsD tr lg) eb 32768 q) =
      .fin ((2 * (q - 32768) * 2 ^ e : Int) * p2 k) := by
    have h3 := hO.mul ((bitsD tr lg).ofInt (2 * (q - 32768))) eb
    have h4 : dec binary64 ((bitsD tr lg).ofInt (2 * (q - 32768))) = .fin ((2 * (q - 32768) : Int) : ℚ) :=
      hO.ofInt_small (by rw [abs_le]; constructor <;> norm_num <;> omega)
    rw [h4, heb] at h3
    refine h3.trans ?_
    simp only [Fp.mul]
    rw [hpE, ← mul_assoc, ← Int.cast_mul]
    exact round_rep ok64 (rep (by decide) (h2.trans (by norm_num)) (by omega) (by omega))
  have hxd : dec F x = .fin ((P + 2 * (q - 32768) * 2 ^ e : Int) * p2 k) := by
    rw [hx]
    refine (hO.ofD _).trans ?_
    have a1 := hO.add ((bitsOps F tr lg).toD (lorenzo (relaxBits F trT tr lg).toOps r2 f p))
      (linOffset (bitsD tr lg) eb 32768 q)
    rw [hO.toD, hP, hoff] at a1
    simp only [Fp.add] at a1
    rw [← add_mul, ← Int.cast_add, round_rep ok64 (rep (by decide) hW (by omega) (by omega))] at a1
    refine (congrArg (narrow F) a1).trans ?_
    exact round_rep hF (rep hp24 hW hk1 hk2)
  refine ⟨_, hxd, ?_⟩
  rw [hxd] at hX
  have hXe : ((P + 2 * (q - 32768) * 2 ^ e : Int) : ℚ) * p2 k = X := by simpa using hX
  generalize P + 2 * (q - 32768) * 2 ^ e = N at *
  rw [← hXe] at hXb
  have hE128 : p2 E ≤ 128 * p2 k := by
    rw [hpE]
    exact mul_le_mul_of_nonneg_right (by exact_mod_cast hpe) hk.le
  have q1 : p2 (19 - F.p) ≤ 1 / 32 := by
    have h1 : p2 (19 - F.p) ≤ p2 (-5) := p2_le (by omega)
    have h2 : p2 (-5) = 1 / 32 := by decide +kernel
    linarith
  have q2 : p2 (2 - F.p) ≤ 1 / 32 := le_trans (p2_le (by omega)) q1
  have h19 := p2_pos (19 - F.p)
  have h2p := p2_pos (2 - F.p)
  have hfin : |(N : ℚ) * p2 k| ≤ 512 * p2 k := by
    have h1 := abs_sub_abs_le_abs_sub ((N : ℚ) * p2 k) (n * p2 k)
    have h3 : (1 + p2 (19 - F.p)) * p2 E ≤ 33 / 32 * (128 * p2 k) :=
      mul_le_mul (by linarith) hE128 (p2_pos E).le (by norm_num)
    have h4 : p2 (2 - F.p) * |(n : ℚ) * p2 k| ≤ 1 / 32 * (256 * p2 k) :=
      mul_le_mul q2 hC (abs_nonneg _) (by norm_num)
    linarith
  rw [abs_mul, abs_of_pos hk] at hfin
  have := le_of_mul_le_mul_right hfin hk
  exact_mod_cast this

/-- All values that the compressor leaves in the array are fixed-point numbers. -/
theorem relax_fixed (hF : F.Ok) (hp : F.p ≤ binary64.p) (hu : binary64.umin ≤ F.umin)
    (he : F.emax ≤ binary64.emax) (hp24 : 24 ≤ F.p) (hemax : 100 ≤ F.emax)
    (hlg : LogOk lg eps) (hlow : LogLow lg)
    (hlb : dec binary64 (lg (enc binary64 false (.fin 4))) = .fin 2) (he0 : 0 ≤ eps)
    (he1 : eps ≤ 1 / 4) {k : Int} (hk0 : -50 ≤ k) (hk3 : k ≤ 50) (hku : F.umin ≤ k)
    {maxEb : Pat binary64} {e : ℚ} (hm : dec binary64 maxEb = .fin e) (hel : p2 (k + 3) ≤ e)
    (her : e ≤ p2 (k + 7)) {r1 r2 : Nat} {m m' : Online2D.Field (Pat F)} {s : Streams (Pat F)}
    (h : runRelax F trT tr lg r1 r2 maxEb m = some (m', s))
    (hmf : ∀ q, q < r1 * r2 → Fixed F k 256 (m.u q) ∧ Fixed F k 256 (m.v q)) :
    ∀ q, q < r1 * r2 → Fixed F k 512 (m'.u q) ∧ Fixed F k 512 (m'.v q) := by
  have wk : ∀ {x : Pat F}, Fixed F k 256 x → Fixed F k 512 x :=
    fun ⟨n, h1, h2⟩ => ⟨n, h1, h2.trans (by norm_num)⟩
  have hI := Relax.compress_inv (relaxBits F trT tr lg) (parBits lg) Relax.maxCount (chkBits F) r1 r2
    maxEb m m' s h
    (fun p f => (∀ q, p ≤ q → f.u q = m.u q ∧ f.v q = m.v q) ∧
      ∀ q, q < r1 * r2 → Fixed F k 512 (f.u q) ∧ Fixed F k 512 (f.v q))
    ⟨fun _ _ => ⟨rfl, rfl⟩, fun q hq => ⟨wk (hmf q hq).1, wk (hmf q hq).2⟩⟩
    (fun p f _ hI => ⟨fun q hq => hI.1 q (by omega), hI.2⟩)
    (fun i j f c hi hj hI hz _ hacc => by
      have hlt : i * r2 + j < r1 * r2 := by
        apply flat_lt <;> assumption
      obtain ⟨l0, l1⟩ := hI.1 (i * r2 + j) le_rfl
      refine ⟨fun q hq => ?_, fun q hq => ?_⟩
      · have hne : q ≠ i * r2 + j := by omega
        simpa [Field.set, setAt, hne] using hI.1 q (by omega)
      · by_cases hne : q = i * r2 + j
        · subst hne
          obtain ⟨kk, hk, -, t0, t1⟩ := hacc.bound
          obtain ⟨id, E, -, -, -, i4, i5, i6, i7, i8⟩ := tried_codes_low (F := F) (trT := trT)
            (tr := tr) hlg hlow hlb he0 (by linarith) hm ((p2_le (by omega)).trans hel)
            (her.trans (p2_le (by omega))) hk
          have hE1 : k ≤ E := by
            have := i8 ((k + 55) / 2).toNat (by omega) (by omega)
              ((p2_le (by omega)).trans hel)
            omega
          have hE2 : E ≤ k + 7 := by
            by_contra hc
            have h8 : p2 (k + 8) ≤ p2 E := p2_le (by omega)
            have h9 := p2_succ (k + 7)
            rw [show k + 7 + 1 = k + 8 by ring] at h9
            have h10 := p2_pos (k + 7)
            have h53 : p2 (-53) ≤ 1 / 4 := by
              have h1 : p2 (-53) ≤ p2 (-2) := p2_le (by norm_num)
              have h2 : p2 (-2) = 1 / 4 := by decide +kernel
              linarith
            have h0 := p2_pos (-53)
            have h4 : (1 + eps) * (1 + p2 (-53)) ≤ 5 / 4 * (5 / 4) :=
              mul_le_mul (by linarith) (by linarith) (by linarith) (by norm_num)
            have h5 : (1 + eps) * (1 + p2 (-53)) * e ≤ 5 / 4 * (5 / 4) * p2 (k + 7) :=
              mul_le_mul h4 her ((p2_pos _).le.trans hel) (by norm_num)
            linarith
          have fin := fun (g : Nat → Pat F) (x : Pat F) (q : Int)
              (hg : ∀ q, q < r1 * r2 → Fixed F k 512 (g q)) (h0 : Fixed F k 256 (g (i * r2 + j)))
              (ht : Relax.tentative (relaxBits F trT tr lg) (parBits lg) r2 g (i * r2 + j)
                (CpSZ.ebQuant (relaxBits F trT tr lg).toDOps (parBits lg).base (parBits lg).logBase
                  (parBits lg).thr (Relax.tried (relaxBits F trT tr lg) (parBits lg) maxEb kk)).1 =
                some (q, x)) =>
            tentative_fixed hF hp hu he hlg hp24 hemax hku (by omega) hk0 hk3 hE1 hE2 i4 ht
              (fun q hq => hg q (by omega)) h0
          simp only [Field.set, setAt, if_true]
          exact ⟨fin _ _ _ (fun q hq => (hI.2 q hq).1) (by rw [l0]; exact (hmf _ hlt).1) t0,
            fin _ _ _ (fun q hq => (hI.2 q hq).2) (by rw [l1]; exact (hmf _ hlt).2) t1⟩
        · simpa [Field.set, setAt, hne] using hI.2 q hq)
  exact hI.2

/-- **C104.** The relaxed 2D mode on fixed-point data: all components are multiples of `2^k` of at
most 256 units, the bound is between 8 and 128 units.  The decompressor returns fixed-point numbers
of at most 512 units.  A triangle with a critical point in its interior comes back bit for bit, and
one without a critical point gets none in its interior. -/
theorem C104_fixed (hF : F = binary32 ∨ F = binary64) (hlg : LogOk lg eps) (hlow : LogLow lg)
    (hlb : dec binary64 (lg (enc binary64 false (.fin 4))) = .fin 2) (he0 : 0 ≤ eps)
    (he1 : eps ≤ 1 / 4) (c : Codec (Pat F)) (cD : Codec (Pat binary64)) (E1 E2 : Env) {r1 r2 : Nat}
    (hn : 0 < r1 * r2) (hn2 : r1 * r2 < 2 ^ 59) {k : Int} (hk0 : -50 ≤ k) (hk3 : k ≤ 50)
    {maxEb : Pat binary64} {e : ℚ} (hm : dec binary64 maxEb = .fin e) (hel : p2 (k + 3) ≤ e)
    (her : e ≤ p2 (k + 7)) (m : Online2D.Field (Pat F))
    (hmf : ∀ q, q < r1 * r2 → Fixed F k 256 (m.u q) ∧ Fixed F k 256 (m.v q)) :
    ∃ m' s, runRelax F trT tr lg r1 r2 maxEb m = some (m', s) ∧
      (Shallow E2 (2 * 65536) s.dq →
        ∃ bs, Relax.compressBytes (relaxBits F trT tr lg) c cD E1 E2 (parBits lg) Relax.maxCount
            (chkBits F) r1 r2 maxEb m = some (m', bs) ∧
          ∀ rest m0, ∃ d, decompressBytes (bitsOps F tr lg) c cD (parBits lg).logBase r1 r2 m0
              (bs ++ rest) = some d ∧
            (∀ q, q < r1 * r2 → Fixed F k 512 (d.u q) ∧ Fixed F k 512 (d.v q)) ∧
            ∀ t : Tri, t.inGrid r1 r2 →
              (innerCP r2 (realField (dec F) m) t → SameAt r2 t d m) ∧
              (¬ t.hasCP r2 (realField (dec F) m) → ¬ innerCP r2 (realField (dec F) d) t)) := by
  obtain ⟨oF, o1, o2, o3, o4, o5, o6⟩ : F.Ok ∧ 24 ≤ F.p ∧ F.p ≤ binary64.p ∧ binary64.umin ≤ F.umin ∧
      F.emax ≤ binary64.emax ∧ 127 ≤ F.emax ∧ F.umin ≤ -100 := by
    rcases hF with e | e
    · subst e; exact ⟨ok32, by decide, by decide, by decide, by decide, by decide, by decide⟩
    · subst e; exact ⟨ok64, by decide, by decide, by decide, by decide, by decide, by decide⟩
  obtain ⟨m', s, h, hc⟩ := C102_relax (trT := trT) (tr := tr) oF o2 o3 o4 o1 (by omega) hlg hlow hlb he0
    (by linarith) c cD E1 E2 hn hn2 hm ((p2_le (by omega)).trans hel) (her.trans (p2_le (by omega)))
    (her.trans (p2_le (by omega))) m
  refine ⟨m', s, h, fun hs => ?_⟩
  obtain ⟨bs, hb, hd⟩ := hc hs
  refine ⟨bs, hb, fun rest m0 => ?_⟩
  obtain ⟨d, d1, dA, dK⟩ := hd rest m0
  have hfix := relax_fixed oF o2 o3 o4 o1 (by omega) hlg hlow hlb he0 he1 hk0 hk3 (by omega) hm hel her
    h hmf
  have hdf : ∀ q, q < r1 * r2 → Fixed F k 512 (d.u q) ∧ Fixed F k 512 (d.v q) := by
    intro q hq
    rw [(dA q hq).1, (dA q hq).2]
    exact hfix q hq
  have wk : ∀ {x : Pat F}, Fixed F k 256 x → Fixed F k 512 x :=
    fun ⟨n, h1, h2⟩ => ⟨n, h1, h2.trans (by norm_num)⟩
  have hv : ∀ t : Tri, t.verts = [t.verts.getD 0 (0, 0), t.verts.getD 1 (0, 0), t.verts.getD 2 (0, 0)] := by
    intro t
    unfold Tri.verts
    split <;> rfl
  refine ⟨d, d1, hdf, fun t ht => ⟨fun hin => ?_, fun hno hin => ?_⟩⟩
  · refine dK.kept t ht ?_
    have hmem : ∀ q, q < 3 → t.verts.getD q (0, 0) ∈ t.verts := by
      intro q hq
      unfold Tri.verts
      have : q = 0 ∨ q = 1 ∨ q = 2 := by omega
      split <;> rcases this with rfl | rfl | rfl <;> simp
    have hM := fun q hq => hmf _ (verts_lt ht (hmem q hq))
    exact (chk_fixed hF (k := k) (by omega) (by omega)
      ⟨wk (hM 0 (by norm_num)).1, wk (hM 0 (by norm_num)).2⟩
      ⟨wk (hM 1 (by norm_num)).1, wk (hM 1 (by norm_num)).2⟩
      ⟨wk (hM 2 (by norm_num)).1, wk (hM 2 (by norm_num)).2⟩).2 hin
  · have hmem : ∀ q, q < 3 → t.verts.getD q (0, 0) ∈ t.verts := by
      intro q hq
      unfold Tri.verts
      have : q = 0 ∨ q = 1 ∨ q = 2 := by omega
      split <;> rcases this with rfl | rfl | rfl <;> simp
    have hM := fun q hq => hmf _ (verts_lt ht (hmem q hq))
    have hneg : Relax.triTest (chkBits F) r2 m t = false := by
      by_contra hc
      rw [Bool.not_eq_false] at hc
      exact hno ((chk_fixed hF (k := k) (by omega) (by omega)
        ⟨wk (hM 0 (by norm_num)).1, wk (hM 0 (by norm_num)).2⟩
        ⟨wk (hM 1 (by norm_num)).1, wk (hM 1 (by norm_num)).2⟩
        ⟨wk (hM 2 (by norm_num)).1, wk (hM 2 (by norm_num)).2⟩).1 hc)
    rcases dK.neg t ht hneg with hsame | ⟨P, Q, R, hperm, hck⟩
    · refine hno ?_
      have hcp : t.hasCP r2 (realField (dec F) d) := by
        obtain ⟨-, a, b, c, ha, hb, hc, r⟩ := hin
        exact ⟨a, b, c, ha.le, hb.le, hc.le, r⟩
      exact SameAt.hasCP (fun P hP => ⟨(hsame P hP).1.symm, (hsame P hP).2.symm⟩) hcp
    · have hD := fun P hP => hdf _ (verts_lt ht (P := P) hP)
      have hPm : P ∈ t.verts := hperm.mem_iff.2 (by simp)
      have hQm : Q ∈ t.verts := hperm.mem_iff.2 (by simp)
      have hRm : R ∈ t.verts := hperm.mem_iff.2 (by simp)
      have hnot := (chk_fixed hF (k := k) (by omega) (by omega) (p := Relax.vecAt r2 d P)
        (q := Relax.vecAt r2 d Q) (w := Relax.vecAt r2 d R) (hD P hPm) (hD Q hQm) (hD R hRm)).2
      have hin' : InnerCP (realVec (Relax.vecAt r2 d P)) (realVec (Relax.vecAt r2 d Q))
          (realVec (Relax.vecAt r2 d R)) := by
        rw [hv t] at hperm
        exact InnerCP.perm (hperm.map fun P => realVec (Relax.vecAt r2 d P)) hin
      have := hnot hin'
      rw [hck] at this
      cases this

end

/-- Four vectors of small integers. -/
def fixedData : Online2D.Field (Pat binary32) :=
  ⟨fun q => fint ([3, -2, 100, 0].getD q 0), fun q => fint ([1, 1, 40, -5].getD q 0)⟩

/-- A bound of 16. -/
def fixedEb : Pat binary64 := enc binary64 false (.fin 16)

/-- Non-vacuity: a field with a critical point inside one triangle, whose vertices come back. -/
example (E1 E2 : Env) : innerCP 2 (realField (dec binary32) fixedData) ⟨0, 0, true⟩ ∧
    ∃ m' bs, Relax.compressBytes (relaxBits binary32 (fun _ => 0) (fun _ => 0) floorLog2) (wordCodec 4)
      (wordCodec 8) E1 E2 (parBits floorLog2) Relax.maxCount (chkBits binary32) 2 2 fixedEb fixedData =
        some (m', bs) ∧
      ∀ m0, ∃ d, decompressBytes (bitsOps binary32 (fun _ => 0) floorLog2) (wordCodec 4) (wordCodec 8)
        (parBits floorLog2).logBase 2 2 m0 bs = some d ∧ SameAt 2 ⟨0, 0, true⟩ d fixedData := by
  have hm : dec binary64 fixedEb = .fin 16 := by decide +kernel
  have hlb : dec binary64 (floorLog2 (enc binary64 false (.fin 4))) = .fin 2 := by decide +kernel
  have hel : p2 (0 + 3) ≤ 16 ∧ 16 ≤ p2 (0 + 7) ∧ p2 (-48) ≤ 16 ∧ 16 ≤ p2 399 := by decide +kernel
  have hv : (dec binary32 (fixedData.u 0) = .fin ((3 : Int) * p2 0) ∧
      dec binary32 (fixedData.v 0) = .fin ((1 : Int) * p2 0)) ∧
      (dec binary32 (fixedData.u 1) = .fin ((-2 : Int) * p2 0) ∧
      dec binary32 (fixedData.v 1) = .fin ((1 : Int) * p2 0)) ∧
      (dec binary32 (fixedData.u 2) = .fin ((100 : Int) * p2 0) ∧
      dec binary32 (fixedData.v 2) = .fin ((40 : Int) * p2 0)) ∧
      (dec binary32 (fixedData.u 3) = .fin ((0 : Int) * p2 0) ∧
      dec binary32 (fixedData.v 3) = .fin ((-5 : Int) * p2 0)) := by
    decide +kernel
  have hin : ∀ f : Online2D.Field (Pat binary32), ((dec binary32 (f.u 0) = .fin ((3 : Int) * p2 0) ∧
      dec binary32 (f.v 0) = .fin ((1 : Int) * p2 0)) ∧
      (dec binary32 (f.u 1) = .fin ((-2 : Int) * p2 0) ∧
      dec binary32 (f.v 1) = .fin ((1 : Int) * p2 0)) ∧
      (dec binary32 (f.u 3) = .fin ((0 : Int) * p2 0) ∧
      dec binary32 (f.v 3) = .fin ((-5 : Int) * p2 0))) →
      innerCP 2 (realField (dec binary32) f) ⟨0, 0, true⟩ := by
    rintro f ⟨⟨a0, b0⟩, ⟨a1, b1⟩, a3, b3⟩
    change InnerCP (valR (dec binary32 (f.u 0)), valR (dec binary32 (f.v 0)))
      (valR (dec binary32 (f.u 1)), valR (dec binary32 (f.v 1)))
      (valR (dec binary32 (f.u 3)), valR (dec binary32 (f.v 3)))
    rw [a0, b0, a1, b1, a3, b3, p2_zero]
    refine ⟨by norm_num [valR], 1 / 3, 1 / 2, 1 / 6, ?_⟩
    norm_num [valR]
  have hI := hin fixedData ⟨hv.1, hv.2.1, hv.2.2.2⟩
  refine ⟨hI, ?_⟩
  obtain ⟨m', s, h, hc⟩ := C104_fixed (trT := fun _ => 0) (tr := fun _ => 0) (Or.inl rfl)
    (floorLog2_ok (le_refl (0 : ℚ))) floorLog2_low hlb le_rfl (by norm_num) (wordCodec 4) (wordCodec 8)
    E1 E2 (r1 := 2) (r2 := 2) (by norm_num) (by norm_num) (k := 0) (by norm_num) (by norm_num) hm hel.1
    hel.2.1 fixedData (by
      intro q hq
      have : q = 0 ∨ q = 1 ∨ q = 2 ∨ q = 3 := by omega
      rcases this with e | e | e | e <;> rw [e]
      · exact ⟨⟨_, hv.1.1, by norm_num⟩, ⟨_, hv.1.2, by norm_num⟩⟩
      · exact ⟨⟨_, hv.2.1.1, by norm_num⟩, ⟨_, hv.2.1.2, by norm_num⟩⟩
      · exact ⟨⟨_, hv.2.2.1.1, by norm_num⟩, ⟨_, hv.2.2.1.2, by norm_num⟩⟩
      · exact ⟨⟨_, hv.2.2.2.1, by norm_num⟩, ⟨_, hv.2.2.2.2, by norm_num⟩⟩)
  obtain ⟨l1, l2, l3⟩ := Relax.compress_lengths _ _ _ _ _ _ _ _ _ _ h
  have hc2 := (relax_codes ok32 (by decide) (by decide) (by decide) (by decide) (by decide)
    (by decide) (floorLog2_ok le_rfl) floorLog2_low hlb le_rfl zero_le_one hm hel.2.2.1 hel.2.2.2 h).2
  obtain ⟨bs, hb, hd⟩ := hc (shallow_of_short (ne_nil_of_length (by omega)) (by omega) (by norm_num)
    (fun x hx => by have := hc2 x hx; push_cast; omega))
  refine ⟨m', bs, hb, fun m0 => ?_⟩
  obtain ⟨d, d1, -, d3⟩ := hd [] m0
  rw [List.append_nil] at d1
  exact ⟨d, d1, (d3 ⟨0, 0, true⟩ ⟨by decide, by decide⟩).1 hI⟩

end CpSZ.Ieee
