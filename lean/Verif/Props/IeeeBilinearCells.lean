import Verif.Props.IeeeBilinear
import Verif.Props.IeeeSigns
/-
Property C101: the cells of the bilinear mode in IEEE-754 arithmetic, from bytes to bytes: what the
extraction of critical points finds in them, and the cells in which a component does not change its
sign.
-/

namespace CpSZ.Ieee
open CpSZ.VMode CpSZ.VMode.Bilinear

/-! ### Specification -/

/-- The vectors at the corners of a cell, as real numbers. -/
noncomputable def realQuad (F : Fmt) (r2 : Nat) (f : Online2D.Field (Pat F)) (c : Cell) : Quad ℝ :=
  c.quad (fun x => valR (dec F x)) r2 f

/-- The indices of the corners of a cell. -/
def cellIdx (r2 : Nat) (c : Cell) : List Nat := c.verts.map fun P => P.1 * r2 + P.2

/-- What the property says of the decompressed field `d` and the input `m`: in every cell the
extraction `C` finds as many critical points, of the same types and in the same order; and where a
component has one strict sign at the corners, the bilinear interpolant has no zero, neither of the
input nor of the result. -/
def CellsKept {J : Type} (F : Fmt) (toD : Pat F → Pat binary64) (C : Check (Pat binary64) J)
    (r1 r2 : Nat) (d m : Online2D.Field (Pat F)) : Prop :=
  ∀ c : Cell, c.inGrid r1 r2 →
    (C.extract (c.quad toD r2 d)).map C.ctype = (C.extract (c.quad toD r2 m)).map C.ctype ∧
    (OneSign F m.u (cellIdx r2 c) ∨ OneSign F m.v (cellIdx r2 c) →
      ∀ x y : ℝ, 0 ≤ x → x ≤ 1 → 0 ≤ y → y ≤ 1 →
        (realQuad F r2 m c).val x y ≠ (0, 0) ∧ (realQuad F r2 d c).val x y ≠ (0, 0))

/-! ### Lemmas -/

/-- C48 for values that are stored as they were verified unless they are `Bad`. -/
theorem sig_or_bad {T D J : Type} (L : LOps T D) (exp2D : T → D) (negD : D → D) (Bad : T → Prop)
    (HS : ∀ x l, ¬ Bad (logBack L x l) → L.toD (logBack L x l) = backD L exp2D negD x l)
    (C : Check D J) (logBase thr : D) (r1 r2 : Nat)
    (base radius : Int) (bound : Online2D.Field T → Nat → Option D) (m : Online2D.Field T)
    (s' : State T) (str : VMode.Streams T)
    (h : compressB L (mode2 L logBase thr r2 base radius) bound (verifyB L exp2D negD C r1 r2)
      (r1 * r2) (arr2 m) = some (s', str))
    (hg : ∀ c q, c < 2 → q < r1 * r2 → ¬ Bad (s'.val c q))
    (c : Cell) (hc : c.inGrid r1 r2) :
    (C.extract (c.quad L.toD r2 (field2 s'.val))).map C.ctype =
      (C.extract (c.quad L.toD r2 m)).map C.ctype := by
  rw [compressB_eq] at h
  have key := compress_inv _ _ _ _ s' str h
    (fun p s => (∃ c q, c < 2 ∧ q < p ∧ Bad (s.val c q)) ∨
      C.sig (c.quad L.toD r2 (field2 s.val)) = C.sig (c.quad L.toD r2 m)) (Or.inr rfl)
    (fun p s _ hI => hI.imp_left fun ⟨c, q, a, b, d⟩ => ⟨c, q, a, by omega, d⟩) ?_
  · rcases key with ⟨c, q, a, b, d⟩ | key
    · exact absurd d (hg c q a b)
    · exact key
  intro p s s1 e qs hp hI hcod _
  obtain ⟨rs, hl, hv, hval⟩ := coded_verified hcod
  have hl : rs.length = 2 := hl
  obtain ⟨r0, rs, rfl⟩ := List.exists_cons_of_length_eq_add_one hl
  obtain ⟨r1', rs, rfl⟩ := List.exists_cons_of_length_eq_add_one
    (show rs.length = 0 + 1 by simpa using hl)
  have : rs = [] := by simpa using hl
  subst this
  have v0 : s1.val 0 p = logBack L (s.val 0 p) r0.2 := by
    rw [hval]; simp [setCol, col, mode2, List.range_succ]
  have v1 : s1.val 1 p = logBack L (s.val 1 p) r1'.2 := by
    rw [hval]; simp [setCol, col, mode2, List.range_succ]
  rcases hI with ⟨c', q, a, b, d⟩ | hI
  · refine Or.inl ⟨c', q, a, by omega, ?_⟩
    rw [hval]
    unfold setCol
    rw [if_neg (by omega)]
    exact d
  · by_cases b0 : Bad (s1.val 0 p)
    · exact Or.inl ⟨0, p, by norm_num, by omega, b0⟩
    by_cases b1 : Bad (s1.val 1 p)
    · exact Or.inl ⟨1, p, by norm_num, by omega, b1⟩
    right
    rw [v0] at b0
    rw [v1] at b1
    rw [← hI]
    obtain ⟨b, hb, hb'⟩ := verifyB_spec_at C r1 r2 s p hp r0.2 r1'.2 (HS _ _ b0) (HS _ _ b1)
    simp only [List.map_cons, List.map_nil] at hv
    rw [hv] at hb
    have := hb' (Option.some.inj hb).symm c hc
    rw [this, hval]
    rfl

theorem magVal_step {F : Fmt} (n : Nat) : magVal F n < magVal F (n + 1) := by
  have hB : 0 < 2 ^ (F.p - 1) := Nat.two_pow_pos _
  unfold magVal
  generalize 2 ^ (F.p - 1) = B at *
  have hd := Nat.div_add_mod n B
  have hr := Nat.mod_lt n hB
  generalize n / B = q at *
  generalize n % B = r at *
  have pu := p2_pos F.umin
  by_cases h : r + 1 < B
  · have e1 : (n + 1) / B = q := by
      rw [← hd, Nat.add_assoc, Nat.mul_add_div hB, Nat.div_eq_of_lt h, Nat.add_zero]
    have e2 : (n + 1) % B = r + 1 := by
      rw [← hd, Nat.add_assoc, Nat.mul_add_mod, Nat.mod_eq_of_lt h]
    rw [e1, e2]
    split
    · exact mul_lt_mul_of_pos_right (by exact_mod_cast Nat.lt_succ_self r) pu
    · exact mul_lt_mul_of_pos_right (by exact_mod_cast (by omega : B + r < B + (r + 1))) (p2_pos _)
  · have hrB : r + 1 = B := by omega
    have e1 : (n + 1) / B = q + 1 := by
      rw [← hd, Nat.add_assoc, hrB, Nat.mul_add_div hB, Nat.div_self hB]
    have e2 : (n + 1) % B = 0 := by
      rw [← hd, Nat.add_assoc, hrB, Nat.mul_add_mod, Nat.mod_self]
    rw [e1, e2, if_neg (by omega : ¬ q + 1 = 0)]
    split
    · rename_i h0
      rw [h0]
      have : F.umin + ((0 + 1 : Nat) : Int) - 1 = F.umin := by omega
      rw [this]
      exact mul_lt_mul_of_pos_right (by exact_mod_cast (by omega : r < B + 0)) pu
    · rename_i h0
      have e3 : F.umin + ((q + 1 : Nat) : Int) - 1 = F.umin + (q : Int) - 1 + 1 := by omega
      have e4 : p2 (F.umin + (q : Int) - 1 + 1) = 2 * p2 (F.umin + (q : Int) - 1) := by
        simp only [p2_eq]
        rw [zpow_add₀ (by norm_num), zpow_one, mul_comm]
      rw [e3, e4]
      have := p2_pos (F.umin + (q : Int) - 1)
      have h3 : ((B + r : Nat) : ℚ) < ((B + 0 : Nat) : ℚ) * 2 := by
        exact_mod_cast (by omega : B + r < (B + 0) * 2)
      nlinarith

theorem magVal_inj {F : Fmt} {a b : Nat} (h : magVal F a = magVal F b) : a = b :=
  (strictMono_nat_of_lt_succ (fun n => magVal_step n)).injective h

/-- A number has no other bits, except for the sign of zero. -/
theorem enc_dec {F : Fmt} (hF : F.Ok) {a : Pat F} {y : ℚ} (h : dec F a = .fin y) :
    enc F (sgn F a) (dec F a) = a := by
  have hm : mag F a < infM F ∧ y = if sgn F a then -magVal F (mag F a) else magVal F (mag F a) := by
    unfold dec decMag at h
    by_cases h1 : mag F a < infM F
    · rw [if_pos h1] at h
      refine ⟨h1, ?_⟩
      split at h <;> rename_i hs
      · rw [if_pos hs]; exact (Fp.fin.inj h).symm
      · rw [if_neg hs]; exact (Fp.fin.inj h).symm
    · rw [if_neg h1] at h
      split at h <;> split at h <;> cases h
  obtain ⟨h1, h2⟩ := hm
  have h3 : |y| = magVal F (mag F a) := by
    rw [h2]
    split
    · rw [abs_neg, abs_of_nonneg (magVal_nonneg _)]
    · exact abs_of_nonneg (magVal_nonneg _)
  have h4 : encMag F |y| = mag F a := by
    have h5 : Rep F |y| := (rep_of_val (val_dec hF a) h).abs
    refine magVal_inj ((encMag_spec hF (abs_nonneg y) h5).2.trans h3)
  have h6 : (if y = 0 then sgn F a else decide (y < 0)) = sgn F a := by
    split
    · rfl
    · rename_i h0
      have := magVal_nonneg (F := F) (mag F a)
      cases hs : sgn F a
      · rw [hs] at h2
        simp only [Bool.false_eq_true, if_false] at h2
        exact decide_eq_false (by rw [h2]; exact not_lt.2 this)
      · rw [hs] at h2
        simp only [if_true] at h2
        exact decide_eq_true (lt_of_le_of_ne (by rw [h2]; linarith) h0)
  rw [h]
  change pack F _ _ = _
  rw [h4, h6]
  exact pack_self hF a

/-- A change of sign commutes with the conversion of a number to `double`. -/
theorem toD_neg {F : Fmt} (hF : F.Ok) (hp : F.p ≤ binary64.p) (hu : binary64.umin ≤ F.umin)
    (hemax : F.emax ≤ binary64.emax) {a : Pat F} {y : ℚ} (h : dec F a = .fin y) :
    enc binary64 (sgn F (bneg F a)) (dec F (bneg F a)) =
      bneg binary64 (enc binary64 (sgn F a) (dec F a)) := by
  have hs : sgn F (bneg F a) = !sgn F a := sgn_pack hF (mag_lt a) _
  have hr : Rep binary64 y := (rep_of_val (val_dec hF a) h).widen hp hu hemax
  have m2 : encMag binary64 |y| < 2 ^ (binary64.ew + binary64.p - 1) :=
    (encMag_spec ok64 (abs_nonneg y) hr.abs).1.trans (by have := infM_lt ok64; have := Nat.two_pow_pos (binary64.p - 1); omega)
  rw [dec_neg hF, h, hs]
  change pack _ _ _ = pack _ (!sgn _ (pack _ _ _)) (mag _ (pack _ _ _))
  rw [sgn_pack ok64 m2, mag_pack ok64 m2, abs_neg]
  congr 1
  by_cases h0 : y = 0
  · simp [h0]
  · rw [if_neg h0, if_neg (by simpa using h0)]
    rcases lt_or_gt_of_ne h0 with h | h
    · simp [h, h.le]
    · simp [h, h.le]

theorem cell_meanZero {F : Fmt} {r2 : Nat} {f : Online2D.Field (Pat F)} {c : Cell} {x y : ℝ}
    (hx0 : 0 ≤ x) (hx1 : x ≤ 1) (hy0 : 0 ≤ y) (hy1 : y ≤ 1)
    (h : (realQuad F r2 f c).val x y = (0, 0)) :
    MeanZero F f.u (cellIdx r2 c) ∧ MeanZero F f.v (cellIdx r2 c) := by
  simp only [Quad.val, realQuad, Cell.quad, Prod.mk.injEq] at h
  have hw : ∀ t ∈ [(1 - x) * (1 - y), x * (1 - y), x * y, (1 - x) * y], 0 ≤ t := by
    have a1 : 0 ≤ 1 - x := by linarith
    have a2 : 0 ≤ 1 - y := by linarith
    simp only [List.mem_cons, List.not_mem_nil, or_false]
    rintro t (rfl | rfl | rfl | rfl) <;> positivity
  have hs : [(1 - x) * (1 - y), x * (1 - y), x * y, (1 - x) * y].sum = 1 := by
    simp only [List.sum_cons, List.sum_nil]; ring
  refine ⟨⟨_, by simp [cellIdx, Cell.verts], hw, hs, ?_⟩, ⟨_, by simp [cellIdx, Cell.verts], hw, hs, ?_⟩⟩
  · simp only [cellIdx, Cell.verts, List.map_cons, List.map_nil, List.zipWith_cons_cons,
      List.zipWith_nil_left, List.sum_cons, List.sum_nil]
    linarith [h.1]
  · simp only [cellIdx, Cell.verts, List.map_cons, List.map_nil, List.zipWith_cons_cons,
      List.zipWith_nil_left, List.sum_cons, List.sum_nil]
    linarith [h.2]

/-! ### C101 -/

/-- **C101** The bilinear mode on IEEE-754 numbers, bytes to bytes.  As in C100; moreover the value
of the verification is the stored one, converted to `double`, whenever it is a number (`hex`).  Every
cell keeps what the extraction of critical points, any function of the four vectors at its corners,
finds in it; every component of every vertex keeps its sign; and a cell on whose corners a component
has one strict sign has no critical point, neither of the input nor of the result. -/
theorem C101_bilinear_cells {J : Type} (F : Fmt) (hFr : F = binary32 ∨ F = binary64)
    (tr : Pat binary64 → Int) (lg sq : Pat binary64 → Pat binary64) (lgT exT : Pat F → Pat F)
    (exp2D : Pat F → Pat binary64) (C : Check (Pat binary64) J) (eps : ℚ) (hlg : LogOk lg eps)
    (hup : LogUp lg) (H : ExpLogOk F lgT exT)
    (hlb : dec binary64 (lg (enc binary64 false (.fin 2))) = .fin 1)
    (he0 : 0 ≤ eps) (he1 : eps ≤ p2 (-31)) (cT : Codec (Pat F)) (E1 E2 : Env)
    (r1 r2 : Nat) (hn : 0 < r1 * r2) (hn2 : r1 * r2 < 2 ^ 59)
    (maxEb : Pat binary64) (e : ℚ) (hm : dec binary64 maxEb = .fin e) (hep : 0 ≤ e)
    (her : e ≤ 1) (m : Online2D.Field (Pat F))
    (hf : ∀ q, q < r1 * r2 → LogSize F 124 (m.u q) ∧ LogSize F 124 (m.v q))
    (hex : ∀ l y, dec F (exT l) = .fin y → exp2D l = (bitsOps F tr lg).toD (exT l)) :
    ∃ s' str, runBil F tr lg sq lgT exT exp2D C r1 r2 maxEb m = some (s', str) ∧
      (Shallow E2 (2 * 65536) str.dq →
        ∃ bs, compressBytesB (bitsL F tr lg lgT exT) cT E1 E2 (logMode F tr lg lgT exT r2) 2 32768
            (bilBound F tr lg sq r1 r2 maxEb) (bilVerify F tr lg lgT exT exp2D C r1 r2)
            (r1 * r2) (arr2 m) = some (s'.val, bs) ∧
          ∀ rest m0, ∃ d, VMode.decompressBytes (bitsL F tr lg lgT exT) cT (2 * 1024) false 2
              (logMode F tr lg lgT exT r2) (r1 * r2) m0 (bs ++ rest) = some d ∧
            CellsKept F (bitsOps F tr lg).toD C r1 r2 ⟨d 0, d 1⟩ m ∧
            ∀ q, q < r1 * r2 → SameSgn F (d 0 q) (m.u q) ∧ SameSgn F (d 1 q) (m.v q)) := by
  obtain ⟨s', str, h, hc⟩ := bil_full F hFr tr lg sq lgT exT exp2D C eps hlg hup H hlb he0 he1 cT E1
    E2 r1 r2 hn hn2 maxEb e hm hep her m hf
  refine ⟨s', str, h, fun hs => ?_⟩
  obtain ⟨bs, hbs, hd⟩ := hc hs
  refine ⟨bs, hbs, fun rest m0 => ?_⟩
  obtain ⟨d, d1, d2, d3⟩ := hd rest m0
  have su := signsKept_of (F := F) (n := r1 * r2) (d := d 0) (f := m.u)
    fun q hq => sameSgn_log (d3 q hq).1
  have sv := signsKept_of (F := F) (n := r1 * r2) (d := d 1) (f := m.v)
    fun q hq => sameSgn_log (d3 q hq).2
  refine ⟨d, d1, fun c hg => ⟨?_, ?_⟩, fun q hq => ⟨su.1 q hq, sv.1 q hq⟩⟩
  · have hw : F.Ok ∧ F.p ≤ binary64.p ∧ binary64.umin ≤ F.umin ∧ F.emax ≤ binary64.emax := by
      rcases hFr with rfl | rfl
      · exact ⟨ok32, by decide, by decide, by decide⟩
      · exact ⟨ok64, by decide, by decide, by decide⟩
    obtain ⟨hF, w1, w2, w3⟩ := hw
    have key := sig_or_bad (bitsL F tr lg lgT exT) exp2D (bneg binary64)
      (fun x => ∀ y, dec F x ≠ .fin y) (fun x l hb => ?_) C _ _ r1 r2 2 32768 _ m s' str h
      (fun c' q hc' hq hb => ?_) c hg
    · refine Eq.trans ?_ key
      congr 2
      obtain ⟨g1, g2⟩ := hg
      have fl := fun a b ha hb => Mesh2D.flat_lt r1 r2 a b ha hb
      have e' := fun c' a b hc' ha hb => d2 c' _ hc' (fl a b ha hb)
      simp only [Cell.quad, field2]
      rw [e' 0 c.a c.b (by omega) (by omega) (by omega), e' 1 c.a c.b (by omega) (by omega) (by omega),
        e' 0 c.a (c.b + 1) (by omega) (by omega) (by omega),
        e' 1 c.a (c.b + 1) (by omega) (by omega) (by omega),
        e' 0 (c.a + 1) (c.b + 1) (by omega) (by omega) (by omega),
        e' 1 (c.a + 1) (c.b + 1) (by omega) (by omega) (by omega),
        e' 0 (c.a + 1) c.b (by omega) (by omega) (by omega),
        e' 1 (c.a + 1) c.b (by omega) (by omega) (by omega)]
      rfl
    · simp only [ne_eq, not_forall, not_not] at hb
      obtain ⟨y, hy⟩ := hb
      unfold logBack at hy ⊢
      unfold backD
      split at hy <;> rename_i hp
      · rw [if_pos hp, if_pos hp]
        exact (hex l y hy).symm
      · rw [if_neg hp, if_neg hp]
        have hy' : dec F (exT l) = .fin (-y) := by
          have h1 : Fp.neg (dec F (exT l)) = .fin y := (dec_neg hF _).symm.trans hy
          cases h2 : dec F (exT l) with
          | nan => rw [h2] at h1; cases h1
          | inf s => rw [h2] at h1; cases h1
          | fin z =>
            rw [h2] at h1
            rw [← Fp.fin.inj h1, neg_neg]
        rw [hex l _ hy']
        exact toD_neg hF w1 w2 w3 hy'
    · have hc2 : c' = 0 ∨ c' = 1 := by omega
      rw [← d2 c' q hc' hq] at hb
      rcases hc2 with rfl | rfl
      · obtain ⟨Y, X, hY, -⟩ := (d3 q hq).1
        exact hb Y hY
      · obtain ⟨Y, X, hY, -⟩ := (d3 q hq).2
        exact hb Y hY
  · intro ho x y hx0 hx1 hy0 hy1
    have hS : ∀ q ∈ cellIdx r2 c, q < r1 * r2 := by
      obtain ⟨g1, g2⟩ := hg
      have fl := fun a b ha hb => Mesh2D.flat_lt r1 r2 a b ha hb
      intro q hq
      simp only [cellIdx, Cell.verts, List.map_cons, List.map_nil, List.mem_cons, List.not_mem_nil,
        or_false] at hq
      rcases hq with rfl | rfl | rfl | rfl <;> exact fl _ _ (by omega) (by omega)
    rcases ho with ho | ho
    · exact ⟨fun hz => (su.2 _ hS ho).1 (cell_meanZero hx0 hx1 hy0 hy1 hz).1,
        fun hz => (su.2 _ hS ho).2 (cell_meanZero hx0 hx1 hy0 hy1 hz).1⟩
    · exact ⟨fun hz => (sv.2 _ hS ho).1 (cell_meanZero hx0 hx1 hy0 hy1 hz).2,
        fun hz => (sv.2 _ hS ho).2 (cell_meanZero hx0 hx1 hy0 hy1 hz).2⟩

/-- **C101** For data of type `double` the hypothesis `hex` holds: both places of the code call the
same `exp2`, and a `double` is not changed by the conversion. -/
theorem C101_double (tr : Pat binary64 → Int) (lg exT : Pat binary64 → Pat binary64)
    (l : Pat binary64) (y : ℚ) (h : dec binary64 (exT l) = .fin y) :
    exT l = (bitsOps binary64 tr lg).toD (exT l) :=
  (enc_dec ok64 h).symm

/-- The hypotheses of `C101_bilinear_cells` are met by `oneCell` with the relative bound 1: all
vertices are coded, -7 becomes -8, and the component `v`, which is positive at all corners, is
positive at all corners of the result. -/
example (E1 E2 : Env) : OneSign binary32 oneCell.v (cellIdx 2 ⟨0, 0⟩) ∧ ∃ s' str bs,
    runBil binary32 (fun _ => 0) fineLog2 bsqrt (libLog binary32) (libExp binary32) libExpD signCheck
      2 2 ebUnit oneCell = some (s', str) ∧ str.eb = [22, 22, 22, 22] ∧
    dec binary32 (oneCell.u 3) = .fin (-7) ∧ dec binary32 (s'.val 0 3) = .fin (-8) ∧
    ∀ m0, ∃ d, VMode.decompressBytes
        (bitsL binary32 (fun _ => 0) fineLog2 (libLog binary32) (libExp binary32)) (wordCodec 4)
        (2 * 1024) false 2
        (logMode binary32 (fun _ => 0) fineLog2 (libLog binary32) (libExp binary32) 2) (2 * 2) m0 bs =
          some d ∧
      CellsKept binary32 (bitsOps binary32 (fun _ => 0) fineLog2).toD signCheck 2 2 ⟨d 0, d 1⟩
        oneCell := by
  have hm : dec binary64 ebUnit = .fin 1 := by decide +kernel
  have hos : OneSign binary32 oneCell.v (cellIdx 2 ⟨0, 0⟩) := by
    refine Or.inl fun q hq => ⟨num binary32 (oneCell.v q), ?_⟩
    have : ∀ q ∈ cellIdx 2 ⟨0, 0⟩,
        dec binary32 (oneCell.v q) = .fin (num binary32 (oneCell.v q)) ∧
        0 < num binary32 (oneCell.v q) := by decide +kernel
    exact this q hq
  obtain ⟨s', str, h, hc⟩ := C101_bilinear_cells binary32 (Or.inl rfl) (fun _ => 0) fineLog2 bsqrt
    (libLog binary32) (libExp binary32) libExpD signCheck 0 fineLog2_ok fineLog2_up
    (lib_ok ok32 (by decide) (by decide) (by decide)) fineLog2_two (le_refl 0) (p2_pos _).le
    (wordCodec 4) E1 E2 2 2 (by norm_num) (by norm_num) ebUnit _ hm (by norm_num) (by norm_num)
    oneCell (by
      intro q hq
      have : ∀ q ∈ [0, 1, 2, 3], logSizeB binary32 124 (oneCell.u q) = true ∧
        logSizeB binary32 124 (oneCell.v q) = true := by decide +kernel
      obtain ⟨a, b⟩ := this q (by simp; omega)
      exact ⟨logSize_of a, logSize_of b⟩) (fun _ _ _ => rfl)
  obtain ⟨f, t, h1, h2, h3, h4, h5⟩ := seenL_some cell_seen
  rw [h1] at h
  simp only [Option.some.injEq, Prod.mk.injEq] at h
  obtain ⟨rfl, rfl⟩ := h
  obtain ⟨bs, b1, b2⟩ := hc
    (shallow_of_short (by rw [h4]; simp) (by rw [h4]; simp) (by norm_num) (by rw [h4]; simp))
  refine ⟨hos, f, t, bs, h1, h3, by decide +kernel, ?_, fun m0 => ?_⟩
  · simp only [List.flatMap_cons, List.map_cons, List.cons_append, List.nil_append, List.map_nil,
      List.cons.injEq] at h5
    exact h5.2.2.2.2.1
  · obtain ⟨d, d1, d2, -⟩ := b2 [] m0
    rw [List.append_nil] at d1
    exact ⟨d, d1, d2⟩

end CpSZ.Ieee
