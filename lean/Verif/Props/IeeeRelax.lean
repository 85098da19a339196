import Verif.Props.Relax
import Verif.Props.IeeeCP
import Verif.Ieee.Sz3
import Verif.Ieee.Block
/-
Property C102: the relaxed 2D mode on IEEE-754 numbers, from bytes to bytes.
-/

namespace CpSZ.Ieee
open CpSZ.Online2D CpSZ.Mesh2D

/-- The operations of the relaxed mode on bit patterns (src/sz_compress_cp_preserve_2d.cpp
L1443-1449): the quotient and the sum are `double`s, `quant_diff` and its half have the element
type. `trT` is the conversion of an element to `int` where C++ leaves it undefined.  The sign of an
infinite `quant_diff` is ignored: the bound is never negative. -/
def relaxBits (F : Fmt) (trT : Pat F → Int) (tr : Pat binary64 → Int)
    (lg : Pat binary64 → Pat binary64) : Relax.ROps (Pat F) (Pat binary64) where
  toOps := bitsOps F tr lg
  quot d e :=
    let t := (bitsOps F tr lg).ofD (badd binary64 (bdiv binary64
      ((bitsOps F tr lg).toD (babs F d)) e) ((bitsD tr lg).ofInt 1))
    match dec F t with
    | .fin _ => some t
    | _ => none
  ltInt x n := Fp.lt (dec F x) (.fin n)
  pos x := Fp.lt (.fin 0) (dec F x)
  negT := bneg F
  half x := btruncT F trT (bdiv F x (enc F false (.fin 2)))
  isZero x := decide (dec F x = .fin 0)

/-- `check_cp` on bit patterns (src/sz_compress_cp_preserve_2d.cpp L1251-1298): the first two
coordinates are computed in the element type, the third in `double` and rounded.  No operations are
fused. -/
def chkBits (F : Fmt) : Relax.Test (Pat F) := fun p q w =>
  let a00 := bsub F p.1 w.1
  let a01 := bsub F q.1 w.1
  let a10 := bsub F p.2 w.2
  let a11 := bsub F q.2 w.2
  let b0 := bneg F w.1
  let b1 := bneg F w.2
  let D := bsub F (bmul F a00 a11) (bmul F a10 a01)
  let mu0 := bdiv F (bsub F (bmul F b0 a11) (bmul F a01 b1)) D
  let mu1 := bdiv F (bsub F (bmul F a00 b1) (bmul F b0 a10)) D
  let mu2 := conv binary64 F (bsub binary64 (bsub binary64 (enc binary64 false (.fin 1))
    (conv F binary64 mu0)) (conv F binary64 mu1))
  [mu0, mu1, mu2].all fun mu => Fp.le (.fin 0) (dec F mu) && Fp.le (dec F mu) (.fin 1)

/-- `sz_compress_cp_preserve_2d_online_abs_relax_FN`: the run on bit patterns.
(src/sz_compress_cp_preserve_2d.cpp L1328-1511; the parameters are those of the absolute mode.) -/
def runRelax (F : Fmt) (trT : Pat F → Int) (tr : Pat binary64 → Int)
    (lg : Pat binary64 → Pat binary64) (r1 r2 : Nat) (maxEb : Pat binary64)
    (m : Online2D.Field (Pat F)) : Option (Online2D.Field (Pat F) × Streams (Pat F)) :=
  Relax.compress (relaxBits F trT tr lg) (parBits lg) Relax.maxCount (chkBits F) r1 r2 maxEb m

/-- A second assumption on the library's `log2`: it is not below an integer `n` for a number that is
at least `2^n`. -/
def LogLow (lg : Pat binary64 → Pat binary64) : Prop :=
  ∀ a x l, dec binary64 a = .fin x → dec binary64 (lg a) = .fin l →
    ∀ n : Nat, 2 ^ n ≤ x → (n : ℚ) ≤ l

section
variable {F : Fmt} {trT : Pat F → Int} {tr : Pat binary64 → Int} {lg : Pat binary64 → Pat binary64}
  {eps : ℚ}

/-- The code of a bound of at least `4^j` thresholds is at least `j`. -/
theorem ebQuant_low (hlg : LogOk lg eps) (hlow : LogLow lg) (he1 : eps ≤ 1)
    {lb thr a : Pat binary64} (hlb : dec binary64 lb = .fin 2)
    (ht : dec binary64 thr = .fin (p2 (-52))) {A : ℚ} (ha : dec binary64 a = .fin A)
    (hA : A ≤ p2 400) {j : Nat} (hj0 : 0 < j) (hj : j ≤ 200) (hjA : p2 (-52 + 2 * j) ≤ A) :
    (j : Int) ≤ (CpSZ.ebQuant (bitsD tr lg) 4 lb thr a).2 := by
  have hO := bits_ieee (F := binary64) ok64 le_rfl le_rfl le_rfl tr hlg
  have hthr := p2_pos (-52)
  have hlt : p2 (-52) < A := lt_of_lt_of_le (p2_lt (by omega)) hjA
  have hle : (bitsD tr lg).le a thr = false := by
    change Fp.le (dec binary64 a) (dec binary64 thr) = _
    rw [ha, ht]
    simpa [Fp.le] using hlt
  have hq : dec binary64 ((bitsD tr lg).div a thr) = round binary64 (A / p2 (-52)) := by
    have := hO.div a thr (by rw [ht]; simp [hthr.ne'])
    rw [ha, ht] at this
    refine this.trans ?_
    simp [Fp.div, hthr.ne']
  have h1 : p2 (2 * j) ≤ A / p2 (-52) := by
    rw [le_div_iff₀ hthr, ← p2_add]
    rwa [show (2 * (j : Int) + -52) = -52 + 2 * j by ring]
  have hAt : A / p2 (-52) ≤ p2 500 := by
    rw [div_le_iff₀ hthr, ← p2_add]
    exact hA.trans (p2_le (by omega))
  have hpj := p2_pos (2 * (j : Int))
  obtain ⟨y, hy, hyb⟩ := round_bounded ok64 (b := p2 500)
    (rep_p2 (by decide) (by decide)) (x := A / p2 (-52))
    (by rw [abs_of_pos (by linarith)]; exact hAt)
  rw [hy] at hq
  have hyj : p2 (2 * j) ≤ y := round_ge ok64 (rep_p2 (by
      have : binary64.umin ≤ 0 := by decide
      omega) (by
      have : (400 : Int) ≤ binary64.emax := by decide
      omega)) hpj.le h1 hy
  have hy1 : 1 ≤ y := by
    refine le_trans ?_ hyj
    rw [← p2_zero]; exact p2_le (by omega)
  obtain ⟨l, hl, hl1, hl2⟩ := hlg _ _ hq hy1
  have hlow' := hlow _ _ l hq hl (2 * j) (by
    rw [← p2_nat]; push_cast; exact hyj)
  have hlup : l < 600 := by
    by_contra hc
    have h2 := hl2 600 (by push_cast; exact not_lt.1 hc)
    have h3 : (1 + eps) * y ≤ 2 * p2 500 :=
      mul_le_mul (by linarith) ((le_abs_self y).trans hyb) (by linarith) (by norm_num)
    have h4 : (2 : ℚ) ^ 600 = p2 600 := by rw [show (600 : Int) = ((600 : Nat) : Int) from rfl, p2_nat]
    have h5 := p2_succ 500
    have h6 : p2 (500 + 1) < p2 600 := p2_lt (by norm_num)
    rw [h4] at h2
    linarith
  have hz : dec binary64 ((bitsD tr lg).div ((bitsD tr lg).log2 ((bitsD tr lg).div a thr)) lb) =
      round binary64 (l / 2) := by
    have := hO.div ((bitsD tr lg).log2 ((bitsD tr lg).div a thr)) lb (by rw [hlb]; simp)
    refine this.trans ?_
    rw [hlb, show dec binary64 ((bitsD tr lg).log2 ((bitsD tr lg).div a thr)) = .fin l from hl]
    simp [Fp.div]
  obtain ⟨z, hz', hzb⟩ := round_bounded ok64 (b := ((600 : Int) : ℚ)) (rep_int ok64 (by decide))
    (x := l / 2) (by push_cast; rw [abs_le]; constructor <;> linarith)
  rw [hz'] at hz
  have hzj : ((j : Int) : ℚ) ≤ z := by
    refine round_ge ok64 (rep_int ok64 ?_) (by positivity) ?_ hz'
    · rw [abs_of_nonneg (by omega)]
      have : (200 : Int) ≤ 2 ^ binary64.p := by decide
      omega
    · push_cast at hlow' ⊢
      linarith
  have htr := hO.trunc _ _ hz (lt_of_le_of_lt hzb (by norm_num))
  have : (CpSZ.ebQuant (bitsD tr lg) 4 lb thr a).2 = truncQ z := by
    unfold CpSZ.ebQuant
    rw [hle]
    exact htr
  rw [this]
  unfold truncQ
  have h0 : (0 : ℚ) ≤ ((j : Int) : ℚ) := by positivity
  rw [if_pos (h0.trans hzj)]
  exact Int.le_floor.2 hzj

/-- The bounds that are tried: codes and values. -/
theorem tried_codes_low (hlg : LogOk lg eps) (hlow : LogLow lg)
    (hlb : dec binary64 (lg (enc binary64 false (.fin 4))) = .fin 2) (he0 : 0 ≤ eps) (he1 : eps ≤ 1)
    {maxEb : Pat binary64} {e : ℚ} (hm : dec binary64 maxEb = .fin e) (hel : p2 (-48) ≤ e)
    (her : e ≤ p2 399) {k : Nat} (hk : k ≤ Relax.maxCount) :
    ∃ id : Int, ∃ E : Int, 1 ≤ id ∧ id ≤ 227 ∧
      (CpSZ.ebQuant (bitsD tr lg) 4 (parBits lg).logBase (parBits lg).thr
        (Relax.tried (relaxBits F trT tr lg) (parBits lg) maxEb k)).2 = id ∧
      dec binary64 (CpSZ.ebQuant (bitsD tr lg) 4 (parBits lg).logBase (parBits lg).thr
        (Relax.tried (relaxBits F trT tr lg) (parBits lg) maxEb k)).1 = .fin (p2 E) ∧
      -52 < E ∧ E ≤ 402 ∧ p2 E ≤ (1 + eps) * (1 + p2 (-53)) * e ∧
      ∀ j : Nat, 2 ≤ j → j ≤ 200 → p2 (-52 + 2 * j) ≤ e → -52 + 2 * ((j : Int) - 1) ≤ E := by
  have hO := bits_ieee (F := binary64) ok64 le_rfl le_rfl le_rfl tr hlg
  have ht : dec binary64 (parBits lg).thr = .fin (p2 (-52)) :=
    dec_enc ok64 _ (rep_p2 (by decide) (by decide))
  have hs : (1 : ℚ) ≤ (1 + eps) * (1 + p2 (-53)) := by
    have := p2_pos (-53)
    nlinarith
  have main : ∀ (a : Pat binary64) (A : ℚ) (j : Nat), 0 < j → j ≤ 200 → dec binary64 a = .fin A →
      p2 (-52 + 2 * j) ≤ A → A ≤ p2 400 → ∃ id E : Int, (j : Int) ≤ id ∧ id ≤ 227 ∧
        E = 2 * id + -52 ∧
        (CpSZ.ebQuant (bitsD tr lg) 4 (parBits lg).logBase (parBits lg).thr a).2 = id ∧
        dec binary64 (CpSZ.ebQuant (bitsD tr lg) 4 (parBits lg).logBase (parBits lg).thr a).1 =
          .fin (p2 E) ∧ p2 E ≤ (1 + eps) * (1 + p2 (-53)) * A := by
    intro a A j hj0 hj ha hjA hA
    have h1 := ebQuant_low (tr := tr) hlg hlow he1 hlb ht ha hA hj0 hj hjA
    obtain ⟨E, E1, -, E3, E4⟩ := hO.ebQuant_code hlb ht (by norm_num) (by norm_num) he0 he1 ha hA
      (by change 0 < (CpSZ.ebQuant (bitsD tr lg) 4 _ _ a).2; omega)
    have E5 := hO.ebQuant_range hlb ht he0 he1 ha (R := 400) le_rfl hA
      (by change 0 < (CpSZ.ebQuant (bitsD tr lg) 4 _ _ a).2; omega)
    change 2 * (CpSZ.ebQuant (bitsD tr lg) 4 _ _ a).2 ≤ _ at E5
    exact ⟨_, E, h1, by omega, E1, rfl, E3, E4⟩
  obtain ⟨id, E, i1, i2, i3, i4, i5, i6⟩ := main maxEb e 2 (by norm_num) (by norm_num) hm
    (by simpa using hel) (her.trans (p2_le (by norm_num)))
  have low0 : ∀ j : Nat, 2 ≤ j → j ≤ 200 → p2 (-52 + 2 * j) ≤ e → -52 + 2 * (j : Int) ≤ E := by
    intro j h1 h2 h3
    have := ebQuant_low (tr := tr) hlg hlow he1 hlb ht hm (her.trans (p2_le (by norm_num)))
      (by omega) h2 h3
    have := this.trans (le_of_eq i4)
    omega
  have hk' : k = 0 ∨ k = 1 := by unfold Relax.maxCount at hk; omega
  rcases hk' with rfl | rfl
  · exact ⟨id, E, by omega, i2, i4, i5, by omega, by omega, i6,
      fun j h1 h2 h3 => by have := low0 j h1 h2 h3; omega⟩
  · have hE : p2 E ≤ p2 401 := by
      have h53 : p2 (-53) ≤ 1 := by rw [← p2_zero]; exact p2_le (by norm_num)
      have h4 : (1 + eps) * (1 + p2 (-53)) ≤ 4 := by
        have := mul_le_mul (show 1 + eps ≤ 2 by linarith) (show 1 + p2 (-53) ≤ 2 by linarith)
          (by linarith [p2_pos (-53)]) (by norm_num)
        linarith
      have h5 := p2_succ 399
      have h6 := p2_succ 400
      norm_num at h5 h6
      nlinarith [p2_pos (-48)]
    have hE' : E ≤ 401 := by
      by_contra hc
      exact absurd (p2_lt (show (401 : Int) < E by omega)) (not_lt.2 hE)
    have h2 : dec binary64 ((bitsD tr lg).ofInt 2) = .fin 2 := by
      exact (hO.ofInt_small (n := 2) (by norm_num)).trans (by norm_num)
    have hd : dec binary64 (Relax.tried (relaxBits F trT tr lg) (parBits lg) maxEb 1) =
        .fin (p2 (E - 1)) := by
      have := hO.div (CpSZ.ebQuant (bitsD tr lg) 4 (parBits lg).logBase (parBits lg).thr maxEb).1
        ((bitsD tr lg).ofInt 2) (by rw [h2]; simp)
      refine this.trans ?_
      rw [h2, i5]
      have h3 : p2 E / 2 = p2 (E - 1) := by
        have := p2_succ (E - 1)
        rw [show E - 1 + 1 = E by ring] at this
        rw [this]; ring
      simp only [Fp.div, show ((2 : ℚ) = 0) = False by simp, if_false, h3]
      exact round_rep ok64 (rep_p2 (by
        have : binary64.umin ≤ -60 := by decide
        omega) (by
        have : (401 : Int) ≤ binary64.emax := by decide
        omega))
    obtain ⟨id', E', j1, j2, j3, j4, j5, j6⟩ := main _ _ 1 (by norm_num) (by norm_num) hd
      (p2_le (by push_cast; omega)) (p2_le (by omega))
    refine ⟨id', E', by omega, j2, j4, j5, by omega, by omega, ?_, fun j h1 h2 h3 => ?_⟩
    swap
    · have h4 := low0 j h1 h2 h3
      have h5 := ebQuant_low (tr := tr) hlg hlow he1 hlb ht hd (p2_le (by omega)) (j := j - 1)
        (by omega) (by omega) (p2_le (by omega))
      have := h5.trans (le_of_eq j4)
      omega
    -- a power of two that is at most `(1 + small)·2^(E-1)` is at most `2^(E-1)·2`
    have h53 : p2 (-53) ≤ 1 := by rw [← p2_zero]; exact p2_le (by norm_num)
    have hlt : E' ≤ E := by
      by_contra hc
      have h7 : p2 (E + 1) ≤ p2 E' := p2_le (by omega)
      have h8 := p2_succ E
      have h9 := p2_succ (E - 1)
      rw [show E - 1 + 1 = E by ring] at h9
      have h10 := p2_pos (E - 1)
      have h4 : (1 + eps) * (1 + p2 (-53)) < 4 := by
        have h11 : p2 (-53) ≤ 1 / 2 := by
          have h12 := p2_succ (-1)
          have h13 : p2 (-53) ≤ p2 (-1) := p2_le (by norm_num)
          rw [show (-1 : Int) + 1 = 0 by norm_num, p2_zero] at h12
          linarith
        have := mul_le_mul (show 1 + eps ≤ 2 by linarith) (show 1 + p2 (-53) ≤ 3 / 2 by linarith)
          (by linarith [p2_pos (-53)]) (by norm_num)
        linarith
      nlinarith
    exact (p2_le hlt).trans i6

/-- The bounds that are tried, without the lower limit. -/
theorem tried_codes (hlg : LogOk lg eps) (hlow : LogLow lg)
    (hlb : dec binary64 (lg (enc binary64 false (.fin 4))) = .fin 2) (he0 : 0 ≤ eps) (he1 : eps ≤ 1)
    {maxEb : Pat binary64} {e : ℚ} (hm : dec binary64 maxEb = .fin e) (hel : p2 (-48) ≤ e)
    (her : e ≤ p2 399) {k : Nat} (hk : k ≤ Relax.maxCount) :
    ∃ id : Int, ∃ E : Int, 1 ≤ id ∧ id ≤ 227 ∧
      (CpSZ.ebQuant (bitsD tr lg) 4 (parBits lg).logBase (parBits lg).thr
        (Relax.tried (relaxBits F trT tr lg) (parBits lg) maxEb k)).2 = id ∧
      dec binary64 (CpSZ.ebQuant (bitsD tr lg) 4 (parBits lg).logBase (parBits lg).thr
        (Relax.tried (relaxBits F trT tr lg) (parBits lg) maxEb k)).1 = .fin (p2 E) ∧
      -52 < E ∧ E ≤ 402 ∧ p2 E ≤ (1 + eps) * (1 + p2 (-53)) * e := by
  obtain ⟨id, E, i1, i2, i3, i4, i5, i6, i7, -⟩ := tried_codes_low (F := F) (trT := trT) (tr := tr) hlg
    hlow hlb he0 he1 hm hel her hk
  exact ⟨id, E, i1, i2, i3, i4, i5, i6, i7⟩

/-- A finite `quant_diff`. -/
theorem quot_some (hF : F.Ok) (hp : F.p ≤ binary64.p) (hu : binary64.umin ≤ F.umin)
    (he : F.emax ≤ binary64.emax) (hlg : LogOk lg eps) {d : Pat F} {eb : Pat binary64} {E : Int}
    (heb : dec binary64 eb = .fin (p2 E)) {t : Pat F}
    (h : (relaxBits F trT tr lg).quot d eb = some t) :
    ∃ δ y z X : ℚ, dec F d = .fin δ ∧ round binary64 (|δ| / p2 E) = .fin y ∧
      round binary64 (y + 1) = .fin z ∧ round F z = .fin X ∧ dec F t = .fin X ∧ 0 ≤ X := by
  have hO := bits_ieee hF hp hu he tr hlg
  have hE := p2_pos E
  simp only [relaxBits] at h
  split at h
  swap
  · cases h
  rename_i X hX
  cases h
  have e1 : dec binary64 ((bitsD tr lg).ofInt 1) = .fin 1 :=
    (hO.ofInt_small (n := 1) (by norm_num)).trans (by norm_num)
  have e2 : dec binary64 ((bitsOps F tr lg).toD (babs F d)) = Fp.abs (dec F d) :=
    (hO.toD _).trans (dec_abs hF d)
  have e3 : dec binary64 (bdiv binary64 ((bitsOps F tr lg).toD (babs F d)) eb) =
      Fp.div (round binary64) (Fp.abs (dec F d)) (.fin (p2 E)) := by
    have := hO.div ((bitsOps F tr lg).toD (babs F d)) eb (by rw [heb]; simp [hE.ne'])
    rw [e2, heb] at this
    exact this
  have e4 := hX
  rw [hO.ofD] at e4
  have e5 : dec binary64 (badd binary64 (bdiv binary64 ((bitsOps F tr lg).toD (babs F d)) eb)
      ((bitsD tr lg).ofInt 1)) = Fp.add (round binary64)
        (Fp.div (round binary64) (Fp.abs (dec F d)) (.fin (p2 E))) (.fin 1) := by
    have := hO.add (bdiv binary64 ((bitsOps F tr lg).toD (babs F d)) eb) ((bitsD tr lg).ofInt 1)
    rw [e3, e1] at this
    exact this
  rw [e5] at e4
  cases hd : dec F d with
  | nan => rw [hd] at e4; simp [Fp.abs, Fp.div, Fp.add, narrow] at e4
  | inf s =>
    rw [hd] at e4
    simp only [Fp.abs, Fp.div] at e4
    simp [Fp.add, narrow] at e4
  | fin δ =>
    rw [hd, abs_fin] at e4
    simp only [Fp.div, if_neg hE.ne'] at e4
    have h0 : (0 : ℚ) ≤ |δ| / p2 E := div_nonneg (abs_nonneg _) hE.le
    cases hy : round binary64 (|δ| / p2 E) with
    | nan => exact absurd hy (round_not_nan _)
    | inf s => rw [hy] at e4; simp [Fp.add, narrow] at e4
    | fin y =>
      have y0 : 0 ≤ y := round_ge ok64 rep_zero le_rfl h0 hy
      rw [hy] at e4
      simp only [Fp.add] at e4
      cases hz : round binary64 (y + 1) with
      | nan => exact absurd hz (round_not_nan _)
      | inf s => rw [hz] at e4; simp [narrow] at e4
      | fin z =>
        have z0 : 0 ≤ z := round_ge ok64 rep_zero le_rfl (by linarith) hz
        rw [hz] at e4
        simp only [narrow] at e4
        exact ⟨δ, y, z, X, rfl, hy, hz, e4, hX, round_ge hF rep_zero le_rfl z0 e4⟩

/-- The codes of the data. -/
theorem tentative_code (hF : F.Ok) (hp : F.p ≤ binary64.p) (hu : binary64.umin ≤ F.umin)
    (he : F.emax ≤ binary64.emax) (hlg : LogOk lg eps) (hp2 : 1 ≤ F.p) (hemax : 15 ≤ F.emax)
    (humin : F.umin ≤ 0) {r2 : Nat} {f : Nat → Pat F} {p : Nat} {eb : Pat binary64} {E : Int}
    (heb : dec binary64 eb = .fin (p2 E)) {q : Int} {x : Pat F}
    (h : Relax.tentative (relaxBits F trT tr lg) (parBits lg) r2 f p eb = some (q, x)) :
    0 ≤ q ∧ q ≤ 65536 := by
  unfold Relax.tentative at h
  simp only at h
  generalize (relaxBits F trT tr lg).subT (f p) (lorenzo (relaxBits F trT tr lg).toOps r2 f p) = d at h
  cases hq : (relaxBits F trT tr lg).quot d eb with
  | none => rw [hq] at h; cases h
  | some qd =>
    obtain ⟨δ, y, z, X, hδ, hy, hz, hX, hqd, hX0⟩ := quot_some hF hp hu he hlg heb hq
    rw [hq] at h
    simp only at h
    split at h
    swap
    · cases h
    rename_i hlt
    simp only [Option.some.injEq, Prod.mk.injEq] at h
    obtain ⟨rfl, -⟩ := h
    have hX1 : X < 65536 := by
      change Fp.lt (dec F qd) (.fin (((65536 : Int)) : ℚ)) = true at hlt
      rw [hqd] at hlt
      simpa [Fp.lt] using hlt
    have h2 : dec F (enc F false (.fin 2)) = .fin 2 :=
      dec_enc hF _ (by
        change Rep F 2
        have := rep_int hF (n := 2) (by
          have : (2 : Int) ^ 1 ≤ 2 ^ F.p := pow_le_pow_right₀ (by norm_num) hp2
          simpa using this)
        simpa using this)
    have key : ∀ w : Pat F, ∀ W : ℚ, dec F w = .fin W → |W| < 65536 →
        |(relaxBits F trT tr lg).half w| ≤ 32768 := by
      intro w W hw hW
      have h3 : dec F (bdiv F w (enc F false (.fin 2))) = round F (W / 2) := by
        rw [dec_div hF _ _ (by rw [h2]; simp), hw, h2]
        simp [Fp.div]
      have h15 : p2 15 = 32768 := by rw [show (15 : Int) = ((15 : Nat) : Int) from rfl, p2_nat]; norm_num
      obtain ⟨v, v1, v2⟩ := round_bounded hF (x := W / 2) (rep_p2 (F := F) (k := 15) (by omega) hemax)
        (by rw [h15, abs_div]; norm_num; linarith)
      rw [h15] at v2
      change |btruncT F trT (bdiv F w (enc F false (.fin 2)))| ≤ _
      unfold btruncT
      rw [h3, v1]
      simp only
      rw [if_pos (by linarith)]
      have := truncQ_lt (w := v) (n := 32769) (by push_cast; linarith)
      omega
    have hh : |(relaxBits F trT tr lg).half (if (relaxBits F trT tr lg).pos d then qd
        else (relaxBits F trT tr lg).negT qd)| ≤ 32768 := by
      split
      · exact key _ _ hqd (by rw [abs_of_nonneg hX0]; exact hX1)
      · exact key _ (-X) (by
          change dec F (bneg F qd) = _
          rw [dec_neg hF, hqd]; rfl) (by rw [abs_neg, abs_of_nonneg hX0]; exact hX1)
    rw [abs_le] at hh
    change 0 ≤ _ + (32768 : Int) ∧ _ + (32768 : Int) ≤ 65536
    omega

/-! ### Distance to the original -/

/-- Error of a rounding, subnormal results included. -/
theorem round_err {x y : ℚ} (h : round F x = .fin y) :
    |y - x| ≤ p2 (-F.p) * (|x| + p2 F.emin) := by
  obtain ⟨h1, -, h3, h4⟩ := round_fin h
  have h2 : |y - x| = abs (rmag F |x| - |x|) := by
    rw [← h1]
    rcases le_total 0 x with hx | hx
    · rw [abs_of_nonneg hx, abs_of_nonneg (h3 hx)]
    · rw [abs_of_nonpos hx, abs_of_nonpos (h4 hx), ← abs_neg]
      congr 1; ring
  have hp := p2_pos (-F.p)
  have he := p2_pos F.emin
  rw [h2]
  rcases le_or_gt (p2 F.emin) |x| with hc | hc
  · refine (rmag_rel hc).trans (mul_le_mul_of_nonneg_left (by linarith) hp.le)
  · rcases eq_or_lt_of_le (abs_nonneg x) with h0 | h0
    · rw [← h0, rmag_zero]
      simp only [sub_zero, abs_zero, zero_add]
      positivity
    · obtain ⟨l1, -⟩ := ilog_spec h0
      have hl : ilog |x| < F.emin := lt_of_p2_lt (lt_of_le_of_lt l1 hc)
      have hu : F.ulp |x| = F.umin := by unfold Fmt.ulp Fmt.umin; omega
      rw [rmag_pos_eq h0]
      have e : (rne (|x| / p2 (F.ulp |x|)) : ℚ) * p2 (F.ulp |x|) - |x| =
          ((rne (|x| / p2 (F.ulp |x|)) : ℚ) - |x| / p2 (F.ulp |x|)) * p2 (F.ulp |x|) := by
        rw [sub_mul, div_mul_cancel₀ _ (p2_pos _).ne']
      rw [e, abs_mul, abs_of_pos (p2_pos (F.ulp |x|)), hu]
      calc _ ≤ 1 / 2 * p2 F.umin := mul_le_mul_of_nonneg_right (hu ▸ rne_near _) (p2_pos _).le
        _ = p2 (-F.p) * p2 F.emin := by
          have : p2 F.umin = 2 * (p2 (-F.p) * p2 F.emin) := by
            rw [← p2_add, ← p2_succ, Fmt.umin]; congr 1; ring
          rw [this]; ring
        _ ≤ _ := mul_le_mul_of_nonneg_left (by linarith) hp.le

/-- Errors of `quant_diff`. -/
theorem qd_err {u w D y z X : ℚ} (hu0 : 0 < u) (hu : u ≤ 1 / 2 ^ 24) (hw : w ≤ u)
    (hD : 0 ≤ D) (hy0 : 0 ≤ y) (hz0 : 0 ≤ z) (hX : X < 65536)
    (h1 : |y - D| ≤ w * (D + 1)) (h2 : |z - (y + 1)| ≤ w * (y + 1 + 1))
    (h3 : |X - z| ≤ u * (z + 1)) : |X - (D + 1)| ≤ 3 * 65540 * u ∧ D ≤ 65539 := by
  rw [abs_le] at h1 h2 h3
  norm_num at hu
  have hz : z ≤ 65537 := by
    by_contra hc
    push Not at hc
    nlinarith
  have hy : y ≤ 65538 := by
    by_contra hc
    push Not at hc
    nlinarith
  have hD' : D ≤ 65539 := by
    by_contra hc
    push Not at hc
    nlinarith
  have e1 : w * (D + 1) ≤ u * 65540 := mul_le_mul hw (by linarith) (by linarith) hu0.le
  have e2 : w * (y + 1 + 1) ≤ u * 65540 := mul_le_mul hw (by linarith) (by linarith) hu0.le
  have e3 : u * (z + 1) ≤ u * 65540 := mul_le_mul_of_nonneg_left (by linarith) hu0.le
  refine ⟨?_, hD'⟩
  rw [abs_le]
  constructor <;> linarith

/-- Distance of the value that is coded, before the last two roundings. -/
theorem step_err {u S δ X v C P σ τ : ℚ} {k : Int} (hu0 : 0 < u) (hu : u ≤ 1 / 2 ^ 24) (hS : 0 < S)
    (hX : X < 65536) (hq : |X - (|δ| / S + 1)| ≤ 3 * 65540 * u) (hD : |δ| / S ≤ 65539)
    (hv : |v - X / 2| ≤ u * (X / 2 + 1)) (hk : (k : ℚ) ≤ v ∧ v < k + 1) (hτ : τ ≤ S)
    (hδ : |δ - (C - P)| ≤ u * (|C - P| + τ)) (hσ : σ * |δ| = δ) (hσ1 : |σ| = 1) :
    |P + σ * (2 * k) * S - C| ≤ (1 + 5 * 65542 * u) * S := by
  norm_num at hu
  have hDS : |δ| = |δ| / S * S := by field_simp
  set D := |δ| / S with hDdef
  have hD0 : 0 ≤ D := div_nonneg (abs_nonneg _) hS.le
  have hvX : u * (X / 2 + 1) ≤ u * 32769 := mul_le_mul_of_nonneg_left (by linarith) hu0.le
  rw [abs_le] at hq hv
  have hkD : |2 * (k : ℚ) - D| ≤ 1 + 4 * 65540 * u := by
    rw [abs_le]; constructor <;> linarith [hk.1, hk.2]
  have hCP : |C - P| ≤ 65541 * S := by
    have h1 : |C - P| ≤ |δ| + u * (|C - P| + τ) := by
      have := abs_sub_abs_le_abs_sub (C - P) δ
      rw [abs_sub_comm (C - P) δ] at this
      linarith
    by_contra hc
    push Not at hc
    have h2 : |δ| ≤ 65539 * S := by rw [hDS]; exact mul_le_mul_of_nonneg_right hD hS.le
    nlinarith
  have h4 : |δ - (C - P)| ≤ 65542 * u * S := by
    refine hδ.trans ?_
    nlinarith
  have h5 : |σ * (2 * k) * S - δ| ≤ (1 + 4 * 65540 * u) * S := by
    have : σ * (2 * k) * S - δ = σ * ((2 * k - D) * S) := by
      conv_lhs => rw [← hσ, hDS]
      ring
    rw [this, abs_mul, hσ1, one_mul, abs_mul, abs_of_pos hS]
    exact mul_le_mul_of_nonneg_right hkD hS.le
  have h6 : P + σ * (2 * k) * S - C = (σ * (2 * k) * S - δ) + (δ - (C - P)) := by ring
  rw [h6]
  refine (abs_add_le _ _).trans ?_
  nlinarith

/-- The last two roundings. -/
theorem last_err {u w S C W t x τ τ' : ℚ} (hu0 : 0 < u) (hu : u ≤ 1 / 2 ^ 24)
    (hw : w ≤ u) (hS : 0 < S) (hτ0' : 0 ≤ τ') (hτ : τ ≤ S) (hτ' : τ' ≤ S)
    (hW : |W - C| ≤ (1 + 5 * 65542 * u) * S)
    (ht : |t - W| ≤ w * (|W| + τ')) (hx : |x - t| ≤ u * (|t| + τ)) :
    |x - C| ≤ (1 + 524288 * u) * S + 4 * u * |C| := by
  norm_num at hu
  have hC := abs_nonneg C
  have h1 : |W| ≤ |C| + 2 * S := by
    have := abs_sub_abs_le_abs_sub W C
    nlinarith
  have h2 : w * (|W| + τ') ≤ u * (|C| + 3 * S) :=
    mul_le_mul hw (by linarith) (add_nonneg (abs_nonneg _) hτ0') hu0.le
  have h3 : |t| ≤ 2 * |C| + 3 * S := by
    have := abs_sub_abs_le_abs_sub t W
    nlinarith
  have h4 : u * (|t| + τ) ≤ u * (2 * |C| + 4 * S) := mul_le_mul_of_nonneg_left (by linarith) hu0.le
  have h5 : x - C = (x - t) + ((t - W) + (W - C)) := by ring
  have h6 : |x - C| ≤ |x - t| + (|t - W| + |W - C|) := by
    rw [h5]
    exact (abs_add_le _ _).trans (by linarith [abs_add_le (t - W) (W - C)])
  nlinarith [mul_pos hu0 hS]

theorem truncQ_neg (v : ℚ) : truncQ (-v) = -truncQ v := by
  unfold truncQ
  rcases lt_trichotomy v 0 with h | rfl | h
  · rw [if_pos (by linarith), if_neg (by linarith), Int.floor_neg]
  · simp
  · rw [if_neg (by linarith), if_pos (by linarith), Int.ceil_neg]

/-- The value that is coded. -/
theorem tentative_near (hF : F.Ok) (hp : F.p ≤ binary64.p) (hu : binary64.umin ≤ F.umin)
    (he : F.emax ≤ binary64.emax) (hlg : LogOk lg eps) (hp24 : 24 ≤ F.p) (hemax : 100 ≤ F.emax)
    {r2 : Nat} {f : Nat → Pat F} {p : Nat} {eb : Pat binary64} {E : Int} (hE1 : -52 < E)
    (hE2 : E ≤ 402) (hE3 : E + 4 ≤ F.emax)
    (heb : dec binary64 eb = .fin (p2 E)) {q : Int} {x : Pat F}
    (h : Relax.tentative (relaxBits F trT tr lg) (parBits lg) r2 f p eb = some (q, x)) {C : ℚ}
    (hC : dec F (f p) = .fin C) (hCb : |C| ≤ p2 (F.emax - 2)) :
    ∃ X, dec F x = .fin X ∧
      |X - C| ≤ (1 + p2 (19 - F.p)) * p2 E + p2 (2 - F.p) * |C| := by
  have hO := bits_ieee hF hp hu he tr hlg
  have hS := p2_pos E
  have hu0 := p2_pos (-F.p)
  have hw0 := p2_pos (-53)
  have hu24 : p2 (-F.p) ≤ 1 / 2 ^ 24 := by
    have h1 : p2 (-F.p) ≤ p2 (-24) := p2_le (by omega)
    have h2 : p2 (-24) * p2 24 = 1 := by rw [← p2_add]; exact p2_zero
    have h3 : p2 24 = 2 ^ 24 := by rw [show (24 : Int) = ((24 : Nat) : Int) from rfl, p2_nat]
    rw [h3] at h2
    norm_num at h2 ⊢
    linarith
  have hwu : p2 (-53) ≤ p2 (-F.p) := by
    have : F.p ≤ 53 := hp
    exact p2_le (by omega)
  have hτ : p2 F.emin ≤ p2 E := p2_le (by unfold Fmt.emin; omega)
  have hτ64 : p2 binary64.emin ≤ p2 E := by
    have : binary64.emin ≤ -52 := by decide
    exact p2_le (by omega)
  have hτ1 : p2 F.emin ≤ 1 := by rw [← p2_zero]; exact p2_le (by unfold Fmt.emin; omega)
  have hτ641 : p2 binary64.emin ≤ 1 := by rw [← p2_zero]; exact p2_le (by decide)
  unfold Relax.tentative at h
  simp only at h
  generalize hpred : lorenzo (relaxBits F trT tr lg).toOps r2 f p = pred at h
  cases hq : (relaxBits F trT tr lg).quot ((relaxBits F trT tr lg).subT (f p) pred) eb with
  | none => rw [hq] at h; cases h
  | some qd =>
    obtain ⟨δ, y, z, X, hδ, hy, hz, hX, hqd, hX0⟩ := quot_some hF hp hu he hlg heb hq
    rw [hq] at h
    simp only at h
    split at h
    swap
    · cases h
    rename_i hlt
    simp only [Option.some.injEq, Prod.mk.injEq] at h
    obtain ⟨hqv, hxv⟩ := h
    rw [hqv] at hxv
    have hX1 : X < 65536 := by
      change Fp.lt (dec F qd) (.fin (((65536 : Int)) : ℚ)) = true at hlt
      rw [hqd] at hlt
      simpa [Fp.lt] using hlt
    -- the prediction is a number
    have hsub : dec F ((relaxBits F trT tr lg).subT (f p) pred) =
        Fp.sub (round F) (.fin C) (dec F pred) := by
      rw [← hC]; exact hO.subT _ _
    obtain ⟨P, hP⟩ : ∃ P, dec F pred = .fin P := by
      rw [hδ] at hsub
      cases hp : dec F pred with
      | nan => rw [hp] at hsub; simp [Fp.sub, Fp.neg, Fp.add] at hsub
      | inf s => rw [hp] at hsub; simp [Fp.sub, Fp.neg, Fp.add] at hsub
      | fin P => exact ⟨P, rfl⟩
    rw [hP, sub_fin, hδ] at hsub
    have hδe := round_err hsub.symm
    have hD0 : 0 ≤ |δ| / p2 E := div_nonneg (abs_nonneg _) hS.le
    have hy0 : 0 ≤ y := (round_fin hy).2.2.1 hD0
    have hz0 : 0 ≤ z := (round_fin hz).2.2.1 (by linarith)
    have ey := round_err hy
    have ez := round_err hz
    have eX := round_err hX
    rw [abs_of_nonneg hD0] at ey
    rw [abs_of_nonneg (show 0 ≤ y + 1 by linarith)] at ez
    rw [abs_of_nonneg hz0] at eX
    obtain ⟨q1, q2⟩ := qd_err hu0 hu24 hwu hD0 hy0 hz0 hX1
      (ey.trans (mul_le_mul_of_nonneg_left (by linarith) hw0.le))
      (ez.trans (mul_le_mul_of_nonneg_left (by linarith) hw0.le))
      (eX.trans (mul_le_mul_of_nonneg_left (by linarith) hu0.le))
    -- half of it
    have h2 : dec F (enc F false (.fin 2)) = .fin 2 :=
      dec_enc hF _ (by
        change Rep F 2
        have := rep_int hF (n := 2) (by
          have : (2 : Int) ^ 1 ≤ 2 ^ F.p := pow_le_pow_right₀ (by norm_num) (by omega)
          simpa using this)
        simpa using this)
    have h15 : p2 15 = 32768 := by
      rw [show (15 : Int) = ((15 : Nat) : Int) from rfl, p2_nat]; norm_num
    have hum := (emin_le hF).2.1
    obtain ⟨v, v1, v2⟩ := round_bounded hF (x := X / 2)
      (rep_p2 (F := F) (k := 15) (by omega) (by omega))
      (by rw [h15, abs_of_nonneg (by linarith)]; linarith)
    rw [h15] at v2
    have hv0 : 0 ≤ v := (round_fin v1).2.2.1 (by linarith)
    have ev := round_err v1
    rw [abs_of_nonneg (show 0 ≤ X / 2 by linarith)] at ev
    have hdiv : ∀ w : Pat F, ∀ W : ℚ, dec F w = .fin W →
        dec F (bdiv F w (enc F false (.fin 2))) = round F (W / 2) := by
      intro w W hw
      rw [dec_div hF _ _ (by rw [h2]; simp), hw, h2]
      simp [Fp.div]
    have hfl : truncQ v = ⌊v⌋ := if_pos hv0
    have hkv : ((truncQ v : Int) : ℚ) ≤ v ∧ v < (truncQ v : Int) + 1 := by
      rw [hfl]; exact ⟨Int.floor_le v, Int.lt_floor_add_one v⟩
    have hk0 : 0 ≤ truncQ v := by rw [hfl]; exact Int.floor_nonneg.2 hv0
    have hk1 : truncQ v ≤ 32768 := by
      have : ((truncQ v : Int) : ℚ) ≤ ((32768 : Int) : ℚ) := by
        push_cast
        exact hkv.1.trans (by rwa [abs_of_nonneg hv0] at v2)
      exact_mod_cast this
    -- the signed code
    obtain ⟨σ, hσ, hσ1, hσq⟩ : ∃ σ : Int, ((σ : ℚ) * |δ| = δ) ∧ (σ = 1 ∨ σ = -1) ∧
        q - 32768 = σ * truncQ v := by
      have hpos : (relaxBits F trT tr lg).pos ((relaxBits F trT tr lg).subT (f p) pred) =
          decide (0 < δ) := by
        change Fp.lt (.fin 0) (dec F _) = _
        rw [hδ]; rfl
      rw [hpos] at hqv
      by_cases hd : 0 < δ
      · refine ⟨1, by rw [abs_of_pos hd]; simp, Or.inl rfl, ?_⟩
        simp only [hd, decide_true, if_true] at hqv
        have h3 : (relaxBits F trT tr lg).half qd = truncQ v := by
          change btruncT F trT (bdiv F qd (enc F false (.fin 2))) = _
          unfold btruncT
          rw [hdiv _ _ hqd, v1]
          simp only
          rw [if_pos (by linarith)]
        rw [h3] at hqv
        change truncQ v + (32768 : Int) = q at hqv
        omega
      · refine ⟨-1, by rw [abs_of_nonpos (not_lt.1 hd)]; simp, Or.inr rfl, ?_⟩
        simp only [hd, decide_false, Bool.false_eq_true, if_false] at hqv
        have h4 : dec F ((relaxBits F trT tr lg).negT qd) = .fin (-X) := by
          change dec F (bneg F qd) = _
          rw [dec_neg hF, hqd]; rfl
        have h3 : (relaxBits F trT tr lg).half ((relaxBits F trT tr lg).negT qd) = -truncQ v := by
          change btruncT F trT (bdiv F _ (enc F false (.fin 2))) = _
          unfold btruncT
          rw [hdiv _ _ h4, neg_div, round_neg hF, v1]
          simp only [Fp.neg]
          rw [if_pos (by rw [abs_neg]; linarith), truncQ_neg]
        rw [h3] at hqv
        change -truncQ v + (32768 : Int) = q at hqv
        omega
    have hσa : |(σ : ℚ)| = 1 := by rcases hσ1 with rfl | rfl <;> simp
    have hstep := step_err (k := truncQ v) hu0 hu24 hS hX1 q1 q2
      (ev.trans (mul_le_mul_of_nonneg_left (by linarith) hu0.le)) hkv hτ hδe hσ hσa
    -- the reconstruction
    have hk2 : |2 * (q - 32768)| ≤ 2 ^ 53 := by
      rw [hσq]
      rcases hσ1 with rfl | rfl <;> rw [abs_le] <;> constructor <;> norm_num <;> omega
    have hoff : dec binary64 (linOffset (bitsD tr lg) eb 32768 q) =
        .fin ((σ : ℚ) * (2 * (truncQ v : Int)) * p2 E) := by
      have h3 := hO.mul ((bitsD tr lg).ofInt (2 * (q - 32768))) eb
      have h4 : dec binary64 ((bitsD tr lg).ofInt (2 * (q - 32768))) = .fin ((2 * (q - 32768) : Int) : ℚ) :=
        hO.ofInt_small hk2
      rw [h4, heb] at h3
      refine h3.trans ?_
      have h5 : (((2 * (q - 32768) : Int) : ℚ)) * p2 E = (σ : ℚ) * (2 * (truncQ v : Int)) * p2 E := by
        rw [hσq]; push_cast; ring
      simp only [Fp.mul]
      rw [← h5]
      refine round_rep ok64 ⟨2 * (q - 32768), E, rfl, hk2, ?_, ?_⟩
      · have : binary64.umin ≤ -52 := by decide
        omega
      · rw [abs_mul, abs_of_pos hS]
        have h6 : |((2 * (q - 32768) : Int) : ℚ)| ≤ p2 53 := by
          rw [show (53 : Int) = ((53 : Nat) : Int) from rfl, p2_nat]
          exact_mod_cast hk2
        calc _ ≤ p2 53 * p2 E := mul_le_mul_of_nonneg_right h6 hS.le
          _ = p2 (53 + E) := (p2_add _ _).symm
          _ < _ := p2_lt (by
            have : (500 : Int) ≤ binary64.emax := by decide
            omega)
    obtain ⟨W, hWd⟩ : ∃ W, W = P + (σ : ℚ) * (2 * (truncQ v : Int)) * p2 E := ⟨_, rfl⟩
    rw [← hWd] at hstep
    have hWb : |W| ≤ p2 (F.emax - 1) := by
      have h1 := abs_sub_abs_le_abs_sub W C
      have h3 : p2 (E + 1) ≤ p2 (F.emax - 2) := p2_le (by omega)
      rw [p2_succ] at h3
      have h4 : p2 (F.emax - 1) = 2 * p2 (F.emax - 2) := by
        rw [← p2_succ]; congr 1; ring
      norm_num at hu24
      nlinarith
    have hub : binary64.umin ≤ 0 := by decide
    obtain ⟨t, t1, t2⟩ := round_bounded ok64 (rep_p2 (F := binary64) (k := F.emax - 1) (by omega)
      (by omega)) hWb
    obtain ⟨x', x1, -⟩ := round_bounded hF (rep_p2 (F := F) (k := F.emax - 1) (by omega)
      (by omega)) t2
    have hxd : dec F x = .fin x' := by
      rw [← hxv]
      have a1 := hO.add ((bitsOps F tr lg).toD pred) (linOffset (bitsD tr lg) eb 32768 q)
      rw [hO.toD, hP, hoff] at a1
      simp only [Fp.add] at a1
      rw [← hWd, t1] at a1
      refine (hO.ofD _).trans ?_
      have a2 : dec binary64 ((relaxBits F trT tr lg).add ((relaxBits F trT tr lg).toD pred)
        (linOffset (relaxBits F trT tr lg).toDOps eb (parBits lg).radius q)) = .fin t := a1
      rw [a2]
      exact x1
    refine ⟨x', hxd, ?_⟩
    have e1 := round_err t1
    have e2 := round_err x1
    have := last_err hu0 hu24 hwu hS (p2_pos binary64.emin).le hτ hτ64 hstep
      e1 e2
    have e3 : p2 (19 - F.p) = 524288 * p2 (-F.p) := by
      rw [sub_eq_add_neg, p2_add, show (19 : Int) = ((19 : Nat) : Int) from rfl, p2_nat]; norm_num
    have e4 : p2 (2 - F.p) = 4 * p2 (-F.p) := by
      rw [sub_eq_add_neg, p2_add, show (2 : Int) = ((2 : Nat) : Int) from rfl, p2_nat]; norm_num
    rw [e3, e4]
    exact this

/-- Codes of a run. -/
theorem relax_codes (hF : F.Ok) (hp : F.p ≤ binary64.p) (hu : binary64.umin ≤ F.umin)
    (he : F.emax ≤ binary64.emax) (hp2 : 1 ≤ F.p) (hemax : 15 ≤ F.emax)
    (humin : F.umin ≤ 0) (hlg : LogOk lg eps) (hlow : LogLow lg)
    (hlb : dec binary64 (lg (enc binary64 false (.fin 4))) = .fin 2) (he0 : 0 ≤ eps) (he1 : eps ≤ 1)
    {maxEb : Pat binary64} {e : ℚ} (hm : dec binary64 maxEb = .fin e) (hel : p2 (-48) ≤ e)
    (her : e ≤ p2 399) {r1 r2 : Nat} {m m' : Online2D.Field (Pat F)} {s : Streams (Pat F)}
    (h : runRelax F trT tr lg r1 r2 maxEb m = some (m', s)) :
    (∃ a b : Int, ∀ x ∈ s.eb, (x = 0 ∨ x = a ∨ x = b) ∧ 0 ≤ x ∧ x ≤ 227) ∧
      ∀ x ∈ s.dq, 0 ≤ x ∧ x ≤ 65536 := by
  unfold runRelax Relax.compress at h
  split at h
  · cases h
  rename_i s1 ws hs
  simp only [Option.some.injEq, Prod.mk.injEq] at h
  obtain ⟨rfl, rfl⟩ := h
  let idOf := fun k => (CpSZ.ebQuant (bitsD tr lg) 4 (parBits lg).logBase (parBits lg).thr
        (Relax.tried (relaxBits F trT tr lg) (parBits lg) maxEb k)).2
  have := scanEnc_forall_inv _ (fun _ _ => True)
    (fun w : VCode (Pat F) => (∀ x ∈ w.eb, (x = 0 ∨ x = idOf 0 ∨ x = idOf 1) ∧ 0 ≤ x ∧ x ≤ 227) ∧
      ∀ x ∈ w.dq (parBits lg).radius, 0 ≤ x ∧ x ≤ 65536) (r1 * r2) 0
    (fun q s s' w _ hq _ hst => by
      refine ⟨trivial, ?_⟩
      obtain ⟨i, j, hi, hj, rfl⟩ := Relax.flat r1 r2 q (by omega)
      obtain ⟨s2, w2, e2, hcases⟩ := Relax.encVertex_cases (relaxBits F trT tr lg) (parBits lg)
        Relax.maxCount (chkBits F) r1 r2 i j maxEb m s hi hj
      rw [e2] at hst
      cases hst
      rcases hcases with ⟨-, rfl⟩ | ⟨c, -, -, hacc, -, rfl⟩
      · constructor
        · simp [VCode.eb]
        · simp only [VCode.dq, List.mem_cons, List.not_mem_nil, or_false, or_self]
          rintro x rfl
          change (0 : Int) ≤ 32768 ∧ (32768 : Int) ≤ 65536
          decide
      · obtain ⟨k, hk, hid, h0, h1⟩ := hacc.bound
        obtain ⟨id, E, i1, i2, i3, i4, -⟩ := tried_codes (F := F) (trT := trT) (tr := tr) hlg hlow hlb
          he0 he1 hm hel her hk
        have c0 := tentative_code hF hp hu he hlg hp2 hemax humin i4 h0
        have c1 := tentative_code hF hp hu he hlg hp2 hemax humin i4 h1
        have hid' : c.id = id := hid.trans i3
        have hk' : k = 0 ∨ k = 1 := by unfold Relax.maxCount at hk; omega
        constructor
        · simp only [VCode.eb, List.mem_cons, List.not_mem_nil, or_false, or_self]
          rintro x rfl
          refine ⟨?_, by omega, by omega⟩
          rcases hk' with rfl | rfl
          · exact Or.inr (Or.inl hid)
          · exact Or.inr (Or.inr hid)
        · simp only [VCode.dq, List.mem_cons, List.not_mem_nil, or_false]
          rintro x (rfl | rfl)
          · exact c0
          · exact c1) (m, 0) s1 ws trivial hs
  refine ⟨⟨idOf 0, idOf 1, fun x hx => ?_⟩, fun x hx => ?_⟩
  · obtain ⟨w, hw, hxw⟩ := List.mem_flatMap.1 hx
    exact (this.2 w hw).1 x hxw
  · obtain ⟨w, hw, hxw⟩ := List.mem_flatMap.1 hx
    exact (this.2 w hw).2 x hxw

/-- If `c` is a number of at most `2^(emax-2)`, then `x` is a number, and the distance is at most
`a + b·|c|`. -/
def NearTo (F : Fmt) (a b : ℚ) (x c : Pat F) : Prop :=
  ∀ C, dec F c = .fin C → |C| ≤ p2 (F.emax - 2) →
    ∃ X, dec F x = .fin X ∧ |X - C| ≤ a + b * |C|

theorem NearTo.refl {a b : ℚ} (ha : 0 ≤ a) (hb : 0 ≤ b) (c : Pat F) : NearTo F a b c c :=
  fun C hC _ => ⟨C, hC, by
    have := mul_nonneg hb (abs_nonneg C)
    simpa using by linarith⟩

theorem NearTo.mono {a a' b : ℚ} (h : a ≤ a') {x c : Pat F} (hx : NearTo F a b x c) :
    NearTo F a' b x c := fun C hC hb => by
  obtain ⟨X, h1, h2⟩ := hx C hC hb
  exact ⟨X, h1, by linarith⟩

/-- What the decompressed field `d` has in common with the data `m`. -/
structure RelaxKept (F : Fmt) (a b : ℚ) (r1 r2 : Nat) (m d : Online2D.Field (Pat F)) : Prop where
  /-- distance -/
  near : ∀ q, q < r1 * r2 → NearTo F a b (d.u q) (m.u q) ∧ NearTo F a b (d.v q) (m.v q)
  /-- zero vectors -/
  zero : ∀ q, q < r1 * r2 → dec F (m.u q) = .fin 0 → dec F (m.v q) = .fin 0 →
    d.u q = m.u q ∧ d.v q = m.v q
  /-- triangles that test positive -/
  kept : ∀ t : Tri, t.inGrid r1 r2 → Relax.triTest (chkBits F) r2 m t = true → SameAt r2 t d m
  /-- triangles that test negative -/
  neg : ∀ t : Tri, t.inGrid r1 r2 → Relax.triTest (chkBits F) r2 m t = false → SameAt r2 t d m ∨
    ∃ P Q R, t.verts.Perm [P, Q, R] ∧
      chkBits F (Relax.vecAt r2 d P) (Relax.vecAt r2 d Q) (Relax.vecAt r2 d R) = false

theorem relax_near (hF : F.Ok) (hp : F.p ≤ binary64.p) (hu : binary64.umin ≤ F.umin)
    (he : F.emax ≤ binary64.emax) (hp24 : 24 ≤ F.p) (hemax : 100 ≤ F.emax)
    (hlg : LogOk lg eps) (hlow : LogLow lg)
    (hlb : dec binary64 (lg (enc binary64 false (.fin 4))) = .fin 2) (he0 : 0 ≤ eps) (he1 : eps ≤ 1)
    {maxEb : Pat binary64} {e : ℚ} (hm : dec binary64 maxEb = .fin e) (hel : p2 (-48) ≤ e)
    (her : e ≤ p2 399) (heF : e ≤ p2 (F.emax - 6)) {r1 r2 : Nat} {m m' : Online2D.Field (Pat F)}
    {s : Streams (Pat F)} (h : runRelax F trT tr lg r1 r2 maxEb m = some (m', s)) (q : Nat) :
    (NearTo F ((1 + p2 (19 - F.p)) * ((1 + eps) * (1 + p2 (-53)) * e)) (p2 (2 - F.p)) (m'.u q) (m.u q)
      ∧ NearTo F ((1 + p2 (19 - F.p)) * ((1 + eps) * (1 + p2 (-53)) * e)) (p2 (2 - F.p)) (m'.v q)
        (m.v q)) ∧
    (dec F (m.u q) = .fin 0 → dec F (m.v q) = .fin 0 → m'.u q = m.u q ∧ m'.v q = m.v q) := by
  have h19 := p2_pos (19 - F.p)
  have h53 := p2_pos (-53)
  have hep : 0 < e := (p2_pos _).trans_le hel
  have ha : 0 ≤ (1 + p2 (19 - F.p)) * ((1 + eps) * (1 + p2 (-53)) * e) := by positivity
  have hb := (p2_pos (2 - F.p)).le
  have hI := Relax.compress_inv (relaxBits F trT tr lg) (parBits lg) Relax.maxCount (chkBits F) r1 r2
    maxEb m m' s h
    (fun p f => (∀ q, p ≤ q → f.u q = m.u q ∧ f.v q = m.v q) ∧ ∀ q,
      (NearTo F ((1 + p2 (19 - F.p)) * ((1 + eps) * (1 + p2 (-53)) * e)) (p2 (2 - F.p)) (f.u q) (m.u q)
      ∧ NearTo F ((1 + p2 (19 - F.p)) * ((1 + eps) * (1 + p2 (-53)) * e)) (p2 (2 - F.p)) (f.v q)
        (m.v q)) ∧
      (dec F (m.u q) = .fin 0 → dec F (m.v q) = .fin 0 → f.u q = m.u q ∧ f.v q = m.v q))
    ⟨fun _ _ => ⟨rfl, rfl⟩, fun q => ⟨⟨.refl ha hb _, .refl ha hb _⟩, fun _ _ => ⟨rfl, rfl⟩⟩⟩
    (fun p f _ hI => ⟨fun q hq => hI.1 q (by omega), hI.2⟩)
    (fun i j f c _ _ hI hz _ hacc => by
      obtain ⟨l0, l1⟩ := hI.1 (i * r2 + j) le_rfl
      refine ⟨fun q hq => ?_, fun q => ?_⟩
      · have hne : q ≠ i * r2 + j := by omega
        simpa [Field.set, setAt, hne] using hI.1 q (by omega)
      · by_cases hne : q = i * r2 + j
        · subst hne
          obtain ⟨k, hk, -, t0, t1⟩ := hacc.bound
          obtain ⟨id, E, -, -, -, i4, i5, i6, i7⟩ := tried_codes (F := F) (trT := trT) (tr := tr) hlg
            hlow hlb he0 he1 hm hel her hk
          have hE3 : E + 4 ≤ F.emax := by
            by_contra hc
            have hp1 : p2 (-53) ≤ 1 := by rw [← p2_zero]; exact p2_le (by norm_num)
            have h4 : (1 + eps) * (1 + p2 (-53)) ≤ 4 := by
              have := mul_le_mul (show 1 + eps ≤ 2 by linarith) (show 1 + p2 (-53) ≤ 2 by linarith)
                (by linarith) (by norm_num)
              linarith
            have h5 : (1 + eps) * (1 + p2 (-53)) * e ≤ 4 * p2 (F.emax - 6) :=
              mul_le_mul h4 heF hep.le (by norm_num)
            have h6 : p2 (F.emax - 4) = 4 * p2 (F.emax - 6) := by
              rw [show (F.emax : Int) - 4 = F.emax - 6 + 1 + 1 by ring, p2_succ, p2_succ]; ring
            have h7 : p2 (F.emax - 4) < p2 E := p2_lt (by omega)
            linarith
          have near : ∀ (g : Nat → Pat F) (c0 x : Pat F) (q : Int), g (i * r2 + j) = c0 →
              Relax.tentative (relaxBits F trT tr lg) (parBits lg) r2 g (i * r2 + j)
                (CpSZ.ebQuant (relaxBits F trT tr lg).toDOps (parBits lg).base (parBits lg).logBase
                  (parBits lg).thr (Relax.tried (relaxBits F trT tr lg) (parBits lg) maxEb k)).1 =
                some (q, x) →
              NearTo F ((1 + p2 (19 - F.p)) * ((1 + eps) * (1 + p2 (-53)) * e)) (p2 (2 - F.p)) x c0 := by
            intro g c0 x q hg ht C hC hCb
            obtain ⟨X, x1, x2⟩ := tentative_near hF hp hu he hlg hp24 hemax i5 i6 hE3 i4 ht
              (by rw [hg]; exact hC) hCb
            exact ⟨X, x1, x2.trans (by
              have := mul_le_mul_of_nonneg_left i7 (show 0 ≤ 1 + p2 (19 - F.p) by linarith)
              linarith)⟩
          simp only [Field.set, setAt, if_true]
          refine ⟨⟨near _ _ _ _ l0 t0, near _ _ _ _ l1 t1⟩, fun z0 z1 => ?_⟩
          rw [l0, l1] at hz
          simp [relaxBits, z0, z1] at hz
        · simpa [Field.set, setAt, hne] using hI.2 q)
  exact hI.2 q

/-- **C102**, any format up to `double` and any data, NaN and infinite ones included.  The bound of
the user is at least 16 thresholds `2^-52`.  If no code word of the data codes is longer than 64
bits, the compressor produces a stream, and whatever the decompressor finds behind it, it returns a
field equal to the one the compressor leaves in the array, with the properties of `RelaxKept`. -/
theorem C102_relax (hF : F.Ok) (hp : F.p ≤ binary64.p) (hu : binary64.umin ≤ F.umin)
    (he : F.emax ≤ binary64.emax) (hp24 : 24 ≤ F.p) (hemax : 100 ≤ F.emax)
    (hlg : LogOk lg eps) (hlow : LogLow lg)
    (hlb : dec binary64 (lg (enc binary64 false (.fin 4))) = .fin 2) (he0 : 0 ≤ eps) (he1 : eps ≤ 1)
    (c : Codec (Pat F)) (cD : Codec (Pat binary64)) (E1 E2 : Env) {r1 r2 : Nat}
    (hn : 0 < r1 * r2) (hn2 : r1 * r2 < 2 ^ 59)
    {maxEb : Pat binary64} {e : ℚ} (hm : dec binary64 maxEb = .fin e) (hel : p2 (-48) ≤ e)
    (her : e ≤ p2 399) (heF : e ≤ p2 (F.emax - 6)) (m : Online2D.Field (Pat F)) :
    ∃ m' s, runRelax F trT tr lg r1 r2 maxEb m = some (m', s) ∧
      (Shallow E2 (2 * 65536) s.dq →
        ∃ bs, Relax.compressBytes (relaxBits F trT tr lg) c cD E1 E2 (parBits lg) Relax.maxCount
            (chkBits F) r1 r2 maxEb m = some (m', bs) ∧
          ∀ rest m0, ∃ d, decompressBytes (bitsOps F tr lg) c cD (parBits lg).logBase r1 r2 m0
              (bs ++ rest) = some d ∧ (∀ q, q < r1 * r2 → d.u q = m'.u q ∧ d.v q = m'.v q) ∧
            RelaxKept F ((1 + p2 (19 - F.p)) * ((1 + eps) * (1 + p2 (-53)) * e)) (p2 (2 - F.p))
              r1 r2 m d) := by
  obtain ⟨m', s, h⟩ := Relax.compress_defined (relaxBits F trT tr lg) (parBits lg) Relax.maxCount
    (chkBits F) r1 r2 maxEb m
  refine ⟨m', s, h, fun hsh => ?_⟩
  obtain ⟨l1, l2, l3⟩ := Relax.compress_lengths _ _ _ _ _ _ _ _ _ _ h
  have hum := (emin_le hF).2.1
  obtain ⟨⟨a, b, hc1⟩, hc2⟩ := relax_codes hF hp hu he (by omega) (by omega) hum hlg hlow hlb he0 he1
    hm hel her h
  have f1 : Fits E1 (2 * 1024) s.eb := fits_of_few E1 (2 * 1024) s.eb [0, a, b]
    (ne_nil_of_length (by omega)) (by omega) (by norm_num)
    (fun x hx => by have := (hc1 x hx).2; push_cast; omega) (by simp)
    (fun x hx => by simpa using (hc1 x hx).1)
  have f2 : Fits E2 (2 * 65536) s.dq := fits_of_range (ne_nil_of_length (by omega)) (by omega)
    (by norm_num) (fun x hx => by have := hc2 x hx; push_cast; omega) hsh
  obtain ⟨bs, hs, hps⟩ := serialize_parse c cD E1 E2 (parBits lg) s (r1 * r2) l1 l2 (by omega)
    ⟨by change (0 : Int) ≤ 4; decide, by change (4 : Int) < _; decide⟩
    ⟨by change (0 : Int) ≤ 32768; decide, by change (32768 : Int) < _; decide⟩ rfl f1 f2
  refine ⟨bs, by simp only [Relax.compressBytes, h, hs], fun rest m0 => ?_⟩
  have hok : Relax.CodesOK (relaxBits F trT tr lg) (parBits lg) Relax.maxCount maxEb := by
    intro k hk
    obtain ⟨id, E, i1, -, i3, -⟩ := tried_codes (F := F) (trT := trT) (tr := tr) hlg hlow hlb he0 he1
      hm hel her hk
    left
    change (CpSZ.ebQuant (bitsD tr lg) 4 (parBits lg).logBase (parBits lg).thr _).2 ≠ 0
    omega
  obtain ⟨d, hd, hA⟩ := Relax.lockstep (relaxBits F trT tr lg) (parBits lg) Relax.maxCount (chkBits F)
    r1 r2 maxEb hok m m0 m' s h
  refine ⟨d, by
    have hps := hps rest
    simp only [decompressBytes, hps]
    exact hd, hA, ?_⟩
  have hN := relax_near hF hp hu he hp24 hemax hlg hlow hlb he0 he1 hm hel her heF h
  have hV : ∀ t : Tri, t.inGrid r1 r2 → ∀ P ∈ t.verts, Relax.vecAt r2 d P = Relax.vecAt r2 m' P := by
    intro t ht P hP
    obtain ⟨e1, e2⟩ := hA _ (verts_lt ht hP)
    unfold Relax.vecAt
    rw [e1, e2]
  have hsame : ∀ t : Tri, t.inGrid r1 r2 →
      (∀ P ∈ t.verts, Relax.vecAt r2 m' P = Relax.vecAt r2 m P) → SameAt r2 t d m := by
    intro t ht hall P hP
    have := (hV t ht P hP).trans (hall P hP)
    exact ⟨congrArg Prod.fst this, congrArg Prod.snd this⟩
  refine ⟨fun q hq => ?_, fun q hq z0 z1 => ?_, fun t ht hpos => ?_, fun t ht hneg => ?_⟩
  · obtain ⟨e1, e2⟩ := hA q hq
    rw [e1, e2]
    exact (hN q).1
  · obtain ⟨e1, e2⟩ := hA q hq
    rw [e1, e2]
    exact (hN q).2 z0 z1
  · exact hsame t ht ((Relax.C22_any_test _ _ _ _ _ _ _ _ _ _ h t ht).1 hpos)
  · rcases (Relax.C22_any_test _ _ _ _ _ _ _ _ _ _ h t ht).2 hneg with hk | ⟨P, Q, R, hperm, hck⟩
    · exact Or.inl (hsame t ht hk)
    · refine Or.inr ⟨P, Q, R, hperm, ?_⟩
      rw [hV t ht P (hperm.mem_iff.2 (by simp)), hV t ht Q (hperm.mem_iff.2 (by simp)),
        hV t ht R (hperm.mem_iff.2 (by simp))]
      exact hck

end

/-- C102, `float`: with `log2` accurate to `2^-30`, a component that is a number of at most `2^125`
comes back at a distance of at most 17/16 of the bound plus `2^-22` of its magnitude. -/
theorem C102_float (trT : Pat binary32 → Int) (tr : Pat binary64 → Int)
    (lg : Pat binary64 → Pat binary64) (eps : ℚ) (hlg : LogOk lg eps) (hlow : LogLow lg)
    (hlb : dec binary64 (lg (enc binary64 false (.fin 4))) = .fin 2) (he0 : 0 ≤ eps)
    (he1 : eps ≤ p2 (-30)) (E1 E2 : Env) (r1 r2 : Nat) (hn : 0 < r1 * r2) (hn2 : r1 * r2 < 2 ^ 59)
    (maxEb : Pat binary64) (e : ℚ) (hm : dec binary64 maxEb = .fin e) (hel : p2 (-48) ≤ e)
    (her : e ≤ p2 121) (m : Online2D.Field (Pat binary32)) :
    ∃ m' s, runRelax binary32 trT tr lg r1 r2 maxEb m = some (m', s) ∧
      (Shallow E2 (2 * 65536) s.dq →
        ∃ bs, Relax.compressBytes (relaxBits binary32 trT tr lg) (wordCodec 4) (wordCodec 8) E1 E2
            (parBits lg) Relax.maxCount (chkBits binary32) r1 r2 maxEb m = some (m', bs) ∧
          ∀ rest m0, ∃ d, decompressBytes (bitsOps binary32 tr lg) (wordCodec 4) (wordCodec 8)
              (parBits lg).logBase r1 r2 m0 (bs ++ rest) = some d ∧
            (∀ q, q < r1 * r2 → d.u q = m'.u q ∧ d.v q = m'.v q) ∧
            RelaxKept binary32 (17 / 16 * e) (p2 (-22)) r1 r2 m d) := by
  have hep : 0 < e := (p2_pos _).trans_le hel
  obtain ⟨h30, h53, h5⟩ : p2 (-30) ≤ 1 / 1000 ∧ p2 (-53) ≤ 1 / 1000 ∧ p2 (19 - binary32.p) = 1 / 32 := by
    decide +kernel
  obtain ⟨m', s, h, hc⟩ := C102_relax (trT := trT) (tr := tr) ok32 (by decide) (by decide) (by decide)
    (by decide) (by decide) hlg hlow hlb he0 (by linarith) (wordCodec 4) (wordCodec 8) E1 E2 hn hn2 hm
    hel (her.trans (p2_le (by norm_num))) her m
  refine ⟨m', s, h, fun hs => ?_⟩
  obtain ⟨bs, hb, hd⟩ := hc hs
  refine ⟨bs, hb, fun rest m0 => ?_⟩
  obtain ⟨d, d1, dA, d2⟩ := hd rest m0
  refine ⟨d, d1, dA, ⟨fun q hq => ?_, d2.zero, d2.kept, d2.neg⟩⟩
  have hle : (1 + p2 (19 - binary32.p)) * ((1 + eps) * (1 + p2 (-53)) * e) ≤ 17 / 16 * e := by
    rw [h5]
    have h0 := p2_pos (-53)
    have h1 : (1 + eps) * (1 + p2 (-53)) ≤ 1001 / 1000 * (1001 / 1000) :=
      mul_le_mul (by linarith) (by linarith) (by linarith) (by norm_num)
    have := mul_le_mul_of_nonneg_right h1 hep.le
    linarith
  exact ⟨(d2.near q hq).1.mono hle, (d2.near q hq).2.mono hle⟩

/-- C102, `double`: a component that is a number of at most `2^1021` comes back at a distance of at
most the bound, plus `2^-28` of it, plus `2^-51` of the magnitude of the component. -/
theorem C102_double (trT : Pat binary64 → Int) (tr : Pat binary64 → Int)
    (lg : Pat binary64 → Pat binary64) (eps : ℚ) (hlg : LogOk lg eps) (hlow : LogLow lg)
    (hlb : dec binary64 (lg (enc binary64 false (.fin 4))) = .fin 2) (he0 : 0 ≤ eps)
    (he1 : eps ≤ p2 (-30)) (E1 E2 : Env) (r1 r2 : Nat) (hn : 0 < r1 * r2) (hn2 : r1 * r2 < 2 ^ 59)
    (maxEb : Pat binary64) (e : ℚ) (hm : dec binary64 maxEb = .fin e) (hel : p2 (-48) ≤ e)
    (her : e ≤ p2 399) (m : Online2D.Field (Pat binary64)) :
    ∃ m' s, runRelax binary64 trT tr lg r1 r2 maxEb m = some (m', s) ∧
      (Shallow E2 (2 * 65536) s.dq →
        ∃ bs, Relax.compressBytes (relaxBits binary64 trT tr lg) (wordCodec 8) (wordCodec 8) E1 E2
            (parBits lg) Relax.maxCount (chkBits binary64) r1 r2 maxEb m = some (m', bs) ∧
          ∀ rest m0, ∃ d, decompressBytes (bitsOps binary64 tr lg) (wordCodec 8) (wordCodec 8)
              (parBits lg).logBase r1 r2 m0 (bs ++ rest) = some d ∧
            (∀ q, q < r1 * r2 → d.u q = m'.u q ∧ d.v q = m'.v q) ∧
            RelaxKept binary64 ((1 + p2 (-28)) * e) (p2 (-51)) r1 r2 m d) := by
  have hep : 0 < e := (p2_pos _).trans_le hel
  have hcst : p2 (-30) ≤ 1 ∧ (1 + p2 (19 - binary64.p)) * ((1 + p2 (-30)) * (1 + p2 (-53))) ≤
      1 + p2 (-28) := by
    decide +kernel
  obtain ⟨m', s, h, hc⟩ := C102_relax (trT := trT) (tr := tr) ok64 (by decide) (by decide) (by decide)
    (by decide) (by decide) hlg hlow hlb he0 (by linarith) (wordCodec 8) (wordCodec 8) E1 E2 hn hn2 hm
    hel her (her.trans (p2_le (by decide))) m
  refine ⟨m', s, h, fun hs => ?_⟩
  obtain ⟨bs, hb, hd⟩ := hc hs
  refine ⟨bs, hb, fun rest m0 => ?_⟩
  obtain ⟨d, d1, dA, d2⟩ := hd rest m0
  refine ⟨d, d1, dA, ⟨fun q hq => ?_, d2.zero, d2.kept, d2.neg⟩⟩
  have hle : (1 + p2 (19 - binary64.p)) * ((1 + eps) * (1 + p2 (-53)) * e) ≤ (1 + p2 (-28)) * e := by
    have h0 := p2_pos (-53)
    have h3 := p2_pos (19 - binary64.p)
    have h1 : (1 + eps) * (1 + p2 (-53)) ≤ (1 + p2 (-30)) * (1 + p2 (-53)) :=
      mul_le_mul_of_nonneg_right (by linarith) (by linarith)
    have h2 := mul_le_mul_of_nonneg_left h1 (show 0 ≤ 1 + p2 (19 - binary64.p) by linarith)
    have := mul_le_mul_of_nonneg_right (h2.trans hcst.2) hep.le
    linarith
  exact ⟨(d2.near q hq).1.mono hle, (d2.near q hq).2.mono hle⟩

/-- The integer part of the logarithm meets the second assumption, too. -/
theorem floorLog2_low : LogLow floorLog2 := by
  intro a x l hx hl n hn
  have h1 : (1 : ℚ) ≤ x := (one_le_pow₀ (by norm_num)).trans hn
  have hx0 : 0 < x := by linarith
  obtain ⟨l1, l2⟩ := ilog_spec hx0
  have hln : (n : Int) ≤ ilog x := by
    have := lt_of_p2_lt (lt_of_le_of_lt ((p2_nat n).le.trans hn) l2)
    omega
  have hl1 : ilog x ≤ 1023 := by
    obtain ⟨-, -, -, -, -, h4⟩ := rep_of_val (val_dec ok64 a) hx
    rw [abs_of_pos hx0] at h4
    have := lt_of_p2_lt (lt_of_le_of_lt l1 h4)
    have e : binary64.emax = 1023 := by decide
    omega
  have hr : round binary64 (ilog x) = .fin (ilog x) := round_rep ok64 (rep_int ok64 (by
    rw [abs_of_nonneg (by omega)]
    exact hl1.trans (by norm_num [binary64])))
  unfold floorLog2 at hl
  rw [hx] at hl
  simp only at hl
  rw [hr, dec_enc ok64 _ (by rw [← hr]; exact val_round _)] at hl
  have : (ilog x : ℚ) = l := by simpa using hl
  rw [← this]
  exact_mod_cast hln

/-- The data of the witness. -/
def relaxData : Online2D.Field (Pat binary32) :=
  ⟨fun q => enc binary32 false (.fin ([-3 / 4, 1 / 2, 3 / 4, 3145728].getD q 0)),
   fun q => enc binary32 false (.fin ([5 / 8, -1 / 4, -3 / 8, -1572864].getD q 0))⟩

/-- The bound 1/4 of the witness. -/
def relaxEb : Pat binary64 := enc binary64 false (.fin (1 / 4))

/-- What the compressor leaves in the array for the witness. -/
theorem relax_run : ((runRelax binary32 (fun _ => 0) (fun _ => 0) floorLog2 2 2 relaxEb
    relaxData).map fun r => (List.range 4).map fun q =>
      (dec binary32 (r.1.u q), dec binary32 (r.1.v q))) =
    some [(.fin (-1), .fin (1 / 2)), (.fin (1 / 2), .fin (-1 / 2)), (.fin 1, .fin (-1 / 2)),
      (.fin 3145728, .fin (-1572864))] := by
  decide +kernel

theorem cp_before (f : Online2D.Field (Pat binary32))
    (h : (dec binary32 (f.u 0) = .fin (-3 / 4) ∧ dec binary32 (f.v 0) = .fin (5 / 8)) ∧
      (dec binary32 (f.u 1) = .fin (1 / 2) ∧ dec binary32 (f.v 1) = .fin (-1 / 4)) ∧
      (dec binary32 (f.u 3) = .fin 3145728 ∧ dec binary32 (f.v 3) = .fin (-1572864))) :
    ¬ (⟨0, 0, true⟩ : Tri).hasCP 2 (realField (dec binary32) f) := by
  obtain ⟨⟨c0, d0⟩, ⟨c1, d1⟩, ⟨c3, d3⟩⟩ := h
  change ¬ HasCP (valR (dec binary32 (f.u 0)), valR (dec binary32 (f.v 0)))
    (valR (dec binary32 (f.u 1)), valR (dec binary32 (f.v 1)))
    (valR (dec binary32 (f.u 3)), valR (dec binary32 (f.v 3)))
  rw [c0, d0, c1, d1, c3, d3]
  rintro ⟨a, b, c, ha, hb, hc, hs, h1, h2⟩
  norm_num [valR] at h1 h2
  linarith

theorem cp_after (f : Online2D.Field (Pat binary32))
    (h : (dec binary32 (f.u 0) = .fin (-1) ∧ dec binary32 (f.v 0) = .fin (1 / 2)) ∧
      (dec binary32 (f.u 3) = .fin 3145728 ∧ dec binary32 (f.v 3) = .fin (-1572864))) :
    (⟨0, 0, true⟩ : Tri).hasCP 2 (realField (dec binary32) f) := by
  obtain ⟨⟨c0, d0⟩, ⟨c3, d3⟩⟩ := h
  change HasCP (valR (dec binary32 (f.u 0)), valR (dec binary32 (f.v 0)))
    (valR (dec binary32 (f.u 1)), valR (dec binary32 (f.v 1)))
    (valR (dec binary32 (f.u 3)), valR (dec binary32 (f.v 3)))
  rw [c0, d0, c3, d3]
  refine ⟨3145728 / 3145729, 0, 1 / 3145729, ?_⟩
  norm_num [valR]

/-- C102: "a cell that tests negative tests negative afterwards" fails.  The verification of the
compressor takes the vertices of a triangle in another order than the test does, and rounding makes
the two answers differ: on this `float` data a triangle without a critical point, in the exact sense
and by the test, has one in the decompressed data, in the exact sense and by the test. -/
theorem C102_created (E1 E2 : Env) : ∃ (m m' : Online2D.Field (Pat binary32)) (bs : List Byte),
    Relax.compressBytes (relaxBits binary32 (fun _ => 0) (fun _ => 0) floorLog2) (wordCodec 4)
      (wordCodec 8) E1 E2 (parBits floorLog2) Relax.maxCount (chkBits binary32) 2 2 relaxEb m =
        some (m', bs) ∧
    (⟨0, 0, true⟩ : Tri).inGrid 2 2 ∧
    Relax.triTest (chkBits binary32) 2 m ⟨0, 0, true⟩ = false ∧
    ¬ (⟨0, 0, true⟩ : Tri).hasCP 2 (realField (dec binary32) m) ∧
    ∀ m0, ∃ d, decompressBytes (bitsOps binary32 (fun _ => 0) floorLog2) (wordCodec 4) (wordCodec 8)
        (parBits floorLog2).logBase 2 2 m0 bs = some d ∧
      Relax.triTest (chkBits binary32) 2 d ⟨0, 0, true⟩ = true ∧
      (⟨0, 0, true⟩ : Tri).hasCP 2 (realField (dec binary32) d) := by
  have hrun := relax_run
  have htest : ((runRelax binary32 (fun _ => 0) (fun _ => 0) floorLog2 2 2 relaxEb
      relaxData).map fun r => Relax.triTest (chkBits binary32) 2 r.1 ⟨0, 0, true⟩) = some true := by
    decide +kernel
  have hm : dec binary64 relaxEb = .fin (1 / 4) := by decide +kernel
  have hlb : dec binary64 (floorLog2 (enc binary64 false (.fin 4))) = .fin 2 := by decide +kernel
  have hel : p2 (-48) ≤ 1 / 4 ∧ 1 / 4 ≤ p2 121 ∧ p2 121 ≤ p2 399 := by decide +kernel
  obtain ⟨m', s, h, hc⟩ := C102_float (fun _ => 0) (fun _ => 0) floorLog2 0 (floorLog2_ok le_rfl)
    floorLog2_low hlb le_rfl (p2_pos _).le E1 E2 2 2 (by norm_num) (by norm_num) relaxEb _ hm hel.1
    hel.2.1 relaxData
  obtain ⟨l1, l2, l3⟩ := Relax.compress_lengths _ _ _ _ _ _ _ _ _ _ h
  have hc2 := (relax_codes ok32 (by decide) (by decide) (by decide) (by decide) (by decide)
    (by decide) (floorLog2_ok le_rfl) floorLog2_low hlb le_rfl zero_le_one hm hel.1
    (hel.2.1.trans hel.2.2) h).2
  obtain ⟨bs, hb, hd⟩ := hc (shallow_of_short (ne_nil_of_length (by omega)) (by omega) (by norm_num)
    (fun x hx => by have := hc2 x hx; push_cast; omega))
  rw [h] at hrun htest
  simp only [Option.map_some, Option.some.injEq, List.range, List.range.loop, List.map_cons,
    List.map_nil, List.cons.injEq, Prod.mk.injEq, and_true] at hrun htest
  obtain ⟨r0, -, -, r3⟩ := hrun
  refine ⟨relaxData, m', bs, hb, ⟨by decide, by decide⟩, by decide +kernel,
    cp_before _ (by decide +kernel), fun m0 => ?_⟩
  obtain ⟨d, d1, dA, -⟩ := hd [] m0
  rw [List.append_nil] at d1
  refine ⟨d, d1, ?_, cp_after d ?_⟩
  · refine Eq.trans ?_ htest
    change chkBits binary32 (d.u 0, d.v 0) (d.u 1, d.v 1) (d.u 3, d.v 3) =
      chkBits binary32 (m'.u 0, m'.v 0) (m'.u 1, m'.v 1) (m'.u 3, m'.v 3)
    rw [(dA 0 (by norm_num)).1, (dA 0 (by norm_num)).2, (dA 1 (by norm_num)).1,
      (dA 1 (by norm_num)).2, (dA 3 (by norm_num)).1, (dA 3 (by norm_num)).2]
  · rw [(dA 0 (by norm_num)).1, (dA 0 (by norm_num)).2, (dA 3 (by norm_num)).1,
      (dA 3 (by norm_num)).2]
    exact ⟨r0, r3⟩

/-- The hypotheses of `C102_double` can be met. -/
example : LogOk floorLog2 0 ∧ LogLow floorLog2 ∧
    dec binary64 (floorLog2 (enc binary64 false (.fin 4))) = .fin 2 ∧
    ∃ e, dec binary64 relaxEb = .fin e ∧ p2 (-48) ≤ e ∧ e ≤ p2 399 :=
  ⟨floorLog2_ok le_rfl, floorLog2_low, by decide +kernel, 1 / 4, by decide +kernel⟩

end CpSZ.Ieee
