import Verif.Ieee.Arith
import Verif.Mesh2D
/-
The 2D online absolute mode (src/sz_compress_cp_preserve_2d.cpp L724-771, L989-1242) in
IEEE-754 arithmetic: distance of the reconstruction from the data, for any bound formula that
respects the bound of the user; the formula of the code does for data of moderate size.
-/

namespace CpSZ.Ieee
open CpSZ.Online2D

/-! ### Runs -/

section run
variable {T D : Type} {O : Ops T D} {F : Fmt} {vT : T → Fp ℚ} {vD : D → Fp ℚ} {eps : ℚ}

/-- The factor by which an accepted value may be off: the gap below a power of two in the
format of the data, the error of `log2`, the rounding of the quotient. -/
def slack (F : Fmt) (eps : ℚ) : ℚ := (1 - p2 (-(F.p + 1))) * ((1 + eps) * (1 + p2 (-53)))

/-- `x` is the datum `c`, or both are finite and `x` is off by at most `e`. -/
def Cl (vT : T → Fp ℚ) (e : ℚ) (x c : T) : Prop :=
  x = c ∨ ∃ X C, vT x = .fin X ∧ vT c = .fin C ∧ |X - C| ≤ e

theorem encComp_ieee (hO : IsIeee O F vT vD eps) (hF : F.Ok) (hemin : F.emin ≤ -52)
    (he0 : 0 ≤ eps) (he1 : eps ≤ 1) {P : Par D} (hbase : P.base = 4)
    (hlb : vD P.logBase = .fin 2) (hthr : vD P.thr = .fin (p2 (-52))) {r2 : Nat} {f : Nat → T}
    {p : Nat} {a : D} {A : ℚ} (ha : vD a = .fin A) (hA : A ≤ p2 400) {id q : Int} {x : T}
    (h : encComp O P r2 f p a = some (id, q, x)) {c : ℚ} (hc : vT (f p) = .fin c) :
    ∃ X, vT x = .fin X ∧ |X - c| ≤ slack F eps * A ∧ p2 (-52) < A := by
  obtain ⟨h0, h1, h2, h3, h4⟩ := encComp_some _ _ _ _ _ _ _ _ _ h
  rw [hbase] at h1 h2 h3 h4
  rw [h1] at h0
  have hgt : p2 (-52) < A := by
    unfold CpSZ.ebQuant at h0
    by_cases hle : O.le a P.thr = true
    · simp [hle] at h0
    rw [hO.le, ha, hthr] at hle
    simpa [Fp.le] using hle
  obtain ⟨k, k1, k2, k3⟩ := hO.ebQuant hlb hthr (by norm_num) (by norm_num) he0 he1 ha hA h0
  obtain ⟨X, x1, x2⟩ := hO.accept hF k2 (by omega) h2 h3 h4 hc
  refine ⟨X, x1, x2.trans ?_, hgt⟩
  have hg : 0 ≤ 1 - p2 (-((F.p : Int) + 1)) := by
    have : p2 (-((F.p : Int) + 1)) ≤ p2 0 := p2_le (by omega)
    rw [p2_zero] at this
    linarith
  unfold slack
  rw [mul_assoc]
  exact mul_le_mul_of_nonneg_left k3 hg

theorem encComp_codes (hO : IsIeee O F vT vD eps)
    (he0 : 0 ≤ eps) (he1 : eps ≤ 1) {P : Par D} (hbase : P.base = 4) (hcap : P.capacity = 65536)
    (hrad : P.radius = 32768)
    (hlb : vD P.logBase = .fin 2) (hthr : vD P.thr = .fin (p2 (-52))) {r2 : Nat} {f : Nat → T}
    {p : Nat} {a : D} {A : ℚ} (ha : vD a = .fin A) {R : Int} (hR : R ≤ 400) (hA : A ≤ p2 R)
    {id q : Int} {x : T} (h : encComp O P r2 f p a = some (id, q, x)) :
    (0 ≤ id ∧ 2 * id ≤ R + 54) ∧ 0 ≤ q ∧ q ≤ 65536 := by
  obtain ⟨h0, h1, h2, -, -⟩ := encComp_some _ _ _ _ _ _ _ _ _ h
  rw [hbase] at h1 h2
  rw [hcap, hrad] at h2
  rw [h1] at h0
  have hr := hO.ebQuant_range hlb hthr he0 he1 ha hR hA h0
  obtain ⟨k, k1, k2, k3⟩ := hO.ebQuant hlb hthr (by norm_num) (by norm_num) he0 he1 ha
    (hA.trans (p2_le hR)) h0
  have := hO.linQuant_range k2 h2
  omega

/-- What a run leaves in the mirror arrays; a vertex at which one of the two bounds is below the
threshold is stored.  The codes are in the tables of the entropy coder.  A vertex with a component
that admits no error is not changed. -/
theorem run2_full (hO : IsIeee O F vT vD eps) (hF : F.Ok) (hemin : F.emin ≤ -52)
    (he0 : 0 ≤ eps) (he1 : eps ≤ 1) {P : Par D} (hbase : P.base = 4) (hcap : P.capacity = 65536)
    (hrad : P.radius = 32768)
    (hlb : vD P.logBase = .fin 2) (hthr : vD P.thr = .fin (p2 (-52))) {r1 r2 : Nat}
    {absEb : D → T → D} {bound : Online2D.Field T → Nat → Option D} {m m' : Online2D.Field T}
    {s : Streams T} {B : T → ℚ} {R : Int} (hR0 : -54 ≤ R) (hR : R ≤ 400)
    (hfin : ∀ q, q < r1 * r2 → (∃ x, vT (m.u q) = .fin x) ∧ ∃ x, vT (m.v q) = .fin x)
    (hB : ∀ f p req, p < r1 * r2 → f.u p = m.u p → f.v p = m.v p →
      (∀ q, q < r1 * r2 → Cl vT (slack F eps * B (m.u q)) (f.u q) (m.u q) ∧
        Cl vT (slack F eps * B (m.v q)) (f.v q) (m.v q)) →
      bound f p = some req → O.lt (O.ofInt 0) req = true →
      (∃ c A, (c = m.u p ∨ c = m.v p) ∧ vD (absEb req c) = .fin A ∧ A ≤ p2 (-52)) ∨
      ∀ c, c = m.u p ∨ c = m.v p →
        ∃ A, vD (absEb req c) = .fin A ∧ (p2 (-52) < A → A ≤ B c) ∧ A ≤ p2 R)
    (h : compress O P r1 r2 absEb bound m = some (m', s)) :
    (∀ q, q < r1 * r2 → Cl vT (slack F eps * B (m.u q)) (m'.u q) (m.u q) ∧
      Cl vT (slack F eps * B (m.v q)) (m'.v q) (m.v q)) ∧
    (∀ x ∈ s.eb, 0 ≤ x ∧ 2 * x ≤ R + 54) ∧ (∀ x ∈ s.dq, 0 ≤ x ∧ x ≤ 65536) ∧
    ∀ q, q < r1 * r2 → B (m.u q) ≤ 0 ∨ B (m.v q) ≤ 0 → m'.u q = m.u q ∧ m'.v q = m.v q := by
  have hs : 0 ≤ slack F eps := by
    have : p2 (-((F.p : Int) + 1)) ≤ p2 0 := p2_le (by omega)
    rw [p2_zero] at this
    have h5 := p2_pos (-53)
    exact mul_nonneg (by linarith) (mul_nonneg (by linarith) (by linarith))
  unfold compress at h
  split at h
  · cases h
  rename_i m1 ws hsc
  simp only [Option.some.injEq, Prod.mk.injEq] at h
  obtain ⟨rfl, rfl⟩ := h
  have inv := scanEnc_forall_inv (encVertex O P r2 absEb bound)
    (fun p f => (∀ q, p ≤ q → f.u q = m.u q ∧ f.v q = m.v q) ∧ (∀ q, q < r1 * r2 →
      Cl vT (slack F eps * B (m.u q)) (f.u q) (m.u q) ∧
        Cl vT (slack F eps * B (m.v q)) (f.v q) (m.v q)) ∧
      ∀ q, q < r1 * r2 → B (m.u q) ≤ 0 ∨ B (m.v q) ≤ 0 → f.u q = m.u q ∧ f.v q = m.v q)
    (fun w => (∀ x ∈ w.eb, 0 ≤ x ∧ 2 * x ≤ R + 54) ∧ ∀ x ∈ w.dq P.radius, 0 ≤ x ∧ x ≤ 65536)
    (r1 * r2) 0 (by
      intro p f f' w _ hp hI he
      rw [Nat.zero_add] at hp
      rcases encVertex_cases _ _ _ _ _ _ _ _ _ he with ⟨rfl, rfl⟩ | hc
      · refine ⟨⟨fun q hq => hI.1 q (by omega), hI.2⟩, ?_, ?_⟩
        · simp only [VCode.eb, List.mem_cons, List.not_mem_nil, or_false]
          omega
        · simp [VCode.dq, hrad]
      obtain ⟨req, e0, q0, x, e1, q1, y, hb, hlt, c0, c1, rfl, rfl⟩ := hc
      obtain ⟨eu, ev⟩ := hI.1 p (le_refl p)
      obtain ⟨⟨cu, hcu⟩, ⟨cv, hcv⟩⟩ := hfin p hp
      rcases hB f p req hp eu ev hI.2.1 hb hlt with ⟨c, A, hc, hcA, hA⟩ | hB
      · exfalso
        have hA' : A ≤ p2 400 := hA.trans (p2_le (by norm_num))
        rcases hc with rfl | rfl
        · obtain ⟨-, -, -, h3⟩ := encComp_ieee hO hF hemin he0 he1 hbase hlb hthr
            (by rw [eu]; exact hcA) hA' c0 (by rw [eu]; exact hcu)
          exact absurd h3 (not_lt.2 hA)
        · obtain ⟨-, -, -, h3⟩ := encComp_ieee hO hF hemin he0 he1 hbase hlb hthr
            (by rw [ev]; exact hcA) hA' c1 (by rw [ev]; exact hcv)
          exact absurd h3 (not_lt.2 hA)
      obtain ⟨A0, a1, a2, a3⟩ := hB _ (Or.inl rfl)
      obtain ⟨A1, b1, b2, b3⟩ := hB _ (Or.inr rfl)
      rw [← eu] at a1
      rw [← ev] at b1
      obtain ⟨X, x1, x2, x3⟩ := encComp_ieee hO hF hemin he0 he1 hbase hlb hthr a1
        (a3.trans (p2_le hR)) c0 (by rw [eu]; exact hcu)
      obtain ⟨Y, y1, y2, y3⟩ := encComp_ieee hO hF hemin he0 he1 hbase hlb hthr b1
        (b3.trans (p2_le hR)) c1 (by rw [ev]; exact hcv)
      have d0 := encComp_codes hO he0 he1 hbase hcap hrad hlb hthr a1 hR a3 c0
      have d1 := encComp_codes hO he0 he1 hbase hcap hrad hlb hthr b1 hR b3 c1
      refine ⟨⟨fun q hq => ?_, fun q hq => ?_, fun q hq hz => ?_⟩, ?_, ?_⟩
      · have hne : q ≠ p := by omega
        simp only [Field.set, setAt, if_neg hne]
        exact hI.1 q (by omega)
      · by_cases hqp : q = p
        · subst hqp
          simp only [Field.set, setAt, if_true]
          exact ⟨Or.inr ⟨X, cu, x1, hcu, x2.trans (mul_le_mul_of_nonneg_left (a2 x3) hs)⟩,
            Or.inr ⟨Y, cv, y1, hcv, y2.trans (mul_le_mul_of_nonneg_left (b2 y3) hs)⟩⟩
        · simp only [Field.set, setAt, if_neg hqp]
          exact hI.2.1 q hq
      · by_cases hqp : q = p
        · subst hqp
          rcases hz with hz | hz
          · linarith [a2 x3, p2_pos (-52)]
          · linarith [b2 y3, p2_pos (-52)]
        · simp only [Field.set, setAt, if_neg hqp]
          exact hI.2.2 q hq hz
      · simp only [VCode.eb, List.mem_cons, List.not_mem_nil, or_false]
        rintro x (rfl | rfl)
        · exact d0.1
        · exact d1.1
      · simp only [VCode.dq, List.mem_cons, List.not_mem_nil, or_false]
        rintro x (rfl | rfl)
        · exact d0.2
        · exact d1.2)
    m m1 ws ⟨fun _ _ => ⟨rfl, rfl⟩, fun _ _ => ⟨Or.inl rfl, Or.inl rfl⟩,
      fun _ _ _ => ⟨rfl, rfl⟩⟩ hsc
  refine ⟨inv.1.2.1, ?_, ?_, inv.1.2.2⟩
  · intro x hx
    obtain ⟨w, hw, hxw⟩ := List.mem_flatMap.1 hx
    exact (inv.2 w hw).1 x hxw
  · intro x hx
    obtain ⟨w, hw, hxw⟩ := List.mem_flatMap.1 hx
    exact (inv.2 w hw).2 x hxw

/-- The part without the unchanged vertices. -/
theorem run2 (hO : IsIeee O F vT vD eps) (hF : F.Ok) (hemin : F.emin ≤ -52)
    (he0 : 0 ≤ eps) (he1 : eps ≤ 1) {P : Par D} (hbase : P.base = 4) (hcap : P.capacity = 65536)
    (hrad : P.radius = 32768)
    (hlb : vD P.logBase = .fin 2) (hthr : vD P.thr = .fin (p2 (-52))) {r1 r2 : Nat}
    {absEb : D → T → D} {bound : Online2D.Field T → Nat → Option D} {m m' : Online2D.Field T}
    {s : Streams T} {B : T → ℚ} {R : Int} (hR0 : -54 ≤ R) (hR : R ≤ 400)
    (hfin : ∀ q, q < r1 * r2 → (∃ x, vT (m.u q) = .fin x) ∧ ∃ x, vT (m.v q) = .fin x)
    (hB : ∀ f p req, p < r1 * r2 → f.u p = m.u p → f.v p = m.v p →
      (∀ q, q < r1 * r2 → Cl vT (slack F eps * B (m.u q)) (f.u q) (m.u q) ∧
        Cl vT (slack F eps * B (m.v q)) (f.v q) (m.v q)) →
      bound f p = some req → O.lt (O.ofInt 0) req = true →
      (∃ c A, (c = m.u p ∨ c = m.v p) ∧ vD (absEb req c) = .fin A ∧ A ≤ p2 (-52)) ∨
      ∀ c, c = m.u p ∨ c = m.v p →
        ∃ A, vD (absEb req c) = .fin A ∧ (p2 (-52) < A → A ≤ B c) ∧ A ≤ p2 R)
    (h : compress O P r1 r2 absEb bound m = some (m', s)) :
    (∀ q, q < r1 * r2 → Cl vT (slack F eps * B (m.u q)) (m'.u q) (m.u q) ∧
      Cl vT (slack F eps * B (m.v q)) (m'.v q) (m.v q)) ∧
    (∀ x ∈ s.eb, 0 ≤ x ∧ 2 * x ≤ R + 54) ∧ ∀ x ∈ s.dq, 0 ≤ x ∧ x ≤ 65536 := by
  obtain ⟨a, b, c, -⟩ := run2_full hO hF hemin he0 he1 hbase hcap hrad hlb hthr hR0 hR hfin hB h
  exact ⟨a, b, c⟩

end run

/-! ### The bound formula -/

section formula
variable {T D : Type}

/-- Operations of the bound formula on elements: product, negation, and
`max_eb_to_keep_sign_2d_online_abs` (src/sz_compress_cp_preserve_2d.cpp L725-728), whose operations
are on elements or on `double`s, depending on the overload of `fabs` that the compiler selects. -/
structure EOps (T D : Type) where
  mulT : T → T → T
  negT : T → T
  keep : T → T → T → D

/-- `max_eb_to_keep_sign_2d_online_abs` with `double fabs(double)`.
(src/sz_compress_cp_preserve_2d.cpp L725-728.) -/
def keepD (O : Ops T D) (A B C : T) : D :=
  O.div (O.abs (O.toD C)) (O.add (O.abs (O.toD A)) (O.abs (O.toD B)))

/-- `derive_cp_eb_for_positions_online_abs` (src/sz_compress_cp_preserve_2d.cpp L732-771) for
elements of type `T`. -/
def deriveAbsT (O : Ops T D) (E : EOps T D) (u0 u1 u2 v0 v1 v2 : T) : D :=
  let det (a b c d : T) : T := O.subT (E.mulT a b) (E.mulT c d)
  let M0 := O.toD (det u2 v0 u0 v2)
  let M1 := O.toD (det u1 v2 u2 v1)
  let M2 := O.toD (det u0 v1 u1 v0)
  let M := O.add (O.add M0 M1) M2
  if eq0G O.toDOps M then O.ofInt 0
  else
    let f1 := eq0G O.toDOps M0 || O.le (O.ofInt 1) (O.div M M0)
    let f2 := eq0G O.toDOps M1 || O.le (O.ofInt 1) (O.div M M1)
    let f3 := eq0G O.toDOps M2 || O.le (O.ofInt 1) (O.div M M2)
    if f1 && f2 && f3 then O.ofInt 0
    else
      let eb := O.ofInt 0
      let eb := if f1 then eb else maxfG O.toDOps eb (minfG O.toDOps
        (E.keep v0 (E.negT u0) (det u2 v0 u0 v2))
        (E.keep (E.negT v1) u1 (O.subT (O.addT (det u1 v2 u2 v1) (E.mulT u0 v1)) (E.mulT u1 v0))))
      let eb := if f2 then eb else maxfG O.toDOps eb (minfG O.toDOps
        (E.keep (E.negT v1) u1 (det u1 v2 u2 v1))
        (E.keep v0 (E.negT u0) (O.subT (O.addT (det u2 v0 u0 v2) (E.mulT u0 v1)) (E.mulT u1 v0))))
      let eb := if f3 then eb else maxfG O.toDOps eb
        (E.keep (O.subT v0 v1) (O.subT u1 u0)
          (O.subT (O.addT (det u2 v0 u0 v2) (E.mulT u1 v2)) (E.mulT u2 v1)))
      eb

/-- `required_eb` of the absolute mode (src/sz_compress_cp_preserve_2d.cpp L1053-1074): 0 if a
component is zero. -/
def boundAbsT (O : Ops T D) (E : EOps T D) (r1 r2 : Nat) (maxEb : D) (m : Online2D.Field T)
    (p : Nat) : Option D :=
  if eq0G O.toDOps (O.toD (m.u p)) || eq0G O.toDOps (O.toD (m.v p)) then some (O.ofInt 0)
  else Mesh2D.requiredEb r1 r2 maxEb (minfG O.toDOps) (fun _ => deriveAbsT O E) m p

/-- The operations of the formula follow IEEE-754; of `keep` it is enough that it is not NaN
when one of the divisor's two terms is not zero. -/
structure IsIeeeE (E : EOps T D) (F : Fmt) (vT : T → Fp ℚ) (vD : D → Fp ℚ) : Prop where
  mulT : ∀ a b, vT (E.mulT a b) = Fp.mul (round F) (vT a) (vT b)
  negT : ∀ a, vT (E.negT a) = Fp.neg (vT a)
  keep : ∀ A B C a b c, vT A = .fin a → vT B = .fin b → vT C = .fin c → ¬ (a = 0 ∧ b = 0) →
    vD (E.keep A B C) ≠ .nan

variable {O : Ops T D} {F : Fmt} {vT : T → Fp ℚ} {vD : D → Fp ℚ} {eps : ℚ} {E : EOps T D}

theorem minf_or (N : DOps D) (a b : D) : minfG N a b = a ∨ minfG N a b = b := by
  unfold minfG; split
  · exact Or.inl rfl
  · exact Or.inr rfl

theorem maxf_or (N : DOps D) (a b : D) : maxfG N a b = a ∨ maxfG N a b = b := by
  unfold maxfG; split
  · exact Or.inl rfl
  · exact Or.inr rfl

theorem minf_not_nan {N : DOps D} {a b : D} (ha : vD a ≠ .nan) (hb : vD b ≠ .nan) :
    vD (minfG N a b) ≠ .nan := by
  rcases minf_or N a b with h | h <;> rw [h] <;> assumption

theorem maxf_not_nan {N : DOps D} {a b : D} (ha : vD a ≠ .nan) (hb : vD b ≠ .nan) :
    vD (maxfG N a b) ≠ .nan := by
  rcases maxf_or N a b with h | h <;> rw [h] <;> assumption

/-- `a` is finite and at most `2^b` in magnitude. -/
def Bd (v : T → Fp ℚ) (b : Int) (a : T) : Prop := ∃ x, v a = .fin x ∧ |x| ≤ p2 b

theorem IsIeee.zero (hO : IsIeee O F vT vD eps) : vD (O.ofInt 0) = .fin 0 := by
  have := hO.ofInt_small (n := 0) (by norm_num); simpa using this

theorem IsIeee.one (hO : IsIeee O F vT vD eps) : vD (O.ofInt 1) = .fin 1 := by
  have := hO.ofInt_small (n := 1) (by norm_num); simpa using this

theorem IsIeee.eq0_fin (hO : IsIeee O F vT vD eps) {a : D} {x : ℚ} (h : vD a = .fin x) :
    eq0G O.toDOps a = decide (x = 0) := by
  unfold eq0G
  rw [hO.le, hO.le, h, hO.zero]
  simp only [Fp.le]
  by_cases hx : x = 0
  · simp [hx]
  · simp only [hx, decide_false, Bool.and_eq_false_iff, decide_eq_false_iff_not, not_le]
    exact (lt_or_gt_of_ne hx).symm

theorem keepD_ieee (hO : IsIeee O F vT vD eps)
    (hp : F.p ≤ binary64.p) (hu : binary64.umin ≤ F.umin) (he : F.emax ≤ binary64.emax)
    (A B C : T) (a b c : ℚ) (ha : vT A = .fin a) (hb : vT B = .fin b) (hc : vT C = .fin c)
    (h : ¬ (a = 0 ∧ b = 0)) : vD (keepD O A B C) ≠ .nan := by
  have hs : vD (O.add (O.abs (O.toD A)) (O.abs (O.toD B))) = round binary64 (|a| + |b|) := by
    rw [hO.add, hO.abs, hO.abs, hO.toD, hO.toD, ha, hb, abs_fin, abs_fin]; rfl
  have hs0 : round binary64 (|a| + |b|) ≠ .fin 0 := by
    have := round_sub_ne ok64 (x := |a|) (y := -|b|) ((hO.repT _ _ ha).widen hp hu he).abs
      ((hO.repT _ _ hb).widen hp hu he).abs.neg (by
        intro e
        have h1 := abs_nonneg a
        have h2 := abs_nonneg b
        exact h ⟨abs_eq_zero.1 (by linarith), abs_eq_zero.1 (by linarith)⟩)
    rwa [sub_neg_eq_add] at this
  unfold keepD
  rw [hO.div _ _ (by rw [hs]; exact hs0), hs, hO.abs, hO.toD, hc, abs_fin]
  cases hr : round binary64 (|a| + |b|) with
  | nan => exact absurd hr (round_not_nan _)
  | inf s => simp [Fp.div]
  | fin y =>
    rw [hr] at hs0
    have : y ≠ 0 := fun e => hs0 (by rw [e])
    simp only [Fp.div, this, if_false]
    exact round_not_nan _

section bounded
variable (hO : IsIeee O F vT vD eps) (hE : IsIeeeE E F vT vD) (hF : F.Ok)
include hO hF

theorem bd_sub {k : Int} (h1 : F.umin ≤ k + 1) (h2 : k + 1 ≤ F.emax) {a b : T} (ha : Bd vT k a)
    (hb : Bd vT k b) : Bd vT (k + 1) (O.subT a b) := by
  obtain ⟨x, x1, x2⟩ := ha
  obtain ⟨y, y1, y2⟩ := hb
  obtain ⟨z, z1, z2⟩ := round_bounded hF (rep_p2 h1 h2) (x := x - y) (by
    have := abs_sub x y
    rw [p2_succ]; linarith)
  exact ⟨z, by rw [hO.subT, x1, y1, sub_fin, z1], z2⟩

theorem bd_add {k : Int} (h1 : F.umin ≤ k + 1) (h2 : k + 1 ≤ F.emax) {a b : T} (ha : Bd vT k a)
    (hb : Bd vT k b) : Bd vT (k + 1) (O.addT a b) := by
  obtain ⟨x, x1, x2⟩ := ha
  obtain ⟨y, y1, y2⟩ := hb
  obtain ⟨z, z1, z2⟩ := round_bounded hF (rep_p2 h1 h2) (x := x + y) (by
    have := abs_add_le x y
    rw [p2_succ]; linarith)
  exact ⟨z, by rw [hO.addT, x1, y1]; exact z1, z2⟩

omit hO hF in
theorem Bd.mono {v : T → Fp ℚ} {k l : Int} (h : k ≤ l) {a : T} (ha : Bd v k a) : Bd v l a := by
  obtain ⟨x, x1, x2⟩ := ha
  exact ⟨x, x1, x2.trans (p2_le h)⟩

omit hO in
include hE in
theorem bd_mul {k : Int} (h1 : F.umin ≤ k + k) (h2 : k + k ≤ F.emax) {a b : T} (ha : Bd vT k a)
    (hb : Bd vT k b) : Bd vT (k + k) (E.mulT a b) := by
  obtain ⟨x, x1, x2⟩ := ha
  obtain ⟨y, y1, y2⟩ := hb
  obtain ⟨z, z1, z2⟩ := round_bounded hF (rep_p2 h1 h2) (x := x * y) (by
    rw [abs_mul, p2_add]
    exact mul_le_mul x2 y2 (abs_nonneg _) (p2_pos _).le)
  exact ⟨z, by rw [hE.mulT, x1, y1]; exact z1, z2⟩

include hE in
/-- The value of a 2×2 determinant. -/
theorem det_val {k : Int} (h1 : F.umin ≤ k + k) (h2 : k + k + 1 ≤ F.emax) {a b c d : T}
    (ha : Bd vT k a) (hb : Bd vT k b) (hc : Bd vT k c) (hd : Bd vT k d) :
    Bd vT (k + k + 1) (O.subT (E.mulT a b) (E.mulT c d)) :=
  bd_sub hO hF (by omega) h2 (bd_mul hE hF h1 (by omega) ha hb) (bd_mul hE hF h1 (by omega) hc hd)

include hE in
/-- A determinant with two equal products is zero. -/
theorem det_zero {k : Int} (h1 : F.umin ≤ k + k) (h2 : k + k ≤ F.emax) {a b c d : T}
    {x y z w : ℚ} (ha : vT a = .fin x) (hb : vT b = .fin y) (hc : vT c = .fin z)
    (hd : vT d = .fin w) (hx : |x| ≤ p2 k) (hy : |y| ≤ p2 k) (h : x * y = z * w) :
    vT (O.subT (E.mulT a b) (E.mulT c d)) = .fin 0 := by
  obtain ⟨t, t1, -⟩ := bd_mul hE hF h1 h2 ⟨x, ha, hx⟩ ⟨y, hb, hy⟩
  have t2 : vT (E.mulT c d) = .fin t := by
    rw [hE.mulT, hc, hd]
    rw [hE.mulT, ha, hb] at t1
    simp only [Fp.mul] at t1 ⊢
    rw [← h]; exact t1
  rw [hO.subT, t1, t2, sub_fin, sub_self, round_zero hF]

include hE in
/-- The derived bound is a number (or infinite) when the data are of moderate size. -/
theorem derive_not_nan (hp : F.p ≤ binary64.p) (hu : binary64.umin ≤ F.umin)
    (he : F.emax ≤ binary64.emax) {k : Int} (h0 : 0 ≤ k) (h2 : k + k + 3 ≤ F.emax)
    {u0 u1 u2 v0 v1 v2 : T} (b0 : Bd vT k u0) (b1 : Bd vT k u1) (b2 : Bd vT k u2)
    (c0 : Bd vT k v0) (c1 : Bd vT k v1) (c2 : Bd vT k v2) :
    vD (deriveAbsT O E u0 u1 u2 v0 v1 v2) ≠ .nan := by
  have hum := (emin_le hF).2.1
  have hzero : vD (O.ofInt 0) ≠ .nan := by rw [hO.zero]; simp
  have hm : ∀ {a b : T}, Bd vT k a → Bd vT k b → Bd vT (k + k) (E.mulT a b) :=
    fun ha hb => bd_mul hE hF (by omega) (by omega) ha hb
  have hd : ∀ {a b c d : T}, Bd vT k a → Bd vT k b → Bd vT k c → Bd vT k d →
      Bd vT (k + k + 1) (O.subT (E.mulT a b) (E.mulT c d)) :=
    fun ha hb hc hd => det_val hO hE hF (by omega) (by omega) ha hb hc hd
  have h4 : ∀ {a b c d e f g h : T}, Bd vT k a → Bd vT k b → Bd vT k c → Bd vT k d → Bd vT k e →
      Bd vT k f → Bd vT k g → Bd vT k h →
      Bd vT (k + k + 1 + 1 + 1) (O.subT (O.addT (O.subT (E.mulT a b) (E.mulT c d)) (E.mulT e f))
        (E.mulT g h)) := fun ha hb hc hd' he' hf hg hh =>
    bd_sub hO hF (by omega) (by omega) (bd_add hO hF (by omega) (by omega) (hd ha hb hc hd')
      ((hm he' hf).mono (by omega))) ((hm hg hh).mono (by omega))
  obtain ⟨m0, m0v, -⟩ := hd b2 c0 b0 c2
  obtain ⟨m1, m1v, -⟩ := hd b1 c2 b2 c1
  obtain ⟨m2, m2v, -⟩ := hd b0 c1 b1 c0
  have hk4 : ∀ {a : T}, Bd vT (k + k + 1) a → ∃ c, vT a = .fin c := fun h => ⟨_, h.choose_spec.1⟩
  have hk5 : ∀ {a : T}, Bd vT (k + k + 1 + 1 + 1) a → ∃ c, vT a = .fin c :=
    fun h => ⟨_, h.choose_spec.1⟩
  -- what a flag that is not set says
  have flag : ∀ {M M' : D} {x : ℚ}, vD M' = .fin x →
      (eq0G O.toDOps M' || O.le (O.ofInt 1) (O.div M M')) = false →
      x ≠ 0 ∧ vD M ≠ .fin x := by
    intro M M' x hx h
    rw [Bool.or_eq_false_iff, hO.eq0_fin hx] at h
    have hx0 : x ≠ 0 := by simpa using h.1
    refine ⟨hx0, fun hM => ?_⟩
    have h5 := h.2
    rw [hO.le, hO.one, hO.div _ _ (by rw [hx]; simpa using hx0), hx, hM] at h5
    simp only [Fp.div, hx0, if_false, div_self hx0] at h5
    rw [show round binary64 1 = .fin 1 by
      simpa [p2_zero] using round_rep ok64 (rep_p2 (F := binary64) (k := 0) (by decide) (by decide))]
      at h5
    simp [Fp.le] at h5
  have radd : ∀ {x : ℚ} {a : T}, vT a = .fin x → round binary64 x = .fin x :=
    fun h => round_rep ok64 ((hO.repT _ _ h).widen hp hu he)
  have kp : ∀ {A B C : T} {a b : ℚ}, vT A = .fin a → vT B = .fin b → (∃ c, vT C = .fin c) →
      ¬ (a = 0 ∧ b = 0) → vD (E.keep A B C) ≠ .nan :=
    fun hA hB hC h => by
      obtain ⟨c, hc⟩ := hC
      exact hE.keep _ _ _ _ _ _ hA hB hc h
  obtain ⟨xu0, u0v, u0b⟩ := id b0
  obtain ⟨xu1, u1v, u1b⟩ := id b1
  obtain ⟨xu2, u2v, u2b⟩ := id b2
  obtain ⟨xv0, v0v, v0b⟩ := id c0
  obtain ⟨xv1, v1v, v1b⟩ := id c1
  obtain ⟨xv2, v2v, v2b⟩ := id c2
  have nu0 : vT (E.negT u0) = .fin (-xu0) := by rw [hE.negT, u0v]; rfl
  have nv1 : vT (E.negT v1) = .fin (-xv1) := by rw [hE.negT, v1v]; rfl
  have dz : ∀ {a b c d : T} {x y z w : ℚ}, vT a = .fin x → vT b = .fin y → vT c = .fin z →
      vT d = .fin w → |x| ≤ p2 k → |y| ≤ p2 k → x * y = z * w →
      vT (O.subT (E.mulT a b) (E.mulT c d)) = .fin 0 :=
    fun ha hb hc hd' hx hy h => det_zero hO hE hF (by omega) (by omega) ha hb hc hd' hx hy h
  -- a vertex at the origin makes the two minors with it vanish
  have o0 : xv0 = 0 ∧ xu0 = 0 → m0 = 0 ∧ m2 = 0 := by
    rintro ⟨rfl, rfl⟩
    have e0 := dz u2v v0v u0v v2v u2b v0b (by simp)
    have e2 := dz u0v v1v u1v v0v u0b v1b (by simp)
    rw [m0v] at e0
    rw [m2v] at e2
    exact ⟨by simpa using e0, by simpa using e2⟩
  have o1 : xv1 = 0 ∧ xu1 = 0 → m1 = 0 ∧ m2 = 0 := by
    rintro ⟨rfl, rfl⟩
    have e0 := dz u1v v2v u2v v1v u1b v2b (by simp)
    have e2 := dz u0v v1v u1v v0v u0b v1b (by simp)
    rw [m1v] at e0
    rw [m2v] at e2
    exact ⟨by simpa using e0, by simpa using e2⟩
  have hM : vD (O.add (O.add (O.toD (O.subT (E.mulT u2 v0) (E.mulT u0 v2)))
      (O.toD (O.subT (E.mulT u1 v2) (E.mulT u2 v1))))
      (O.toD (O.subT (E.mulT u0 v1) (E.mulT u1 v0)))) =
      Fp.add (round binary64) (round binary64 (m0 + m1)) (.fin m2) := by
    rw [hO.add, hO.add, hO.toD, hO.toD, hO.toD, m0v, m1v, m2v]; rfl
  unfold deriveAbsT
  simp only
  generalize hMe : O.add (O.add (O.toD (O.subT (E.mulT u2 v0) (E.mulT u0 v2)))
      (O.toD (O.subT (E.mulT u1 v2) (E.mulT u2 v1))))
      (O.toD (O.subT (E.mulT u0 v1) (E.mulT u1 v0))) = M at hM ⊢
  by_cases hM0 : eq0G O.toDOps M = true
  · rw [if_pos hM0]; exact hzero
  rw [if_neg hM0]
  have fl1 := @flag M _ m0 (show vD (O.toD (O.subT (E.mulT u2 v0) (E.mulT u0 v2))) = .fin m0 by
    rw [hO.toD, m0v])
  have fl2 := @flag M _ m1 (show vD (O.toD (O.subT (E.mulT u1 v2) (E.mulT u2 v1))) = .fin m1 by
    rw [hO.toD, m1v])
  have fl3 := @flag M _ m2 (show vD (O.toD (O.subT (E.mulT u0 v1) (E.mulT u1 v0))) = .fin m2 by
    rw [hO.toD, m2v])
  generalize (eq0G O.toDOps (O.toD (O.subT (E.mulT u2 v0) (E.mulT u0 v2))) ||
    O.le (O.ofInt 1) (O.div M (O.toD (O.subT (E.mulT u2 v0) (E.mulT u0 v2))))) = f1 at fl1 ⊢
  generalize (eq0G O.toDOps (O.toD (O.subT (E.mulT u1 v2) (E.mulT u2 v1))) ||
    O.le (O.ofInt 1) (O.div M (O.toD (O.subT (E.mulT u1 v2) (E.mulT u2 v1))))) = f2 at fl2 ⊢
  generalize (eq0G O.toDOps (O.toD (O.subT (E.mulT u0 v1) (E.mulT u1 v0))) ||
    O.le (O.ofInt 1) (O.div M (O.toD (O.subT (E.mulT u0 v1) (E.mulT u1 v0))))) = f3 at fl3 ⊢
  have k1 : f1 = false → vD (minfG O.toDOps
        (E.keep v0 (E.negT u0) (O.subT (E.mulT u2 v0) (E.mulT u0 v2)))
        (E.keep (E.negT v1) u1 (O.subT (O.addT (O.subT (E.mulT u1 v2) (E.mulT u2 v1))
          (E.mulT u0 v1)) (E.mulT u1 v0)))) ≠ .nan := by
    intro hf
    obtain ⟨n1, n2⟩ := fl1 hf
    refine minf_not_nan (kp v0v nu0 ⟨_, m0v⟩ fun h => n1 (o0 ⟨h.1, by linarith [h.2]⟩).1)
      (kp nv1 u1v (hk5 (h4 b1 c2 b2 c1 b0 c1 b1 c0)) fun h => n2 ?_)
    obtain ⟨e1, e2⟩ := o1 ⟨by linarith [h.1], h.2⟩
    rw [hM, e1, e2, add_zero, radd m0v]
    simp only [Fp.add, add_zero]
    exact radd m0v
  have k2 : f2 = false → vD (minfG O.toDOps
        (E.keep (E.negT v1) u1 (O.subT (E.mulT u1 v2) (E.mulT u2 v1)))
        (E.keep v0 (E.negT u0) (O.subT (O.addT (O.subT (E.mulT u2 v0) (E.mulT u0 v2))
          (E.mulT u0 v1)) (E.mulT u1 v0)))) ≠ .nan := by
    intro hf
    obtain ⟨n1, n2⟩ := fl2 hf
    refine minf_not_nan (kp nv1 u1v ⟨_, m1v⟩ fun h => n1 (o1 ⟨by linarith [h.1], h.2⟩).1)
      (kp v0v nu0 (hk5 (h4 b2 c0 b0 c2 b0 c1 b1 c0)) fun h => n2 ?_)
    obtain ⟨e1, e2⟩ := o0 ⟨h.1, by linarith [h.2]⟩
    rw [hM, e1, e2, zero_add, radd m1v]
    simp only [Fp.add, add_zero]
    exact radd m1v
  have k3 : f3 = false → vD (E.keep (O.subT v0 v1) (O.subT u1 u0)
      (O.subT (O.addT (O.subT (E.mulT u2 v0) (E.mulT u0 v2)) (E.mulT u1 v2)) (E.mulT u2 v1))) ≠
        .nan := by
    intro hf
    obtain ⟨n1, -⟩ := fl3 hf
    obtain ⟨a, av, -⟩ := bd_sub hO hF (by omega) (by omega) c0 c1
    obtain ⟨b, bv, -⟩ := bd_sub hO hF (by omega) (by omega) b1 b0
    refine kp av bv (hk5 (h4 b2 c0 b0 c2 b1 c2 b2 c1)) fun h => n1 ?_
    obtain ⟨rfl, rfl⟩ := h
    rw [hO.subT, v0v, v1v, sub_fin] at av
    rw [hO.subT, u1v, u0v, sub_fin] at bv
    have e1 : xv0 = xv1 := by
      by_contra hc
      exact round_sub_ne hF (hO.repT _ _ v0v) (hO.repT _ _ v1v) hc av
    have e2 : xu1 = xu0 := by
      by_contra hc
      exact round_sub_ne hF (hO.repT _ _ u1v) (hO.repT _ _ u0v) hc bv
    have e3 := dz u0v v1v u1v v0v u0b v1b (by rw [e1, e2])
    rw [m2v] at e3
    simpa using e3
  clear fl1 fl2 fl3 flag
  split
  · exact hzero
  · cases f1 <;> cases f2 <;> cases f3 <;> simp only [if_true, if_false, Bool.false_eq_true] <;>
      first
      | exact hzero
      | exact maxf_not_nan (maxf_not_nan (maxf_not_nan hzero (k1 rfl)) (k2 rfl)) (k3 rfl)
      | exact maxf_not_nan (maxf_not_nan hzero (k1 rfl)) (k2 rfl)
      | exact maxf_not_nan (maxf_not_nan hzero (k1 rfl)) (k3 rfl)
      | exact maxf_not_nan (maxf_not_nan hzero (k2 rfl)) (k3 rfl)
      | exact maxf_not_nan hzero (k1 rfl)
      | exact maxf_not_nan hzero (k2 rfl)
      | exact maxf_not_nan hzero (k3 rfl)

end bounded

/-! ### The bound of a vertex -/

/-- At most `e`, and not NaN. -/
def LeV (e : ℚ) (v : Fp ℚ) : Prop := v = .inf true ∨ ∃ x, v = .fin x ∧ x ≤ e

theorem minf_le (hO : IsIeee O F vT vD eps) {e : ℚ} {a b : D} (ha : LeV e (vD a))
    (hb : vD b ≠ .nan) : LeV e (vD (minfG O.toDOps a b)) := by
  unfold minfG
  split
  · exact ha
  · rename_i h
    rw [hO.lt] at h
    rcases ha with ha | ⟨x, ha, hx⟩ <;> rw [ha] at h <;> cases hd : vD b with
    | nan => exact absurd hd hb
    | inf s => cases s <;> simp [Fp.lt, hd, LeV] at h ⊢
    | fin y =>
      simp [Fp.lt, hd] at h <;> exact Or.inr ⟨y, rfl, h.trans hx⟩

theorem requiredLoop_ieee (hO : IsIeee O F vT vD eps) {r1 r2 : Nat}
    {derive : Nat → T → T → T → T → T → T → D} {f : Online2D.Field T} {Q : T → Prop}
    (hd : ∀ k u0 u1 u2 v0 v1 v2, Q u0 → Q u1 → Q u2 → Q v0 → Q v1 → Q v2 →
      vD (derive k u0 u1 u2 v0 v1 v2) ≠ .nan)
    (hf : ∀ q, q < r1 * r2 → Q (f.u q) ∧ Q (f.v q)) {p : Nat} (hp : p < r1 * r2) {e : ℚ}
    {ks : List Nat} {req r : D} (hr : LeV e (vD req))
    (h : Mesh2D.requiredLoop r1 r2 (minfG O.toDOps) derive f p ks req = some r) :
    LeV e (vD r) := by
  have rd_Q : ∀ {g : Nat → T} {i : Int} {x : T}, (∀ q, q < r1 * r2 → Q (g q)) →
      Mesh2D.rd (r1 * r2) g i = some x → Q x := by
    intro g i x hg hx
    unfold Mesh2D.rd at hx
    split at hx
    · rename_i h1
      simp only [Option.some.injEq] at hx
      rw [← hx]
      exact hg _ (by omega)
    · cases hx
  induction ks generalizing req with
  | nil => simp only [Mesh2D.requiredLoop, Option.some.injEq] at h; rw [← h]; exact hr
  | cons k ks ih =>
    unfold Mesh2D.requiredLoop at h
    split at h
    · split at h
      · rename_i u0 u1 v0 v1 e0 e1 e2 e3
        have hu := fun q hq => (hf q hq).1
        have hv := fun q hq => (hf q hq).2
        exact ih (minf_le hO hr (hd _ _ _ _ _ _ _ (rd_Q hu e0) (rd_Q hu e1) (hu p hp)
          (rd_Q hv e2) (rd_Q hv e3) (hv p hp))) h
      · cases h
    · exact ih hr h

/-- The bound of a vertex is at most the bound of the user. -/
theorem boundAbsT_le (hO : IsIeee O F vT vD eps) (hE : IsIeeeE E F vT vD) (hF : F.Ok)
    (hp : F.p ≤ binary64.p) (hu : binary64.umin ≤ F.umin)
    (he : F.emax ≤ binary64.emax) {k : Int} (h0 : 0 ≤ k) (h2 : k + k + 3 ≤ F.emax)
    {r1 r2 : Nat} {maxEb : D} {e : ℚ} (hm : vD maxEb = .fin e) {f : Online2D.Field T}
    (hf : ∀ q, q < r1 * r2 → Bd vT k (f.u q) ∧ Bd vT k (f.v q)) {p : Nat} (hpn : p < r1 * r2)
    {req : D} (h : boundAbsT O E r1 r2 maxEb f p = some req)
    (hpos : O.lt (O.ofInt 0) req = true) : ∃ x, vD req = .fin x ∧ 0 < x ∧ x ≤ e := by
  unfold boundAbsT at h
  rw [hO.lt, hO.zero] at hpos
  split at h
  · simp only [Option.some.injEq] at h
    rw [← h, hO.zero] at hpos
    simp [Fp.lt] at hpos
  · have := requiredLoop_ieee hO (Q := Bd vT k) (derive := fun _ => deriveAbsT O E)
      (fun _ u0 u1 u2 v0 v1 v2 b0 b1 b2 c0 c1 c2 =>
        derive_not_nan hO hE hF hp hu he h0 h2 b0 b1 b2 c0 c1 c2) hf hpn
      (Or.inr ⟨e, hm, le_refl e⟩) h
    rcases this with h3 | ⟨x, h3, h4⟩
    · rw [h3] at hpos; simp [Fp.lt] at hpos
    · rw [h3] at hpos
      exact ⟨x, h3, by simpa [Fp.lt] using hpos, h4⟩

theorem slack_le (F : Fmt) {eps : ℚ} (he1 : eps ≤ p2 (-30)) : slack F eps ≤ 2 := by
  have h1 := p2_pos (-((F.p : Int) + 1))
  have h3 : p2 (-((F.p : Int) + 1)) ≤ p2 0 := p2_le (by omega)
  have e0 : p2 (-30) = 1 / 2 ^ 30 := by rw [p2_eq]; norm_num
  have e1 : p2 (-53) = 1 / 2 ^ 53 := by rw [p2_eq]; norm_num
  rw [p2_zero] at h3
  unfold slack
  rw [e0] at he1
  rw [e1]
  by_cases h5 : 0 ≤ 1 + eps
  · calc _ ≤ 1 * ((1 + eps) * (1 + 1 / 2 ^ 53)) :=
        mul_le_mul_of_nonneg_right (by linarith) (mul_nonneg h5 (by norm_num))
      _ ≤ 2 := by nlinarith
  · have : (1 - p2 (-((F.p : Int) + 1))) * ((1 + eps) * (1 + 1 / 2 ^ 53)) ≤ 0 :=
      mul_nonpos_of_nonneg_of_nonpos (by linarith)
        (mul_nonpos_of_nonpos_of_nonneg (by linarith) (by norm_num))
    linarith

/-- In single precision the gap of the acceptance test is wider than all other errors. -/
theorem slack32 {eps : ℚ} (he1 : eps ≤ p2 (-30)) : slack binary32 eps < 1 := by
  have e0 : p2 (-30) = 1 / 2 ^ 30 := by rw [p2_eq]; norm_num
  have e1 : p2 (-53) = 1 / 2 ^ 53 := by rw [p2_eq]; norm_num
  have e2 : p2 (-((binary32.p : Int) + 1)) = 1 / 2 ^ 25 := by rw [p2_eq]; norm_num [binary32]
  unfold slack
  rw [e1, e2]
  rw [e0] at he1
  nlinarith

/-- In double precision the distance may exceed the bound, by less than `eps + 2^-53` of it. -/
theorem slack64 {eps : ℚ} (he1 : eps ≤ p2 (-30)) :
    slack binary64 eps < 1 + eps + p2 (-53) := by
  have e0 : p2 (-30) = 1 / 2 ^ 30 := by rw [p2_eq]; norm_num
  have e1 : p2 (-53) = 1 / 2 ^ 53 := by rw [p2_eq]; norm_num
  have e2 : p2 (-((binary64.p : Int) + 1)) = 1 / 2 ^ 54 := by rw [p2_eq]; norm_num [binary64]
  unfold slack
  rw [e1, e2]
  rw [e0] at he1
  nlinarith

/-- The absolute mode: data and bound at most `2^r`. -/
theorem abs2 (hO : IsIeee O F vT vD eps) (hE : IsIeeeE E F vT vD) (hF : F.Ok)
    (hp : F.p ≤ binary64.p) (hu : binary64.umin ≤ F.umin) (he : F.emax ≤ binary64.emax)
    (hemin : F.emin ≤ -52) (he0 : 0 ≤ eps) (he1 : eps ≤ p2 (-30)) {P : Par D}
    (hbase : P.base = 4) (hcap : P.capacity = 65536) (hrad : P.radius = 32768)
    (hlb : vD P.logBase = .fin 2) (hthr : vD P.thr = .fin (p2 (-52)))
    {r : Int} (h0 : 0 ≤ r) (h1 : r ≤ 400) (h2 : r + r + 7 ≤ F.emax) {r1 r2 : Nat} {maxEb : D}
    {e : ℚ} (hm : vD maxEb = .fin e) (hep : 0 ≤ e) (her : e ≤ p2 r) {m m' : Online2D.Field T}
    {s : Streams T} (hf : ∀ q, q < r1 * r2 → Bd vT r (m.u q) ∧ Bd vT r (m.v q))
    (h : compress O P r1 r2 (fun a _ => a) (boundAbsT O E r1 r2 maxEb) m = some (m', s)) :
    (∀ q, q < r1 * r2 → Cl vT (slack F eps * e) (m'.u q) (m.u q) ∧
      Cl vT (slack F eps * e) (m'.v q) (m.v q)) ∧
    (∀ x ∈ s.eb, 0 ≤ x ∧ 2 * x ≤ r + 54) ∧ ∀ x ∈ s.dq, 0 ≤ x ∧ x ≤ 65536 := by
  have hs2 := slack_le F he1
  have he2 : eps ≤ 1 := he1.trans (by rw [← p2_zero]; exact p2_le (by norm_num))
  refine run2 (B := fun _ => e) (R := r) hO hF hemin he0 he2 hbase hcap hrad hlb hthr
    (by omega) (by omega)
    (fun q hq => ⟨⟨_, (hf q hq).1.choose_spec.1⟩, ⟨_, (hf q hq).2.choose_spec.1⟩⟩) ?_ h
  intro f p req hpn _ _ hcl hb hpos
  refine Or.inr fun c _ => ?_
  have wide : ∀ {x c : T}, Bd vT r c → Cl vT (slack F eps * e) x c → Bd vT (r + 1 + 1) x := by
    intro x c hc hx
    rcases hx with rfl | ⟨X, C, x1, x2, x3⟩
    · exact hc.mono (by omega)
    · obtain ⟨y, y1, y2⟩ := hc
      rw [x2] at y1
      cases y1
      refine ⟨X, x1, ?_⟩
      have h3 := abs_sub_abs_le_abs_sub X C
      have h4 : slack F eps * e ≤ 2 * e := mul_le_mul_of_nonneg_right hs2 hep
      have h5 := p2_pos r
      rw [p2_succ, p2_succ]
      linarith
  obtain ⟨x, x1, x2, x3⟩ := boundAbsT_le hO hE hF hp hu he (k := r + 1 + 1) (by omega) (by omega)
    hm (fun q hq => ⟨wide (hf q hq).1 (hcl q hq).1, wide (hf q hq).2 (hcl q hq).2⟩) hpn hb hpos
  exact ⟨x, x1, fun _ => x3, x3.trans her⟩

end formula

end CpSZ.Ieee
