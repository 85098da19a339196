import Verif.Ieee.Run3
/-
The 2D online relative mode (src/sz_compress_cp_preserve_2d.cpp L390-537, L545-714) in IEEE-754
arithmetic: distance of the reconstruction from the data.
-/

namespace CpSZ.Ieee
open CpSZ.Online2D

section formula
variable {T D : Type}

/-- Operations of the bound formulas of the relative mode: product and negation of elements,
`max_eb_to_keep_sign_2d_online` (src/sz_compress_cp_preserve_2d.cpp L390-396; field `keep`), the
constants `inv_C[k][q]` (L591-594) and the library's `sqrt`. -/
structure ROps (T D : Type) extends EOps T D where
  coef : Nat → Nat → T
  sqrt : D → D

/-- `max_eb_to_keep_sign_2d_online` (src/sz_compress_cp_preserve_2d.cpp L390-396); `s` is
`fabs_sum`. -/
def keepR (O : Ops T D) (s : D) (A B C : T) : D :=
  if eq0G O.toDOps s then O.ofInt 0
  else O.div (O.abs (O.toD (O.addT (O.addT A B) C))) s

/-- `max_eb_to_keep_type_online` (src/sz_compress_cp_preserve_2d.cpp L414-477). -/
def keepTypeT (O : Ops T D) (R : ROps T D) (u0 u1 u2 v0 v1 v2 c0 c1 c2 c3 : T) : D :=
  let N := O.toDOps
  let det (x y z w : T) : T := O.subT (R.mulT x y) (R.mulT z w)
  let two := N.ofInt 2
  let four := N.ofInt 4
  let eb1 := minfG N (N.ofInt 1) (R.keep (det u2 v0 u2 v1) (det u1 v2 u0 v2) (det u0 v1 u1 v0))
  let m := det c1 c2 c0 c3
  let Ct := R.mulT (R.negT m) (O.subT (O.addT (O.subT (O.addT (det u0 v1 u0 v2) (R.mulT u1 v2))
    (R.mulT u1 v0)) (R.mulT u2 v0)) (R.mulT u2 v1))
  if N.le (O.toD Ct) (N.ofInt 0) then eb1
  else
    let At := O.subT (R.mulT (R.negT c0) u2) (R.mulT c1 u2)
    let Bt := O.subT (R.mulT (R.negT c2) v2) (R.mulT c3 v2)
    let Kt := O.addT (O.addT (O.addT (R.mulT c0 u0) (R.mulT c1 u1)) (R.mulT c2 v0)) (R.mulT c3 v1)
    let eb := R.keep At Bt Kt
    let A := O.toD At
    let B := O.toD Bt
    let D := O.toD (R.mulT (R.negT m) (det u2 v0 u2 v1))
    let E := O.toD (R.mulT (R.negT m) (det u1 v2 u0 v2))
    let F := O.toD (R.mulT (R.negT m) (det u0 v1 u1 v0))
    let C := N.add (O.toD Kt) (N.add A B)
    let F := N.add F (N.add D E)
    let delta := N.sub (N.mul C C) (N.mul four F)
    let b := N.add (N.abs (N.sub (N.mul (N.mul two A) C) (N.mul four D)))
      (N.abs (N.sub (N.mul (N.mul two B) C) (N.mul four E)))
    if eq0G N delta then N.ofInt 0
    else if N.lt (N.ofInt 0) delta then
      if eq0G N b then N.ofInt 1 else minfG N eb (N.div delta b)
    else
      let s := N.add (N.abs A) (N.abs B)
      let a := N.mul s s
      minfG N eb (N.div (N.add (N.neg b)
        (R.sqrt (N.sub (N.mul b b) (N.mul (N.mul four a) delta)))) (N.mul two a))

/-- `derive_cp_eb_for_positions_online` (src/sz_compress_cp_preserve_2d.cpp L484-537) with
`max_eb_to_keep_position_online` (L402-408). -/
def deriveRelT (O : Ops T D) (R : ROps T D) (k : Nat) (u0 u1 u2 v0 v1 v2 : T) : D :=
  let N := O.toDOps
  let det (x y z w : T) : T := O.subT (R.mulT x y) (R.mulT z w)
  let M0 := O.toD (det u2 v0 u0 v2)
  let M1 := O.toD (det u1 v2 u2 v1)
  let M2 := O.toD (det u0 v1 u1 v0)
  let M := N.add (N.add M0 M1) M2
  if eq0G N M then N.ofInt 0
  else
    let flag (m : D) : Bool := eq0G N m || N.le (N.ofInt 1) (N.div M m)
    let f1 := flag M0
    let f2 := flag M1
    let f3 := flag M2
    if f1 && f2 && f3 then
      minfG N (minfG N (R.keep (R.negT (R.mulT u2 v1)) (R.mulT u1 v2) O.zeroT)
          (R.keep (R.mulT u2 v0) (R.negT (R.mulT u0 v2)) O.zeroT))
        (keepTypeT O R u0 u1 u2 v0 v1 v2 (R.coef k 0) (R.coef k 1) (R.coef k 2) (R.coef k 3))
    else
      let eb := N.ofInt 0
      let eb := if f1 then eb else maxfG N eb (minfG N
        (R.keep (R.mulT u2 v0) (R.mulT (R.negT u0) v2) O.zeroT)
        (R.keep (R.mulT (R.negT u2) v1) (R.mulT u1 v2) (det u0 v1 u1 v0)))
      let eb := if f2 then eb else maxfG N eb (minfG N
        (R.keep (R.mulT (R.negT u2) v1) (R.mulT u1 v2) O.zeroT)
        (R.keep (R.mulT u2 v0) (R.mulT (R.negT u0) v2) (det u0 v1 u1 v0)))
      let eb := if f3 then eb else maxfG N eb
        (R.keep (det u2 v0 u2 v1) (det u1 v2 u0 v2) O.zeroT)
      eb

/-- `required_eb` of a vertex (src/sz_compress_cp_preserve_2d.cpp L609-624). -/
def boundRelT (O : Ops T D) (R : ROps T D) (r1 r2 : Nat) (maxEb : D) :
    Online2D.Field T → Nat → Option D :=
  Mesh2D.requiredEb r1 r2 maxEb (minfG O.toDOps) (deriveRelT O R)

/-- `fabs(cur_data) * required_eb` (src/sz_compress_cp_preserve_2d.cpp L632). -/
def relEbT (O : Ops T D) (req : D) (c : T) : D := O.mul (O.abs (O.toD c)) req

/-- What is used of these operations.  `keep` is not NaN for operands of moderate size, and at
most 2 without a constant term; the constants are -1, 0 or 1, their sums too, and the sums are
not both 0; `sqrt` of a number that is not negative is not NaN. -/
structure IsIeeeR (O : Ops T D) (R : ROps T D) (F : Fmt) (vT : T → Fp ℚ) (vD : D → Fp ℚ) : Prop where
  mulT : ∀ a b, vT (R.mulT a b) = Fp.mul (round F) (vT a) (vT b)
  negT : ∀ a, vT (R.negT a) = Fp.neg (vT a)
  keep : ∀ (k : Int) A B C, 0 ≤ k → k + 2 ≤ F.emax → Bd vT k A → Bd vT k B → Bd vT k C →
    vD (R.keep A B C) ≠ .nan ∧ (vT C = .fin 0 → LeV 2 (vD (R.keep A B C)))
  coef : ∀ k, k < 6 → ∃ n : Nat → Int, (∀ q, q < 4 → vT (R.coef k q) = .fin (n q) ∧ |n q| ≤ 1) ∧
    |n 0 + n 1| ≤ 1 ∧ |n 2 + n 3| ≤ 1 ∧ ¬ (n 0 + n 1 = 0 ∧ n 2 + n 3 = 0)
  sqrt : ∀ a x, vD a = .fin x → 0 ≤ x → vD (R.sqrt a) ≠ .nan

variable {O : Ops T D} {F : Fmt} {vT : T → Fp ℚ} {vD : D → Fp ℚ} {eps : ℚ} {R : ROps T D}
variable (hO : IsIeee O F vT vD eps)

section
include hO

theorem bdD_sub {k : Int} (h1 : -1074 ≤ k + 1) (h2 : k + 1 ≤ 1023) {a b : D} (ha : Bd vD k a)
    (hb : Bd vD k b) : Bd vD (k + 1) (O.sub a b) := by
  obtain ⟨x, x1, x2⟩ := ha
  obtain ⟨y, y1, y2⟩ := hb
  obtain ⟨z, z1, z2⟩ := round_bounded ok64 (rep_p2 h1 h2) (x := x - y) (by
    have := abs_sub x y
    rw [p2_succ]; linarith)
  exact ⟨z, by rw [hO.sub, x1, y1, sub_fin, z1], z2⟩

theorem bdD_abs {k : Int} {a : D} (ha : Bd vD k a) : Bd vD k (O.abs a) := by
  obtain ⟨x, x1, x2⟩ := ha
  exact ⟨|x|, by rw [hO.abs, x1, abs_fin], by rwa [abs_abs]⟩

theorem bdD_int {n : Int} {k : Int} (hn : |n| ≤ 2 ^ 53) (h : (|n| : ℚ) ≤ p2 k) :
    Bd vD k (O.ofInt n) :=
  ⟨n, hO.ofInt_small hn, by exact_mod_cast h⟩

/-- The sign bound for a divisor that is the sum rounded to some wider format. -/
theorem keepR_ieee (hF : F.Ok) {G : Fmt} (hG : G.Ok) (hu : G.umin ≤ F.umin)
    (he : F.emax ≤ G.emax) {k : Int} (h0 : 0 ≤ k) (hk : k + 2 ≤ F.emax) {s : D} {A B C : T} {a b : ℚ}
    (hA : vT A = .fin a) (hB : vT B = .fin b) (ha : |a| ≤ p2 k) (hb : |b| ≤ p2 k)
    (hC : Bd vT k C) (hs : vD s = round G (|a| + |b|)) :
    vD (keepR O s A B C) ≠ .nan ∧ (vT C = .fin 0 → LeV 2 (vD (keepR O s A B C))) := by
  have hum := (emin_le hF).2.1
  have hsb : ∃ t, vD s = .fin t := by
    obtain ⟨t, t1, -⟩ := round_bounded hG (rep_p2 (F := G) (k := k + 1) (by omega) (by omega))
      (x := |a| + |b|) (by
        rw [abs_of_nonneg (add_nonneg (abs_nonneg a) (abs_nonneg b)), p2_succ]; linarith)
    exact ⟨t, by rw [hs, t1]⟩
  obtain ⟨t, ht⟩ := hsb
  obtain ⟨n, n1, n2⟩ := bd_add hO hF (by omega) (by omega) (⟨a, hA, ha⟩ : Bd vT k A) ⟨b, hB, hb⟩
  obtain ⟨z, z1, -⟩ := bd_add hO hF (k := k + 1) (by omega) (by omega) ⟨n, n1, n2⟩
    (hC.mono (by omega))
  unfold keepR
  by_cases h : eq0G O.toDOps s = true
  · rw [if_pos h, hO.zero]
    exact ⟨by simp, fun _ => Or.inr ⟨0, rfl, by norm_num⟩⟩
  rw [if_neg h]
  rw [hO.eq0_fin ht] at h
  have ht0 : t ≠ 0 := by simpa using h
  have hq : vD (O.div (O.abs (O.toD (O.addT (O.addT A B) C))) s) = round binary64 (|z| / t) := by
    rw [hO.div _ _ (by rw [ht]; simpa using ht0), hO.abs, hO.toD, z1, abs_fin, ht]
    simp only [Fp.div, ht0, if_false]
  rw [hq]
  refine ⟨round_not_nan _, fun hc => ?_⟩
  -- without constant term
  have hz : z = n := by
    rw [hO.addT, n1, hc] at z1
    simp only [Fp.add, add_zero] at z1
    have := round_rep hF (hO.repT _ _ n1)
    rw [this] at z1
    simpa using z1.symm
  rw [hs] at ht
  have hpos : 0 < |a| + |b| := by
    rcases eq_or_lt_of_le (add_nonneg (abs_nonneg a) (abs_nonneg b)) with e | e
    · rw [← e, round_zero hG] at ht
      simp only [Fp.fin.injEq] at ht
      exact absurd ht.symm ht0
    · exact e
  obtain ⟨l1, l2⟩ := ilog_spec hpos
  have hle : ilog (|a| + |b|) ≤ k + 1 := by
    have : p2 (ilog (|a| + |b|)) < p2 (k + 1 + 1) := by
      refine lt_of_le_of_lt l1 ?_
      have := p2_pos k
      rw [p2_succ, p2_succ]; linarith
    have := lt_of_p2_lt this
    omega
  have hge : F.umin ≤ ilog (|a| + |b|) := by
    obtain ⟨i, hi⟩ := ((hO.repT _ _ hA).abs).mul_umin
    obtain ⟨j, hj⟩ := ((hO.repT _ _ hB).abs).mul_umin
    have e : |a| + |b| = ((i + j : Int) : ℚ) * p2 F.umin := by rw [hi, hj]; push_cast; ring
    have hij : 1 ≤ i + j := by
      by_contra hc
      have h1 : ((i + j : Int) : ℚ) ≤ 0 := by exact_mod_cast (by omega : i + j ≤ 0)
      have := mul_nonpos_of_nonpos_of_nonneg h1 (p2_pos F.umin).le
      rw [e] at hpos
      linarith
    have h1 : p2 F.umin ≤ |a| + |b| := by
      rw [e]
      have h1 : (1 : ℚ) ≤ ((i + j : Int) : ℚ) := by exact_mod_cast hij
      have := mul_le_mul_of_nonneg_right h1 (p2_pos F.umin).le
      linarith
    have := lt_of_p2_lt (lt_of_le_of_lt h1 l2)
    omega
  have htl : p2 (ilog (|a| + |b|)) ≤ t :=
    round_ge hG (rep_p2 (by omega) (by omega)) (p2_pos _).le l1 ht
  have hnu : |n| ≤ p2 (ilog (|a| + |b|) + 1) := by
    obtain ⟨n', m1, m2⟩ := round_bounded hF (rep_p2 (F := F) (k := ilog (|a| + |b|) + 1) (by omega)
      (by omega)) (x := a + b) ((abs_add_le a b).trans l2.le)
    rw [hO.addT, hA, hB] at n1
    simp only [Fp.add] at n1
    rw [m1] at n1
    simp only [Fp.fin.injEq] at n1
    rw [← n1]; exact m2
  rw [p2_succ] at hnu
  have htp := (p2_pos (ilog (|a| + |b|))).trans_le htl
  have h2 : |n| / t ≤ 2 := by rw [div_le_iff₀ htp]; linarith
  rw [hz]
  obtain ⟨y, y1, y2⟩ := round_bounded ok64 (rep_p2 (F := binary64) (k := 1) (by decide) (by decide))
    (x := |n| / t) (by rw [p2_one, abs_of_nonneg (div_nonneg (abs_nonneg n) htp.le)]; exact h2)
  rw [p2_one] at y2
  exact Or.inr ⟨y, y1, (le_abs_self y).trans y2⟩

end

section bounded
variable (hR : IsIeeeR O R F vT vD) (hF : F.Ok)
include hO hR hF

omit hO in
theorem bdR_mul {k l : Int} (h1 : F.umin ≤ k + l) (h2 : k + l ≤ F.emax) {x y : T} (hx : Bd vT k x)
    (hy : Bd vT l y) : Bd vT (k + l) (R.mulT x y) := by
  obtain ⟨x, x1, x2⟩ := hx
  obtain ⟨y, y1, y2⟩ := hy
  obtain ⟨z, z1, z2⟩ := round_bounded hF (rep_p2 (F := F) h1 h2) (x := x * y) (by
    rw [abs_mul, p2_add]
    exact mul_le_mul x2 y2 (abs_nonneg _) (p2_pos _).le)
  exact ⟨z, by rw [hR.mulT, x1, y1]; exact z1, z2⟩

omit hO hF in
theorem bdR_neg {k : Int} {x : T} (hx : Bd vT k x) : Bd vT k (R.negT x) := by
  obtain ⟨y, y1, y2⟩ := hx
  exact ⟨-y, by rw [hR.negT, y1]; rfl, by rwa [abs_neg]⟩

theorem bdR_det {k l : Int} (h1 : F.umin ≤ k + l) (h2 : k + l + 1 ≤ F.emax) {a b c d : T}
    (ha : Bd vT k a) (hb : Bd vT l b) (hc : Bd vT k c) (hd : Bd vT l d) :
    Bd vT (k + l + 1) (O.subT (R.mulT a b) (R.mulT c d)) :=
  bd_sub hO hF (by omega) h2 (bdR_mul hR hF h1 (by omega) ha hb)
    (bdR_mul hR hF h1 (by omega) hc hd)

/-- `-c*x - c'*x` for the constants of the code. -/
theorem lin_val {c c' x : T} {n n' : Int} {v : ℚ} (hc : vT c = .fin n) (hc' : vT c' = .fin n')
    (h1 : |n| ≤ 1) (h2 : |n'| ≤ 1) (h3 : |n + n'| ≤ 1) (hx : vT x = .fin v) :
    vT (O.subT (R.mulT (R.negT c) x) (R.mulT c' x)) = .fin (-(n + n') * v) := by
  have rx := hO.repT _ _ hx
  have one : ∀ {m : Int}, |m| ≤ 1 → round F ((m : ℚ) * v) = .fin (m * v) := by
    intro m hm
    refine round_rep hF ?_
    rcases (show m = -1 ∨ m = 0 ∨ m = 1 by have := abs_le.1 hm; omega) with rfl | rfl | rfl
    · simpa using rx.neg
    · simpa using rep_zero
    · simpa using rx
  have e1 : vT (R.mulT (R.negT c) x) = .fin (-n * v) := by
    rw [hR.mulT, hR.negT, hc, hx]
    simp only [Fp.neg, Fp.mul]
    have := one (m := -n) (by rwa [abs_neg])
    push_cast at this
    exact this
  have e2 : vT (R.mulT c' x) = .fin (n' * v) := by
    rw [hR.mulT, hc', hx]
    simp only [Fp.mul]
    exact one h2
  rw [hO.subT, e1, e2, sub_fin]
  have := one (m := -(n + n')) (by rwa [abs_neg])
  push_cast at this
  rw [show (-(n : ℚ) * v - n' * v) = -(n + n') * v by ring]
  exact this

/-- The bound that keeps the type is not NaN, if the vertex has no component that is 0 or so small
that its square underflows. -/
theorem keepType_not_nan {k l : Int} (h0 : 0 < k) (h1 : 2 * k + 4 ≤ F.emax)
    (h2 : 4 * k + 17 ≤ 1023) (hl : l ≤ 500) {i : Nat} (hi : i < 6)
    {u0 u1 u2 v0 v1 v2 : T} (b0 : Bd vT k u0) (b1 : Bd vT k u1) (b2 : Bd vT k u2)
    (c0 : Bd vT k v0) (c1 : Bd vT k v1) (c2 : Bd vT k v2) {x y : ℚ} (hx : vT u2 = .fin x)
    (hy : vT v2 = .fin y) (hxl : p2 (-l) ≤ |x|) (hyl : p2 (-l) ≤ |y|) :
    vD (keepTypeT O R u0 u1 u2 v0 v1 v2 (R.coef i 0) (R.coef i 1) (R.coef i 2) (R.coef i 3)) ≠
      .nan := by
  have hum := (emin_le hF).2.1
  obtain ⟨n, hn, s1, s2, s3⟩ := hR.coef i hi
  have bc : ∀ q, q < 4 → Bd vT 0 (R.coef i q) := by
    intro q hq
    obtain ⟨e1, e2⟩ := hn q hq
    refine ⟨_, e1, ?_⟩
    rw [p2_zero]
    exact_mod_cast e2
  have hA := lin_val hO hR hF (hn 0 (by norm_num)).1 (hn 1 (by norm_num)).1 (hn 0 (by norm_num)).2
    (hn 1 (by norm_num)).2 s1 hx
  have hB := lin_val hO hR hF (hn 2 (by norm_num)).1 (hn 3 (by norm_num)).1 (hn 2 (by norm_num)).2
    (hn 3 (by norm_num)).2 s2 hy
  have e0 := bc 0 (by norm_num)
  have e1 := bc 1 (by norm_num)
  have e2 := bc 2 (by norm_num)
  have e3 := bc 3 (by norm_num)
  -- elements
  have hd : ∀ {a b c d : T}, Bd vT k a → Bd vT k b → Bd vT k c → Bd vT k d →
      Bd vT (2 * k + 1) (O.subT (R.mulT a b) (R.mulT c d)) := fun ha hb hc hd =>
    (bdR_det hO hR hF (by omega) (by omega) ha hb hc hd).mono (by omega)
  have d1 := hd b2 c0 b2 c1
  have d2 := hd b1 c2 b0 c2
  have d3 := hd b0 c1 b1 c0
  have hm : Bd vT 1 (R.negT (O.subT (R.mulT (R.coef i 1) (R.coef i 2))
      (R.mulT (R.coef i 0) (R.coef i 3)))) :=
    bdR_neg hR ((bdR_det hO hR hF (k := 0) (l := 0) (by omega) (by omega) e1 e2 e0 e3).mono (by omega))
  have hmm : ∀ {z : T}, Bd vT (2 * k + 1) z → Bd vD (2 * k + 2) (O.toD (R.mulT (R.negT (O.subT
      (R.mulT (R.coef i 1) (R.coef i 2)) (R.mulT (R.coef i 0) (R.coef i 3)))) z)) := fun hz =>
    bd_toD hO ((bdR_mul hR hF (by omega) (by omega) hm hz).mono (by omega))
  have bA : Bd vT (k + 1) (O.subT (R.mulT (R.negT (R.coef i 0)) u2) (R.mulT (R.coef i 1) u2)) :=
    (bdR_det hO hR hF (k := 0) (by omega) (by omega) (bdR_neg hR e0) b2 e1 b2).mono (by omega)
  have bB : Bd vT (k + 1) (O.subT (R.mulT (R.negT (R.coef i 2)) v2) (R.mulT (R.coef i 3) v2)) :=
    (bdR_det hO hR hF (k := 0) (by omega) (by omega) (bdR_neg hR e2) c2 e3 c2).mono (by omega)
  have m0 : ∀ {c z : T}, Bd vT 0 c → Bd vT k z → Bd vT k (R.mulT c z) := fun hc hz =>
    (bdR_mul hR hF (by omega) (by omega) hc hz).mono (by omega)
  have bK : Bd vT (k + 3) (O.addT (O.addT (O.addT (R.mulT (R.coef i 0) u0) (R.mulT (R.coef i 1) u1))
      (R.mulT (R.coef i 2) v0)) (R.mulT (R.coef i 3) v1)) :=
    (bd_add hO hF (k := k + 1 + 1) (by omega) (by omega) (bd_add hO hF (by omega) (by omega)
      (bd_add hO hF (by omega) (by omega) (m0 e0 b0) (m0 e1 b1)) ((m0 e2 c0).mono (by omega)))
      ((m0 e3 c1).mono (by omega))).mono (by omega)
  have kp1 := (hR.keep (2 * k + 1) _ _ _ (by omega) (by omega) d1 d2 d3).1
  have kp2 := (hR.keep (k + 3) _ _ _ (by omega) (by omega) (bA.mono (by omega)) (bB.mono (by omega))
    bK).1
  have hD := hmm d1
  have hE := hmm d2
  have hFF := hmm d3
  have bAd := bd_toD hO bA
  have bBd := bd_toD hO bB
  have bKd := bd_toD hO bK
  have hAd : vD (O.toD (O.subT (R.mulT (R.negT (R.coef i 0)) u2) (R.mulT (R.coef i 1) u2))) =
      .fin (-(n 0 + n 1) * x) := by rw [hO.toD]; exact hA
  have hBd : vD (O.toD (O.subT (R.mulT (R.negT (R.coef i 2)) v2) (R.mulT (R.coef i 3) v2))) =
      .fin (-(n 2 + n 3) * y) := by rw [hO.toD]; exact hB
  have hone : vD (O.ofInt 1) ≠ .nan := by rw [hO.one]; simp
  have hzero : vD (O.ofInt 0) ≠ .nan := by rw [hO.zero]; simp
  have two : Bd vD 1 (O.ofInt 2) := bdD_int hO (by norm_num) (by rw [p2_one]; norm_num)
  have vv2 : vD (O.ofInt 2) = .fin 2 := by
    have := hO.ofInt_small (n := 2) (by norm_num); simpa using this
  have vv4 : vD (O.ofInt 4) = .fin 4 := by
    have := hO.ofInt_small (n := 4) (by norm_num); simpa using this
  have four : Bd vD 2 (O.ofInt 4) := bdD_int hO (by norm_num) (by
    rw [show (2 : Int) = 1 + 1 from rfl, p2_succ, p2_one]; norm_num)
  unfold keepTypeT
  simp only
  split
  · exact minf_not_nan hone kp1
  generalize O.toD (R.mulT (R.negT (O.subT (R.mulT (R.coef i 1) (R.coef i 2))
    (R.mulT (R.coef i 0) (R.coef i 3)))) (O.subT (R.mulT u2 v0) (R.mulT u2 v1))) = D0 at *
  generalize O.toD (R.mulT (R.negT (O.subT (R.mulT (R.coef i 1) (R.coef i 2))
    (R.mulT (R.coef i 0) (R.coef i 3)))) (O.subT (R.mulT u1 v2) (R.mulT u0 v2))) = E0 at *
  generalize O.toD (R.mulT (R.negT (O.subT (R.mulT (R.coef i 1) (R.coef i 2))
    (R.mulT (R.coef i 0) (R.coef i 3)))) (O.subT (R.mulT u0 v1) (R.mulT u1 v0))) = F0 at *
  generalize hkt : O.addT (O.addT (O.addT (R.mulT (R.coef i 0) u0) (R.mulT (R.coef i 1) u1))
      (R.mulT (R.coef i 2) v0)) (R.mulT (R.coef i 3) v1) = Kt at *
  generalize O.subT (R.mulT (R.negT (R.coef i 0)) u2) (R.mulT (R.coef i 1) u2) = At at *
  generalize O.subT (R.mulT (R.negT (R.coef i 2)) v2) (R.mulT (R.coef i 3) v2) = Bt at *
  have bC : Bd vD (k + 4) (O.add (O.toD Kt) (O.add (O.toD At) (O.toD Bt))) :=
    (bdD_add hO (k := k + 3) (by omega) (by omega) bKd ((bdD_add hO (by omega) (by omega) bAd
      bBd).mono (by omega))).mono (by omega)
  have bF : Bd vD (2 * k + 4) (O.add F0 (O.add D0 E0)) :=
    (bdD_add hO (k := 2 * k + 3) (by omega) (by omega) (hFF.mono (by omega))
      ((bdD_add hO (by omega) (by omega) hD hE).mono (by omega))).mono (by omega)
  generalize O.add (O.toD Kt) (O.add (O.toD At) (O.toD Bt)) = C0 at *
  generalize O.add F0 (O.add D0 E0) = F1 at *
  have bdel : Bd vD (2 * k + 9) (O.sub (O.mul C0 C0) (O.mul (O.ofInt 4) F1)) :=
    (bdD_sub hO (k := 2 * k + 8) (by omega) (by omega)
      ((bdD_mul hO (by omega) (by omega) bC bC).mono (by omega))
      ((bdD_mul hO (by omega) (by omega) four bF).mono (by omega))).mono (by omega)
  generalize O.sub (O.mul C0 C0) (O.mul (O.ofInt 4) F1) = del at *
  have term : ∀ {X Y : D}, Bd vD (k + 1) X → Bd vD (2 * k + 2) Y →
      Bd vD (2 * k + 7) (O.abs (O.sub (O.mul (O.mul (O.ofInt 2) X) C0) (O.mul (O.ofInt 4) Y))) := by
    intro X Y hX hY
    refine bdD_abs hO ((bdD_sub hO (k := 2 * k + 6) (by omega) (by omega) ?_ ?_).mono (by omega))
    · exact (bdD_mul hO (by omega) (by omega) (bdD_mul hO (by omega) (by omega) two hX) bC).mono
        (by omega)
    · exact (bdD_mul hO (by omega) (by omega) four hY).mono (by omega)
  have bb : Bd vD (2 * k + 8) (O.add
      (O.abs (O.sub (O.mul (O.mul (O.ofInt 2) (O.toD At)) C0) (O.mul (O.ofInt 4) D0)))
      (O.abs (O.sub (O.mul (O.mul (O.ofInt 2) (O.toD Bt)) C0) (O.mul (O.ofInt 4) E0)))) :=
    (bdD_add hO (by omega) (by omega) (term bAd hD) (term bBd hE)).mono (by omega)
  generalize O.add
      (O.abs (O.sub (O.mul (O.mul (O.ofInt 2) (O.toD At)) C0) (O.mul (O.ofInt 4) D0)))
      (O.abs (O.sub (O.mul (O.mul (O.ofInt 2) (O.toD Bt)) C0) (O.mul (O.ofInt 4) E0))) = b at *
  obtain ⟨dv, dv1, dv2⟩ := id bdel
  obtain ⟨bv, bv1, bv2⟩ := id bb
  by_cases hdel : eq0G O.toDOps del = true
  · rw [if_pos hdel]; exact hzero
  rw [if_neg hdel]
  by_cases hdp : O.lt (O.ofInt 0) del = true
  · rw [if_pos hdp]
    split
    · exact hone
    · rename_i hb0
      rw [hO.eq0_fin bv1] at hb0
      have hbv : bv ≠ 0 := by simpa using hb0
      refine minf_not_nan kp2 ?_
      rw [hO.div _ _ (by rw [bv1]; simpa using hbv), dv1, bv1]
      simp only [Fp.div, hbv, if_false]
      exact round_not_nan _
  rw [if_neg hdp]
  have hdneg : dv ≤ 0 := by
    rw [hO.lt, hO.zero, dv1] at hdp
    simpa [Fp.lt] using hdp
  refine minf_not_nan kp2 ?_
  -- the divisor
  have bs : Bd vD (k + 2) (O.add (O.abs (O.toD At)) (O.abs (O.toD Bt))) :=
    (bdD_add hO (by omega) (by omega) (bdD_abs hO bAd) (bdD_abs hO bBd)).mono (by omega)
  obtain ⟨sv, sv1, sv2⟩ := id bs
  have hsl : p2 (-l) ≤ sv := by
    have e : vD (O.add (O.abs (O.toD At)) (O.abs (O.toD Bt))) =
        round binary64 (|-(n 0 + n 1) * x| + |-(n 2 + n 3) * y|) := by
      rw [hO.add, hO.abs, hO.abs, hAd, hBd, abs_fin, abs_fin]; rfl
    rw [e] at sv1
    by_cases hlk : -1074 ≤ -l ∧ -l ≤ 1023
    · refine round_ge ok64 (rep_p2 (F := binary64) hlk.1 hlk.2) (p2_pos _).le ?_ sv1
      have a1 := abs_nonneg (-((n 0 : ℚ) + n 1) * x)
      have a2 := abs_nonneg (-((n 2 : ℚ) + n 3) * y)
      by_cases hz : n 0 + n 1 = 0
      · have hz' : |n 2 + n 3| = 1 := by
          have h3 : n 2 + n 3 ≠ 0 := fun h => s3 ⟨hz, h⟩
          have := Int.one_le_abs h3
          omega
        have : |-((n 2 : ℚ) + n 3) * y| = |y| := by
          rw [abs_mul, abs_neg]
          have : |(n 2 : ℚ) + n 3| = 1 := by exact_mod_cast hz'
          rw [this, one_mul]
        linarith
      · have hz' : |n 0 + n 1| = 1 := by
          have := Int.one_le_abs hz
          omega
        have : |-((n 0 : ℚ) + n 1) * x| = |x| := by
          rw [abs_mul, abs_neg]
          have : |(n 0 : ℚ) + n 1| = 1 := by exact_mod_cast hz'
          rw [this, one_mul]
        linarith
    · exfalso
      obtain ⟨x', x1', x2'⟩ := b2
      rw [hx] at x1'
      cases x1'
      have h5 : p2 (-l) ≤ p2 k := hxl.trans x2'
      have : p2 k < p2 (-l) := p2_lt (by omega)
      linarith
  generalize O.add (O.abs (O.toD At)) (O.abs (O.toD Bt)) = s at *
  have hsp := (p2_pos (-l)).trans_le hsl
  have ba : Bd vD (2 * k + 4) (O.mul s s) :=
    (bdD_mul hO (by omega) (by omega) bs bs).mono (by omega)
  obtain ⟨av, av1, av2⟩ := id ba
  have hal : p2 (-l + -l) ≤ av := by
    have e : round binary64 (sv * sv) = .fin av := by
      rw [← av1, hO.mul, sv1]; rfl
    refine round_ge ok64 (rep_p2 (F := binary64) ?_ ?_) (p2_pos _).le ?_ e
    · have : binary64.umin = -1074 := by decide
      omega
    · have : binary64.emax = 1023 := by decide
      by_contra hc
      have h6 : p2 (k + 2) < p2 (-l) := p2_lt (by omega)
      have h7 := le_abs_self sv
      linarith
    · rw [p2_add]
      exact mul_le_mul hsl hsl (p2_pos _).le hsp.le
  have hap := (p2_pos (-l + -l)).trans_le hal
  generalize O.mul s s = a at *
  obtain ⟨tv, tv1, tv2⟩ := bdD_mul hO (k := 1) (by omega) (by omega) two ba
  have htv : tv ≠ 0 := by
    intro hc
    rw [hO.mul, vv2, av1] at tv1
    simp only [Fp.mul] at tv1
    have := round_ge ok64 (b := av) (hO.repD _ _ av1) hap.le (by linarith) tv1
    linarith
  -- the radicand
  have hb2 := bdD_mul hO (by omega) (by omega) bb bb
  have h4a := bdD_mul hO (by omega) (by omega) four ba
  have h4ac := bdD_mul hO (by omega) (by omega) h4a bdel
  obtain ⟨p, p1, -⟩ := id hb2
  obtain ⟨g, g1, -⟩ := id h4a
  obtain ⟨q, q1, -⟩ := id h4ac
  have hp0 : 0 ≤ p := by
    have e : round binary64 (bv * bv) = .fin p := by rw [← p1, hO.mul, bv1]; rfl
    exact (round_fin e).2.2.1 (mul_self_nonneg bv)
  have hg0 : 0 ≤ g := by
    have e : round binary64 (4 * av) = .fin g := by rw [← g1, hO.mul, vv4, av1]; rfl
    exact (round_fin e).2.2.1 (by linarith)
  have hq0 : q ≤ 0 := by
    have e : round binary64 (g * dv) = .fin q := by rw [← q1, hO.mul, g1, dv1]; rfl
    exact (round_fin e).2.2.2 (mul_nonpos_of_nonneg_of_nonpos hg0 hdneg)
  have hrad : Bd vD (4 * k + 17) (O.sub (O.mul b b) (O.mul (O.mul (O.ofInt 4) a) del)) :=
    (bdD_sub hO (k := 4 * k + 16) (by omega) (by omega) (hb2.mono (by omega))
      (h4ac.mono (by omega))).mono (by omega)
  obtain ⟨w, w1, -⟩ := hrad
  have hw0 : 0 ≤ w := by
    have e : round binary64 (p - q) = .fin w := by rw [← w1, hO.sub, p1, q1, sub_fin]
    exact (round_fin e).2.2.1 (by linarith)
  have hsq := hR.sqrt _ _ w1 hw0
  generalize R.sqrt (O.sub (O.mul b b) (O.mul (O.mul (O.ofInt 4) a) del)) = rt at hsq ⊢
  have hnum : vD (O.add (O.neg b) rt) ≠ .nan := by
    rw [hO.add, hO.neg, bv1]
    cases hr : vD rt with
    | nan => exact absurd hr hsq
    | inf s => simp [Fp.neg, Fp.add]
    | fin z => simp only [Fp.neg, Fp.add]; exact round_not_nan _
  rw [hO.div _ _ (by rw [tv1]; simpa using htv), tv1]
  cases hr : vD (O.add (O.neg b) rt) with
  | nan => exact absurd hr hnum
  | inf s => simp [Fp.div]
  | fin z => simp only [Fp.div, htv, if_false]; exact round_not_nan _

/-- The derived bound is NaN or at most 2; it is not NaN if the vertex has no component that is 0
or so small that its square underflows. -/
theorem deriveRel_le {k l : Int} (h0 : 0 < k) (h1 : 2 * k + 4 ≤ F.emax)
    (h2 : 4 * k + 17 ≤ 1023) (hl : l ≤ 500) {i : Nat} (hi : i < 6)
    {u0 u1 u2 v0 v1 v2 : T} (b0 : Bd vT k u0) (b1 : Bd vT k u1) (b2 : Bd vT k u2)
    (c0 : Bd vT k v0) (c1 : Bd vT k v1) (c2 : Bd vT k v2) :
    (vD (deriveRelT O R i u0 u1 u2 v0 v1 v2) = .nan ∨
      LeV 2 (vD (deriveRelT O R i u0 u1 u2 v0 v1 v2))) ∧
    ((∃ x y, vT u2 = .fin x ∧ vT v2 = .fin y ∧ p2 (-l) ≤ |x| ∧ p2 (-l) ≤ |y|) →
      vD (deriveRelT O R i u0 u1 u2 v0 v1 v2) ≠ .nan) := by
  have hum := (emin_le hF).2.1
  have z2 : LeV 2 (vD (O.ofInt 0)) := Or.inr ⟨0, hO.zero, by norm_num⟩
  have lnn : ∀ {v : Fp ℚ}, LeV 2 v → v ≠ .nan := by
    rintro v (h | ⟨x, h, -⟩) <;> rw [h] <;> simp
  have hmul : ∀ {a b : T}, Bd vT k a → Bd vT k b → Bd vT (2 * k + 1) (R.mulT a b) := fun ha hb =>
    (bdR_mul hR hF (by omega) (by omega) ha hb).mono (by omega)
  have hd : ∀ {a b c d : T}, Bd vT k a → Bd vT k b → Bd vT k c → Bd vT k d →
      Bd vT (2 * k + 1) (O.subT (R.mulT a b) (R.mulT c d)) := fun ha hb hc hd =>
    (bdR_det hO hR hF (by omega) (by omega) ha hb hc hd).mono (by omega)
  have hz : Bd vT (2 * k + 1) O.zeroT := ⟨0, hO.zeroT, by rw [abs_zero]; exact (p2_pos _).le⟩
  have kp3 : ∀ {A B C : T}, Bd vT (2 * k + 1) A → Bd vT (2 * k + 1) B → Bd vT (2 * k + 1) C →
      vD (R.keep A B C) ≠ .nan := fun hA hB hC =>
    (hR.keep (2 * k + 1) _ _ _ (by omega) (by omega) hA hB hC).1
  have kp2 : ∀ {A B : T}, Bd vT (2 * k + 1) A → Bd vT (2 * k + 1) B →
      LeV 2 (vD (R.keep A B O.zeroT)) := fun hA hB =>
    (hR.keep (2 * k + 1) _ _ _ (by omega) (by omega) hA hB hz).2 hO.zeroT
  have hn := fun {k : Int} {x : T} (h : Bd vT k x) => bdR_neg hR h
  have kt := fun (h : ∃ x y, vT u2 = .fin x ∧ vT v2 = .fin y ∧ p2 (-l) ≤ |x| ∧ p2 (-l) ≤ |y|) =>
    keepType_not_nan hO hR hF h0 h1 h2 hl hi b0 b1 b2 c0 c1 c2 h.choose_spec.choose_spec.1
      h.choose_spec.choose_spec.2.1 h.choose_spec.choose_spec.2.2.1
      h.choose_spec.choose_spec.2.2.2
  have pos : LeV 2 (vD (minfG O.toDOps (R.keep (R.negT (R.mulT u2 v1)) (R.mulT u1 v2) O.zeroT)
      (R.keep (R.mulT u2 v0) (R.negT (R.mulT u0 v2)) O.zeroT))) :=
    minf_le hO (kp2 (hn (hmul b2 c1)) (hmul b1 c2)) (lnn (kp2 (hmul b2 c0) (hn (hmul b0 c2))))
  have k1 : LeV 2 (vD (minfG O.toDOps (R.keep (R.mulT u2 v0) (R.mulT (R.negT u0) v2) O.zeroT)
      (R.keep (R.mulT (R.negT u2) v1) (R.mulT u1 v2) (O.subT (R.mulT u0 v1) (R.mulT u1 v0))))) :=
    minf_le hO (kp2 (hmul b2 c0) (hmul (hn b0) c2))
      (kp3 (hmul (hn b2) c1) (hmul b1 c2) (hd b0 c1 b1 c0))
  have k2 : LeV 2 (vD (minfG O.toDOps (R.keep (R.mulT (R.negT u2) v1) (R.mulT u1 v2) O.zeroT)
      (R.keep (R.mulT u2 v0) (R.mulT (R.negT u0) v2) (O.subT (R.mulT u0 v1) (R.mulT u1 v0))))) :=
    minf_le hO (kp2 (hmul (hn b2) c1) (hmul b1 c2))
      (kp3 (hmul b2 c0) (hmul (hn b0) c2) (hd b0 c1 b1 c0))
  have k3 : LeV 2 (vD (R.keep (O.subT (R.mulT u2 v0) (R.mulT u2 v1))
      (O.subT (R.mulT u1 v2) (R.mulT u0 v2)) O.zeroT)) := kp2 (hd b2 c0 b2 c1) (hd b1 c2 b0 c2)
  have st : ∀ (f : Bool) {x y : D}, LeV 2 (vD x) → LeV 2 (vD y) →
      LeV 2 (vD (if f = true then x else maxfG O.toDOps x y)) := by
    intro f x y hx hy
    split
    · exact hx
    · rcases maxf_or O.toDOps x y with h | h <;> rw [h] <;> assumption
  unfold deriveRelT
  simp only
  generalize keepTypeT O R u0 u1 u2 v0 v1 v2 (R.coef i 0) (R.coef i 1) (R.coef i 2)
    (R.coef i 3) = ty at kt ⊢
  split
  · exact ⟨Or.inr z2, fun _ => lnn z2⟩
  split
  · by_cases hty : vD ty = .nan
    · refine ⟨Or.inl ?_, fun h => absurd hty (kt h)⟩
      rw [minfG, if_neg]
      · exact hty
      · rw [hO.lt, hty]; simp [Fp.lt]
    · have := minf_le hO pos hty
      exact ⟨Or.inr this, fun _ => lnn this⟩
  · refine (fun this => ⟨Or.inr this, fun _ => lnn this⟩) (st _ (st _ (st _ z2 k1) k2) k3)

end bounded

/-! ### The bound of a vertex -/

theorem requiredLoop_inv {r1 r2 : Nat} {mn : D → D → D}
    {derive : Nat → T → T → T → T → T → T → D} {f : Online2D.Field T} {Q : T → Prop} {p : Nat}
    {I : D → Prop} {ks : List Nat}
    (hd : ∀ k u0 u1 v0 v1 req, k ∈ ks → Q u0 → Q u1 → Q v0 → Q v1 → I req →
      I (mn req (derive k u0 u1 (f.u p) v0 v1 (f.v p))))
    (hf : ∀ q, q < r1 * r2 → Q (f.u q) ∧ Q (f.v q))
    {req r : D} (hr : I req)
    (h : Mesh2D.requiredLoop r1 r2 mn derive f p ks req = some r) : I r := by
  have rd_Q : ∀ {g : Nat → T} {i : Int} {x : T}, (∀ q, q < r1 * r2 → Q (g q)) →
      Mesh2D.rd (r1 * r2) g i = some x → Q x := by
    intro g i x hg hx
    unfold Mesh2D.rd at hx
    split at hx
    · rename_i h1
      simp only [Option.some.injEq] at hx
      rw [← hx]
      exact hg _ (by omega)
    · cases hx
  induction ks generalizing req with
  | nil => simp only [Mesh2D.requiredLoop, Option.some.injEq] at h; rw [← h]; exact hr
  | cons k ks ih =>
    have ih' := fun {req : D} => ih (req := req) (fun k' u0 u1 v0 v1 req hk =>
      hd k' u0 u1 v0 v1 req (List.mem_cons_of_mem _ hk))
    unfold Mesh2D.requiredLoop at h
    split at h
    · split at h
      · rename_i u0 u1 v0 v1 e0 e1 e2 e3
        have hu := fun q hq => (hf q hq).1
        have hv := fun q hq => (hf q hq).2
        exact ih' (hd _ _ _ _ _ _ List.mem_cons_self (rd_Q hu e0) (rd_Q hu e1) (rd_Q hv e2)
          (rd_Q hv e3) hr) h
      · cases h
    · exact ih' hr h

theorem LeV.mono {e e' : ℚ} (h : e ≤ e') {v : Fp ℚ} (hv : LeV e v) : LeV e' v := by
  rcases hv with hv | ⟨x, hv, hx⟩
  · exact Or.inl hv
  · exact Or.inr ⟨x, hv, hx.trans h⟩

section
include hO

/-- The bound of a vertex: at most 2 in any case, at most the bound of the user if the vertex has
no component that is 0 or so small that its square underflows. -/
theorem boundRelT_le (hR : IsIeeeR O R F vT vD) (hF : F.Ok) {k l : Int} (h0 : 0 < k)
    (h1 : 2 * k + 4 ≤ F.emax) (h2 : 4 * k + 17 ≤ 1023) (hl : l ≤ 500) {r1 r2 : Nat} {maxEb : D}
    {e : ℚ} (hm : vD maxEb = .fin e) (he : e ≤ 2) {f : Online2D.Field T}
    (hf : ∀ q, q < r1 * r2 → Bd vT k (f.u q) ∧ Bd vT k (f.v q)) {p : Nat} (hpn : p < r1 * r2)
    {req : D} (h : boundRelT O R r1 r2 maxEb f p = some req)
    (hpos : O.lt (O.ofInt 0) req = true) :
    ∃ x, vD req = .fin x ∧ 0 < x ∧ x ≤ 2 ∧
      ((∃ x y, vT (f.u p) = .fin x ∧ vT (f.v p) = .fin y ∧ p2 (-l) ≤ |x| ∧ p2 (-l) ≤ |y|) →
        x ≤ e) := by
  unfold boundRelT Mesh2D.requiredEb at h
  rw [hO.lt, hO.zero] at hpos
  obtain ⟨bu, bv⟩ := hf p hpn
  have hi : ∀ {i : Nat}, i ∈ [0, 1, 2, 3, 4, 5] → i < 6 := by
    intro i hi; simp at hi; omega
  have g1 : vD req = .nan ∨ LeV 2 (vD req) := by
    refine requiredLoop_inv (I := fun r => vD r = .nan ∨ LeV 2 (vD r)) (Q := Bd vT k)
      (fun i u0 u1 v0 v1 r hi' b0 b1 c0 c1 hr => ?_) hf
      (Or.inr (Or.inr ⟨e, hm, he⟩)) h
    obtain ⟨d1, -⟩ := deriveRel_le hO hR hF h0 h1 h2 hl (hi hi') b0 b1 bu c0 c1 bv
    rcases minf_or O.toDOps r (deriveRelT O R i u0 u1 (f.u p) v0 v1 (f.v p)) with e | e <;> rw [e]
    · exact hr
    · exact d1
  have hfin : ∃ x, vD req = .fin x ∧ 0 < x ∧ x ≤ 2 := by
    rcases g1 with g1 | g1 | ⟨x, g1, g2⟩ <;> rw [g1] at hpos
    · simp [Fp.lt] at hpos
    · simp [Fp.lt] at hpos
    · exact ⟨x, g1, by simpa [Fp.lt] using hpos, g2⟩
  obtain ⟨x, x1, x2, x3⟩ := hfin
  refine ⟨x, x1, x2, x3, fun hnz => ?_⟩
  have g2 : LeV e (vD req) := by
    refine requiredLoop_inv (I := fun r => LeV e (vD r)) (Q := Bd vT k)
      (fun i u0 u1 v0 v1 r hi' b0 b1 c0 c1 hr => ?_) hf (Or.inr ⟨e, hm, le_refl e⟩) h
    exact minf_le hO hr ((deriveRel_le hO hR hF h0 h1 h2 hl (hi hi') b0 b1 bu c0 c1 bv).2 hnz)
  rcases g2 with g2 | ⟨y, g2, g3⟩
  · rw [x1] at g2; cases g2
  · rw [x1] at g2; cases g2; exact g3

/-- The relative mode: data of at most `2^r`, the bound of the user at most 1.  A vertex with a
component too small for the bound to be computed is stored verbatim. -/
theorem rel2_full (hR : IsIeeeR O R F vT vD) (hF : F.Ok)
    (hemin : F.emin ≤ -52) (he0 : 0 ≤ eps) (he1 : eps ≤ p2 (-30)) {P : Par D}
    (hbase : P.base = 4) (hcap : P.capacity = 65536) (hrad : P.radius = 32768)
    (hlb : vD P.logBase = .fin 2) (hthr : vD P.thr = .fin (p2 (-52)))
    {r : Int} (h0 : 0 ≤ r) (h1 : 4 * r + 29 ≤ 1023) (h2 : 2 * r + 10 ≤ F.emax)
    {r1 r2 : Nat} {maxEb : D}
    {e : ℚ} (hm : vD maxEb = .fin e) (hep : 0 ≤ e) (her : e ≤ 1) {m m' : Online2D.Field T}
    {s : Streams T} {val : T → ℚ} (hval : ∀ c x, vT c = .fin x → val c = x)
    (hf : ∀ q, q < r1 * r2 → Bd vT r (m.u q) ∧ Bd vT r (m.v q))
    (h : compress O P r1 r2 (relEbT O) (boundRelT O R r1 r2 maxEb) m = some (m', s)) :
    (∀ q, q < r1 * r2 →
      Cl vT (slack F eps * ((1 + p2 (-53)) * (e * |val (m.u q)|))) (m'.u q) (m.u q) ∧
      Cl vT (slack F eps * ((1 + p2 (-53)) * (e * |val (m.v q)|))) (m'.v q) (m.v q)) ∧
    (∀ x ∈ s.eb, 0 ≤ x ∧ 2 * x ≤ r + 55) ∧ (∀ x ∈ s.dq, 0 ≤ x ∧ x ≤ 65536) ∧
    ∀ q, q < r1 * r2 → (1 + p2 (-53)) * (e * |val (m.u q)|) ≤ 0 ∨
      (1 + p2 (-53)) * (e * |val (m.v q)|) ≤ 0 → m'.u q = m.u q ∧ m'.v q = m.v q := by
  have hs2 := slack_le F he1
  have he2 : eps ≤ 1 := he1.trans (by rw [← p2_zero]; exact p2_le (by norm_num))
  have hu53 : p2 (-53) ≤ 1 := by rw [← p2_zero]; exact p2_le (by norm_num)
  have hu0 := p2_pos (-53)
  have e55 : r + 55 = (r + 1) + 54 := by omega
  rw [e55]
  refine run2_full (B := fun c => (1 + p2 (-53)) * (e * |val c|)) (R := r + 1) hO hF hemin he0 he2 hbase
    hcap hrad hlb hthr (by omega) (by omega)
    (fun q hq => ⟨⟨_, (hf q hq).1.choose_spec.1⟩, ⟨_, (hf q hq).2.choose_spec.1⟩⟩) ?_ h
  intro f p req hpn hfu hfv hcl hb hpos
  have wide : ∀ {x c : T}, Bd vT r c →
      Cl vT (slack F eps * ((1 + p2 (-53)) * (e * |val c|))) x c → Bd vT (r + 1 + 1 + 1) x := by
    intro x c hc hx
    rcases hx with rfl | ⟨X, C, x1, x2, x3⟩
    · exact hc.mono (by omega)
    · obtain ⟨y, y1, y2⟩ := hc
      rw [x2] at y1
      cases y1
      refine ⟨X, x1, ?_⟩
      rw [hval c C x2] at x3
      have h3 := abs_sub_abs_le_abs_sub X C
      have h5 := p2_pos r
      have h6 : e * |C| ≤ p2 r := by
        have := mul_le_mul her y2 (abs_nonneg _) zero_le_one
        linarith
      have h7 : (1 + p2 (-53)) * (e * |C|) ≤ 2 * p2 r :=
        mul_le_mul (by linarith) h6 (mul_nonneg hep (abs_nonneg _)) (by norm_num)
      have h8 : slack F eps * ((1 + p2 (-53)) * (e * |C|)) ≤ 2 * (2 * p2 r) :=
        mul_le_mul hs2 h7 (mul_nonneg (by linarith) (mul_nonneg hep (abs_nonneg _))) (by norm_num)
      rw [p2_succ, p2_succ, p2_succ]
      linarith
  obtain ⟨x, x1, x2, x3, x4⟩ := boundRelT_le hO hR hF (k := r + 1 + 1 + 1) (l := 400)
    (by omega) (by omega) (by omega) (by norm_num) hm (by linarith)
    (fun q hq => ⟨wide (hf q hq).1 (hcl q hq).1, wide (hf q hq).2 (hcl q hq).2⟩) hpn hb hpos
  have hprod : ∀ {c : T} {C : ℚ}, vT c = .fin C → vD (relEbT O req c) = round binary64 (|C| * x) := by
    intro c C hc
    unfold relEbT
    rw [hO.mul, hO.abs, hO.toD, hc, x1, abs_fin]; rfl
  obtain ⟨⟨cu, cu1, cu2⟩, ⟨cv, cv1, cv2⟩⟩ := hf p hpn
  -- a component that is small
  have tiny : ∀ {c : T} {C : ℚ}, vT c = .fin C → |C| < p2 (-400) →
      ∃ A, vD (relEbT O req c) = .fin A ∧ A ≤ p2 (-52) := by
    intro c C hc hC
    obtain ⟨A, A1, A2⟩ := round_bounded ok64 (rep_p2 (F := binary64) (k := -52) (by decide)
      (by decide)) (x := |C| * x) (by
        rw [abs_of_nonneg (mul_nonneg (abs_nonneg C) x2.le)]
        have h3 := mul_le_mul hC.le x3 x2.le (p2_pos _).le
        have h4 : p2 (-400 + 1) ≤ p2 (-52) := p2_le (by norm_num)
        rw [p2_succ] at h4
        linarith)
    exact ⟨A, by rw [hprod hc, A1], (le_abs_self A).trans A2⟩
  by_cases hzu : |cu| < p2 (-400)
  · obtain ⟨A, A1, A2⟩ := tiny cu1 hzu
    exact Or.inl ⟨m.u p, A, Or.inl rfl, A1, A2⟩
  by_cases hzv : |cv| < p2 (-400)
  · obtain ⟨A, A1, A2⟩ := tiny cv1 hzv
    exact Or.inl ⟨m.v p, A, Or.inr rfl, A1, A2⟩
  have hxe := x4 ⟨cu, cv, by rw [hfu]; exact cu1, by rw [hfv]; exact cv1, not_lt.1 hzu, not_lt.1 hzv⟩
  right
  intro c hc
  have hbd : ∃ C, vT c = .fin C ∧ |C| ≤ p2 r := by
    rcases hc with rfl | rfl
    · exact ⟨cu, cu1, cu2⟩
    · exact ⟨cv, cv1, cv2⟩
  obtain ⟨C, C1, C2⟩ := hbd
  have hCx : 0 ≤ |C| * x := mul_nonneg (abs_nonneg C) x2.le
  obtain ⟨A, A1, A2⟩ := round_bounded ok64 (rep_p2 (F := binary64) (k := r + 1) (by
      have : binary64.umin = -1074 := by decide
      omega) (by
      have : binary64.emax = 1023 := by decide
      omega)) (x := |C| * x) (by
        rw [abs_of_nonneg hCx, p2_succ]
        have := mul_le_mul C2 x3 x2.le (p2_pos r).le
        linarith)
  refine ⟨A, by rw [hprod C1, A1], fun hlt => ?_, (le_abs_self A).trans A2⟩
  have hnorm : p2 binary64.emin ≤ |C| * x := by
    by_contra hc'
    have := round_le ok64 (b := p2 binary64.emin) (rep_p2 (by decide) (by decide)) (p2_pos _).le
      (not_le.1 hc').le A1
    have h9 : p2 binary64.emin ≤ p2 (-52) := p2_le (by decide)
    linarith
  have hrel := rmag_rel hnorm
  have hA := (round_fin A1).1
  rw [abs_of_nonneg hCx, abs_of_nonneg ((round_fin A1).2.2.1 hCx)] at hA
  rw [← hA] at hrel
  have h9 := (abs_le.1 hrel).2
  have e53 : p2 (-(binary64.p : Int)) = p2 (-53) := rfl
  rw [e53] at h9
  rw [hval c C C1]
  have h10 : |C| * x ≤ e * |C| := by
    rw [mul_comm e]
    exact mul_le_mul_of_nonneg_left hxe (abs_nonneg C)
  have h11 := mul_le_mul_of_nonneg_left h10 (show 0 ≤ 1 + p2 (-53) by linarith)
  linarith

/-- The part without the unchanged vertices. -/
theorem rel2 (hR : IsIeeeR O R F vT vD) (hF : F.Ok)
    (hemin : F.emin ≤ -52) (he0 : 0 ≤ eps) (he1 : eps ≤ p2 (-30)) {P : Par D}
    (hbase : P.base = 4) (hcap : P.capacity = 65536) (hrad : P.radius = 32768)
    (hlb : vD P.logBase = .fin 2) (hthr : vD P.thr = .fin (p2 (-52)))
    {r : Int} (h0 : 0 ≤ r) (h1 : 4 * r + 29 ≤ 1023) (h2 : 2 * r + 10 ≤ F.emax)
    {r1 r2 : Nat} {maxEb : D}
    {e : ℚ} (hm : vD maxEb = .fin e) (hep : 0 ≤ e) (her : e ≤ 1) {m m' : Online2D.Field T}
    {s : Streams T} {val : T → ℚ} (hval : ∀ c x, vT c = .fin x → val c = x)
    (hf : ∀ q, q < r1 * r2 → Bd vT r (m.u q) ∧ Bd vT r (m.v q))
    (h : compress O P r1 r2 (relEbT O) (boundRelT O R r1 r2 maxEb) m = some (m', s)) :
    (∀ q, q < r1 * r2 →
      Cl vT (slack F eps * ((1 + p2 (-53)) * (e * |val (m.u q)|))) (m'.u q) (m.u q) ∧
      Cl vT (slack F eps * ((1 + p2 (-53)) * (e * |val (m.v q)|))) (m'.v q) (m.v q)) ∧
    (∀ x ∈ s.eb, 0 ≤ x ∧ 2 * x ≤ r + 55) ∧ ∀ x ∈ s.dq, 0 ≤ x ∧ x ≤ 65536 := by
  obtain ⟨a, b, c, -⟩ := rel2_full hO hR hF hemin he0 he1 hbase hcap hrad hlb hthr h0 h1 h2 hm hep her
    hval hf h
  exact ⟨a, b, c⟩

end
end formula
end CpSZ.Ieee
