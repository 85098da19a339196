import Verif.Ieee.Run
import Verif.RoundedRun
/-
The 3D online absolute mode (src/sz_compress_cp_preserve_3d.cpp L1156-1239, L1305-1475) in
IEEE-754 arithmetic: distance of the reconstruction from the data.
-/

namespace CpSZ.Ieee
open CpSZ.VMode CpSZ.ThreeD CpSZ.Mesh3D

section formula
variable {T D : Type}

/-- `max_eb_to_keep_sign_3d_online_abs` (src/sz_compress_cp_preserve_3d.cpp L1157-1163), called
with `double`s. -/
def keepAbs3D (N : DOps D) (A B C E : D) : D :=
  let s := N.add (N.add (N.abs A) (N.abs B)) (N.abs C)
  if eq0G N s then (if eq0G N E then N.ofInt 0 else N.ofInt 1000000000) else N.div (N.abs E) s

/-- `max_eb_to_keep_position_and_type_3d_online_abs`
(src/sz_compress_cp_preserve_3d.cpp L1167-1239) for elements of type `T`: the products of elements
are elements, the rest is computed
in `double`; `a`, `b`, `c`, `d` are the four vectors (components 0, 1, 2 are `u`, `v`, `w`). -/
def deriveAbs3T (O : Ops T D) (E : EOps T D) (a b c d : Nat → T) : D :=
  let N := O.toDOps
  let mm (x y z w : T) : D := O.toD (O.subT (E.mulT x y) (E.mulT z w))
  let mp (x y z w : T) : D := O.toD (O.addT (E.mulT (E.negT x) y) (E.mulT z w))
  let m3 (x y z : T) : T := E.mulT (E.mulT x y) z
  let u3_0 := mp (b 1) (c 2) (c 1) (b 2)
  let u3_1 := mp (c 1) (a 2) (a 1) (c 2)
  let u3_2 := mp (a 1) (b 2) (b 1) (a 2)
  let v3_0 := mm (b 0) (c 2) (c 0) (b 2)
  let v3_1 := mm (c 0) (a 2) (a 0) (c 2)
  let v3_2 := mm (a 0) (b 2) (b 0) (a 2)
  let w3_0 := mp (b 0) (c 1) (c 0) (b 1)
  let w3_1 := mm (a 0) (c 1) (c 0) (a 1)
  let w3_2 := mp (a 0) (b 1) (b 0) (a 1)
  let c_4 := O.toD (O.subT (O.addT (O.subT (O.addT (O.subT (m3 (a 0) (b 1) (c 2))
    (m3 (a 0) (c 1) (b 2))) (m3 (b 0) (c 1) (a 2))) (m3 (b 0) (a 1) (c 2)))
    (m3 (c 0) (a 1) (b 2))) (m3 (c 0) (b 1) (a 2)))
  let dot (x y z : D) : D := N.add (N.add (N.mul x (O.toD (d 0))) (N.mul y (O.toD (d 1))))
    (N.mul z (O.toD (d 2)))
  let M0 := dot u3_0 v3_0 w3_0
  let M1 := dot u3_1 v3_1 w3_1
  let M2 := dot u3_2 v3_2 w3_2
  let M3 := c_4
  let M := N.add (N.add (N.add M0 M1) M2) M3
  if eq0G N M then N.ofInt 0
  else
    let flag (m : D) : Bool := eq0G N m || N.lt (N.ofInt 1) (N.div M m)
    let f0 := flag M0
    let f1 := flag M1
    let f2 := flag M2
    let f3 := flag M3
    if f0 && f1 && f2 && f3 then N.ofInt 0
    else
      let eb := N.ofInt 0
      let eb := if f0 then eb else maxfG N eb (minfG N (keepAbs3D N u3_0 v3_0 w3_0 M0)
        (keepAbs3D N (N.add u3_1 u3_2) (N.add v3_1 v3_2) (N.add w3_1 w3_2)
          (N.add (N.add M1 M2) M3)))
      let eb := if f1 then eb else maxfG N eb (minfG N (keepAbs3D N u3_1 v3_1 w3_1 M1)
        (keepAbs3D N (N.add u3_0 u3_2) (N.add v3_0 v3_2) (N.add w3_0 w3_2)
          (N.add (N.add M0 M2) M3)))
      let eb := if f2 then eb else maxfG N eb (minfG N (keepAbs3D N u3_2 v3_2 w3_2 M2)
        (keepAbs3D N (N.add u3_0 u3_1) (N.add v3_0 v3_1) (N.add w3_0 w3_1)
          (N.add (N.add M0 M1) M3)))
      let eb := if f3 then eb else maxfG N eb
        (keepAbs3D N (N.add (N.add u3_0 u3_1) u3_2) (N.add (N.add v3_0 v3_1) v3_2)
          (N.add (N.add w3_0 w3_1) w3_2) (N.add (N.add M0 M1) M2))
      eb

/-- The plan of the absolute mode (src/sz_compress_cp_preserve_3d.cpp L1351-1385, L1440-1446) with
this formula. -/
def planAbs3T (O : Ops T D) (E : EOps T D) (r1 r2 r3 : Nat) (maxEb : D) (cp : Nat → Bool) :
    State T → Nat → Option (Plan D) :=
  planAbs3 O (fun x => eq0G O.toDOps (O.toD x)) (fun x => !eq0G O.toDOps x) r1 r2 r3 maxEb cp
    (deriveAbs3T O E)

variable {O : Ops T D} {F : Fmt} {vT : T → Fp ℚ} {vD : D → Fp ℚ} {eps : ℚ} {E : EOps T D}
variable (hO : IsIeee O F vT vD eps)

section
include hO

theorem add_fin_ne_nan {a b : D} (ha : ∃ x, vD a = .fin x) (hb : ∃ x, vD b = .fin x) :
    vD (O.add a b) ≠ .nan := by
  obtain ⟨x, hx⟩ := ha
  obtain ⟨y, hy⟩ := hb
  rw [hO.add, hx, hy]
  exact round_not_nan _

theorem add_fin_ne_nan' {a b : D} (ha : vD a ≠ .nan) (hb : ∃ x, vD b = .fin x) :
    vD (O.add a b) ≠ .nan := by
  obtain ⟨y, hy⟩ := hb
  rw [hO.add, hy]
  cases h : vD a with
  | nan => exact absurd h ha
  | inf s => simp [Fp.add]
  | fin x => exact round_not_nan _

/-- The sign bound is not NaN for a finite constant term. -/
theorem keepAbs3D_ne_nan {a b c e : D} (ha : vD a ≠ .nan) (hb : vD b ≠ .nan) (hc : vD c ≠ .nan)
    (he : ∃ x, vD e = .fin x) : vD (keepAbs3D O.toDOps a b c e) ≠ .nan := by
  have pos : ∀ {x : D}, vD x ≠ .nan → (∃ y, vD (O.abs x) = .fin y ∧ 0 ≤ y) ∨
      vD (O.abs x) = .inf false := by
    intro x hx
    rw [hO.abs]
    cases h : vD x with
    | nan => exact absurd h hx
    | inf s => exact Or.inr rfl
    | fin y => exact Or.inl ⟨|y|, abs_fin y, abs_nonneg y⟩
  have addp : ∀ {x y : D}, ((∃ z, vD x = .fin z ∧ 0 ≤ z) ∨ vD x = .inf false) →
      ((∃ z, vD y = .fin z ∧ 0 ≤ z) ∨ vD y = .inf false) →
      (∃ z, vD (O.add x y) = .fin z ∧ 0 ≤ z) ∨ vD (O.add x y) = .inf false := by
    intro x y hx hy
    rw [hO.add]
    rcases hx with ⟨z, hz, hz0⟩ | hx <;> rcases hy with ⟨w, hw, hw0⟩ | hy
    · rw [hz, hw]
      simp only [Fp.add]
      cases hr : round binary64 (z + w) with
      | nan => exact absurd hr (round_not_nan _)
      | inf s =>
        unfold round at hr
        split at hr
        · cases hr
        · right
          simp only [Fp.inf.injEq] at hr
          rw [← hr]
          simp only [Fp.inf.injEq, decide_eq_false_iff_not, not_lt]
          linarith
      | fin t =>
        refine Or.inl ⟨t, rfl, ?_⟩
        exact round_ge ok64 (b := 0) (by
          simpa using rep_int ok64 (n := 0) (by norm_num)) (le_refl 0) (by linarith) hr
    · rw [hz, hy]; exact Or.inr rfl
    · rw [hx, hw]; exact Or.inr rfl
    · rw [hx, hy]; right; simp [Fp.add]
  have hs := addp (addp (pos ha) (pos hb)) (pos hc)
  obtain ⟨x, hx⟩ := he
  unfold keepAbs3D
  simp only
  generalize O.add (O.add (O.abs a) (O.abs b)) (O.abs c) = s at hs ⊢
  by_cases h0 : eq0G O.toDOps s = true
  · rw [if_pos h0]
    split
    · rw [hO.zero]; simp
    · rw [hO.ofInt_small (by norm_num)]; simp
  · rw [if_neg h0]
    rcases hs with ⟨z, hz, -⟩ | hs
    · rw [hO.eq0_fin hz] at h0
      have hz0 : z ≠ 0 := by simpa using h0
      rw [hO.div _ _ (by rw [hz]; simpa using hz0), hz, hO.abs, hx, abs_fin]
      simp only [Fp.div, hz0, if_false]
      exact round_not_nan _
    · rw [hO.div _ _ (by rw [hs]; simp), hs, hO.abs, hx, abs_fin]
      simp [Fp.div]

theorem bdD_add {k : Int} (h1 : -1074 ≤ k + 1) (h2 : k + 1 ≤ 1023) {a b : D} (ha : Bd vD k a)
    (hb : Bd vD k b) : Bd vD (k + 1) (O.add a b) := by
  obtain ⟨x, x1, x2⟩ := ha
  obtain ⟨y, y1, y2⟩ := hb
  obtain ⟨z, z1, z2⟩ := round_bounded ok64 (rep_p2 h1 h2) (x := x + y) (by
    have := abs_add_le x y
    rw [p2_succ]; linarith)
  exact ⟨z, by rw [hO.add, x1, y1]; exact z1, z2⟩

theorem bdD_mul {k l : Int} (h1 : -1074 ≤ k + l) (h2 : k + l ≤ 1023) {a b : D} (ha : Bd vD k a)
    (hb : Bd vD l b) : Bd vD (k + l) (O.mul a b) := by
  obtain ⟨x, x1, x2⟩ := ha
  obtain ⟨y, y1, y2⟩ := hb
  obtain ⟨z, z1, z2⟩ := round_bounded ok64 (rep_p2 h1 h2) (x := x * y) (by
    rw [abs_mul, p2_add]
    exact mul_le_mul x2 y2 (abs_nonneg _) (p2_pos _).le)
  exact ⟨z, by rw [hO.mul, x1, y1]; exact z1, z2⟩

theorem bd_toD {k : Int} {a : T} (h : Bd vT k a) : Bd vD k (O.toD a) := by
  obtain ⟨x, x1, x2⟩ := h
  exact ⟨x, by rw [hO.toD, x1], x2⟩

/-- The derived bound is a number (or infinite) when the data are of moderate size. -/
theorem derive3_not_nan (hE : IsIeeeE E F vT vD) (hF : F.Ok) {k : Int} (h0 : 0 ≤ k)
    (h1 : 3 * k + 5 ≤ F.emax) (h2 : 3 * k + 8 ≤ 1023) {a b c d : Nat → T}
    (ba : ∀ i, i < 3 → Bd vT k (a i)) (bb : ∀ i, i < 3 → Bd vT k (b i))
    (bc : ∀ i, i < 3 → Bd vT k (c i)) (bd : ∀ i, i < 3 → Bd vT k (d i)) :
    vD (deriveAbs3T O E a b c d) ≠ .nan := by
  have hum := (emin_le hF).2.1
  have hzero : vD (O.ofInt 0) ≠ .nan := by rw [hO.zero]; simp
  have hm : ∀ {k l : Int} {x y : T}, 0 ≤ k → 0 ≤ l → k + l ≤ F.emax → Bd vT k x → Bd vT l y →
      Bd vT (k + l) (E.mulT x y) := by
    rintro k l x y hk hl hkl ⟨x, x1, x2⟩ ⟨y, y1, y2⟩
    obtain ⟨z, z1, z2⟩ := round_bounded hF (rep_p2 (F := F) (k := k + l) (by omega) hkl) (x := x * y) (by
      rw [abs_mul, p2_add]
      exact mul_le_mul x2 y2 (abs_nonneg _) (p2_pos _).le)
    exact ⟨z, by rw [hE.mulT, x1, y1]; exact z1, z2⟩
  have hn : ∀ {x : T}, Bd vT k x → Bd vT k (E.negT x) := by
    rintro x ⟨y, y1, y2⟩
    exact ⟨-y, by rw [hE.negT, y1]; rfl, by rwa [abs_neg]⟩
  have hmm : ∀ {x y z w : T}, Bd vT k x → Bd vT k y → Bd vT k z → Bd vT k w →
      Bd vD (2 * k + 1) (O.toD (O.subT (E.mulT x y) (E.mulT z w))) := fun hx hy hz hw =>
    bd_toD hO ((bd_sub hO hF (by omega) (by omega) (hm h0 h0 (by omega) hx hy)
      (hm h0 h0 (by omega) hz hw)).mono (by omega))
  have hmp : ∀ {x y z w : T}, Bd vT k x → Bd vT k y → Bd vT k z → Bd vT k w →
      Bd vD (2 * k + 1) (O.toD (O.addT (E.mulT (E.negT x) y) (E.mulT z w))) := fun hx hy hz hw =>
    bd_toD hO ((bd_add hO hF (by omega) (by omega) (hm h0 h0 (by omega) (hn hx) hy)
      (hm h0 h0 (by omega) hz hw)).mono (by omega))
  have hm3 : ∀ {l : Int} {x y z : T}, 3 * k ≤ l → Bd vT k x → Bd vT k y → Bd vT k z →
      Bd vT l (E.mulT (E.mulT x y) z) := fun hl hx hy hz =>
    (hm (by omega) h0 (by omega) (hm h0 h0 (by omega) hx hy) hz).mono (by omega)
  have hdot : ∀ {x y z : D}, Bd vD (2 * k + 1) x → Bd vD (2 * k + 1) y → Bd vD (2 * k + 1) z →
      Bd vD (3 * k + 3) (O.add (O.add (O.mul x (O.toD (d 0))) (O.mul y (O.toD (d 1))))
        (O.mul z (O.toD (d 2)))) := by
    intro x y z hx hy hz
    have e0 := bdD_mul hO (by omega) (by omega) hx (bd_toD hO (bd 0 (by norm_num)))
    have e1 := bdD_mul hO (by omega) (by omega) hy (bd_toD hO (bd 1 (by norm_num)))
    have e2 := bdD_mul hO (by omega) (by omega) hz (bd_toD hO (bd 2 (by norm_num)))
    exact (bdD_add hO (by omega) (by omega) (bdD_add hO (by omega) (by omega) e0 e1)
      (e2.mono (by omega))).mono (by omega)
  have hs3 : ∀ {x y z : D}, Bd vD (3 * k + 5) x → Bd vD (3 * k + 5) y → Bd vD (3 * k + 5) z →
      ∃ w, vD (O.add (O.add x y) z) = .fin w := fun hx hy hz => by
    obtain ⟨w, hw, -⟩ := bdD_add hO (by omega) (by omega) (bdD_add hO (by omega) (by omega) hx hy)
      (hz.mono (show 3 * k + 5 ≤ 3 * k + 5 + 1 by omega))
    exact ⟨w, hw⟩
  have nn : ∀ {j : Int} {x : D}, Bd vD j x → vD x ≠ .nan := fun h => by
    obtain ⟨y, hy, -⟩ := h; rw [hy]; simp
  have fn : ∀ {j : Int} {x : D}, Bd vD j x → ∃ y, vD x = .fin y := fun h => by
    obtain ⟨y, hy, -⟩ := h; exact ⟨y, hy⟩
  have A0 := ba 0 (by norm_num); have A1 := ba 1 (by norm_num); have A2 := ba 2 (by norm_num)
  have B0 := bb 0 (by norm_num); have B1 := bb 1 (by norm_num); have B2 := bb 2 (by norm_num)
  have C0 := bc 0 (by norm_num); have C1 := bc 1 (by norm_num); have C2 := bc 2 (by norm_num)
  unfold deriveAbs3T
  simp only
  have u0 := hmp B1 C2 C1 B2
  have u1 := hmp C1 A2 A1 C2
  have u2 := hmp A1 B2 B1 A2
  have v0 := hmm B0 C2 C0 B2
  have v1 := hmm C0 A2 A0 C2
  have v2 := hmm A0 B2 B0 A2
  have w0 := hmp B0 C1 C0 B1
  have w1 := hmm A0 C1 C0 A1
  have w2 := hmp A0 B1 B0 A1
  have c4 : Bd vD (3 * k + 5) (O.toD (O.subT (O.addT (O.subT (O.addT (O.subT
      (E.mulT (E.mulT (a 0) (b 1)) (c 2)) (E.mulT (E.mulT (a 0) (c 1)) (b 2)))
      (E.mulT (E.mulT (b 0) (c 1)) (a 2))) (E.mulT (E.mulT (b 0) (a 1)) (c 2)))
      (E.mulT (E.mulT (c 0) (a 1)) (b 2))) (E.mulT (E.mulT (c 0) (b 1)) (a 2)))) := by
    refine bd_toD hO (Bd.mono (show 3 * k + 1 + 1 + 1 + 1 + 1 ≤ 3 * k + 5 by omega) ?_)
    refine bd_sub hO hF (by omega) (by omega) (bd_add hO hF (by omega) (by omega) (bd_sub hO hF
      (by omega) (by omega) (bd_add hO hF (by omega) (by omega) (bd_sub hO hF (by omega) (by omega)
        (hm3 ?_ A0 B1 C2) (hm3 ?_ A0 C1 B2)) (hm3 ?_ B0 C1 A2)) (hm3 ?_ B0 A1 C2))
        (hm3 ?_ C0 A1 B2)) (hm3 ?_ C0 B1 A2) <;> omega
  generalize O.toD (O.addT (E.mulT (E.negT (b 1)) (c 2)) (E.mulT (c 1) (b 2))) = u3_0 at *
  generalize O.toD (O.addT (E.mulT (E.negT (c 1)) (a 2)) (E.mulT (a 1) (c 2))) = u3_1 at *
  generalize O.toD (O.addT (E.mulT (E.negT (a 1)) (b 2)) (E.mulT (b 1) (a 2))) = u3_2 at *
  generalize O.toD (O.subT (E.mulT (b 0) (c 2)) (E.mulT (c 0) (b 2))) = v3_0 at *
  generalize O.toD (O.subT (E.mulT (c 0) (a 2)) (E.mulT (a 0) (c 2))) = v3_1 at *
  generalize O.toD (O.subT (E.mulT (a 0) (b 2)) (E.mulT (b 0) (a 2))) = v3_2 at *
  generalize O.toD (O.addT (E.mulT (E.negT (b 0)) (c 1)) (E.mulT (c 0) (b 1))) = w3_0 at *
  generalize O.toD (O.subT (E.mulT (a 0) (c 1)) (E.mulT (c 0) (a 1))) = w3_1 at *
  generalize O.toD (O.addT (E.mulT (E.negT (a 0)) (b 1)) (E.mulT (b 0) (a 1))) = w3_2 at *
  generalize O.toD (O.subT (O.addT (O.subT (O.addT (O.subT
      (E.mulT (E.mulT (a 0) (b 1)) (c 2)) (E.mulT (E.mulT (a 0) (c 1)) (b 2)))
      (E.mulT (E.mulT (b 0) (c 1)) (a 2))) (E.mulT (E.mulT (b 0) (a 1)) (c 2)))
      (E.mulT (E.mulT (c 0) (a 1)) (b 2))) (E.mulT (E.mulT (c 0) (b 1)) (a 2))) = M3 at *
  have m0 := (hdot u0 v0 w0).mono (show 3 * k + 3 ≤ 3 * k + 5 by omega)
  have m1 := (hdot u1 v1 w1).mono (show 3 * k + 3 ≤ 3 * k + 5 by omega)
  have m2 := (hdot u2 v2 w2).mono (show 3 * k + 3 ≤ 3 * k + 5 by omega)
  generalize O.add (O.add (O.mul u3_0 (O.toD (d 0))) (O.mul v3_0 (O.toD (d 1))))
    (O.mul w3_0 (O.toD (d 2))) = M0 at *
  generalize O.add (O.add (O.mul u3_1 (O.toD (d 0))) (O.mul v3_1 (O.toD (d 1))))
    (O.mul w3_1 (O.toD (d 2))) = M1 at *
  generalize O.add (O.add (O.mul u3_2 (O.toD (d 0))) (O.mul v3_2 (O.toD (d 1))))
    (O.mul w3_2 (O.toD (d 2))) = M2 at *
  have ad : ∀ {x y : D}, Bd vD (2 * k + 1) x → Bd vD (2 * k + 1) y → vD (O.add x y) ≠ .nan :=
    fun hx hy => add_fin_ne_nan hO (fn hx) (fn hy)
  have k0 : vD (minfG O.toDOps (keepAbs3D O.toDOps u3_0 v3_0 w3_0 M0)
      (keepAbs3D O.toDOps (O.add u3_1 u3_2) (O.add v3_1 v3_2) (O.add w3_1 w3_2)
        (O.add (O.add M1 M2) M3))) ≠ .nan :=
    minf_not_nan (keepAbs3D_ne_nan hO (nn u0) (nn v0) (nn w0) (fn m0))
      (keepAbs3D_ne_nan hO (ad u1 u2) (ad v1 v2) (ad w1 w2) (hs3 m1 m2 c4))
  have k1 : vD (minfG O.toDOps (keepAbs3D O.toDOps u3_1 v3_1 w3_1 M1)
      (keepAbs3D O.toDOps (O.add u3_0 u3_2) (O.add v3_0 v3_2) (O.add w3_0 w3_2)
        (O.add (O.add M0 M2) M3))) ≠ .nan :=
    minf_not_nan (keepAbs3D_ne_nan hO (nn u1) (nn v1) (nn w1) (fn m1))
      (keepAbs3D_ne_nan hO (ad u0 u2) (ad v0 v2) (ad w0 w2) (hs3 m0 m2 c4))
  have k2 : vD (minfG O.toDOps (keepAbs3D O.toDOps u3_2 v3_2 w3_2 M2)
      (keepAbs3D O.toDOps (O.add u3_0 u3_1) (O.add v3_0 v3_1) (O.add w3_0 w3_1)
        (O.add (O.add M0 M1) M3))) ≠ .nan :=
    minf_not_nan (keepAbs3D_ne_nan hO (nn u2) (nn v2) (nn w2) (fn m2))
      (keepAbs3D_ne_nan hO (ad u0 u1) (ad v0 v1) (ad w0 w1) (hs3 m0 m1 c4))
  have k3 : vD (keepAbs3D O.toDOps (O.add (O.add u3_0 u3_1) u3_2) (O.add (O.add v3_0 v3_1) v3_2)
      (O.add (O.add w3_0 w3_1) w3_2) (O.add (O.add M0 M1) M2)) ≠ .nan :=
    keepAbs3D_ne_nan hO (add_fin_ne_nan' hO (ad u0 u1) (fn u2))
      (add_fin_ne_nan' hO (ad v0 v1) (fn v2)) (add_fin_ne_nan' hO (ad w0 w1) (fn w2))
      (hs3 m0 m1 m2)
  generalize O.add (O.add (O.add M0 M1) M2) M3 = M
  generalize (eq0G O.toDOps M0 || O.lt (O.ofInt 1) (O.div M M0)) = f0
  generalize (eq0G O.toDOps M1 || O.lt (O.ofInt 1) (O.div M M1)) = f1
  generalize (eq0G O.toDOps M2 || O.lt (O.ofInt 1) (O.div M M2)) = f2
  generalize (eq0G O.toDOps M3 || O.lt (O.ofInt 1) (O.div M M3)) = f3
  have st : ∀ (f : Bool) {x y : D}, vD x ≠ .nan → vD y ≠ .nan →
      vD (if f = true then x else maxfG O.toDOps x y) ≠ .nan := by
    intro f x y hx hy
    split
    · exact hx
    · exact maxf_not_nan hx hy
  split
  · exact hzero
  split
  · exact hzero
  exact st f3 (st f2 (st f1 (st f0 hzero k0) k1) k2) k3

/-- The bound of a vertex is at most the bound of the user. -/
theorem loop3_ieee {r1 r2 r3 : Nat} {cp : Nat → Bool}
    {derive : (Nat → T) → (Nat → T) → (Nat → T) → (Nat → T) → D} {f : Nat → Nat → T} {Q : T → Prop}
    (hd : ∀ a b c d : Nat → T, (∀ i, i < 3 → Q (a i)) → (∀ i, i < 3 → Q (b i)) →
      (∀ i, i < 3 → Q (c i)) → (∀ i, i < 3 → Q (d i)) → vD (derive a b c d) ≠ .nan)
    (hf : ∀ c q, c < 3 → q < r1 * r2 * r3 → Q (f c q)) {i j k : Nat} {e : ℚ} (he : 0 ≤ e)
    (ns : List Nat) {req r : D} (hr : LeV e (vD req))
    (h : loop3 r1 r2 r3 (absBody O.toDOps cp derive) f i j k ns req = some r) : LeV e (vD r) := by
  have rd_Q : ∀ {idx : Int} {x : Nat → T}, rdAll (r1 * r2 * r3) f idx = some x →
      ∀ i, i < 3 → Q (x i) := by
    intro idx x hx i hi
    unfold rdAll at hx
    split at hx
    · rename_i h1
      simp only [Option.some.injEq] at hx
      rw [← hx]
      exact hf _ _ hi (by omega)
    · cases hx
  induction ns generalizing req with
  | nil => simp only [loop3, Option.some.injEq] at h; rw [← h]; exact hr
  | cons n ns ih =>
    unfold loop3 at h
    split at h
    · simp only at h
      split at h
      · rename_i a b c d ea eb ec ed
        have hmin : LeV e (vD (if O.lt req (derive a b c d) = true then req else derive a b c d)) :=
          minf_le hO hr (hd a b c d (rd_Q ea) (rd_Q eb) (rd_Q ec) (rd_Q ed))
        unfold absBody minBody at h
        by_cases hcp : cp (cellIndex r2 r3 i j k n).toNat = true
        · simp only [hcp, if_true, Option.some.injEq] at h
          rw [← h, hO.zero]
          exact Or.inr ⟨0, rfl, he⟩
        · simp only [hcp] at h
          exact ih hmin h
      · cases h
    · exact ih hr h

theorem planAbs3T_le (hE : IsIeeeE E F vT vD) (hF : F.Ok) {k : Int} (h0 : 0 ≤ k)
    (h1 : 3 * k + 5 ≤ F.emax) (h2 : 3 * k + 8 ≤ 1023) {r1 r2 r3 : Nat} {maxEb : D} {e : ℚ}
    (hm : vD maxEb = .fin e) (he : 0 ≤ e) {cp : Nat → Bool} {s : State T}
    (hf : ∀ c q, c < 3 → q < r1 * r2 * r3 → Bd vT k (s.val c q)) {p : Nat} {a : D} {id : Int}
    (h : planAbs3T O E r1 r2 r3 maxEb cp s p = some (.try a id)) : LeV e (vD a) := by
  unfold planAbs3T planAbs3 at h
  simp only at h
  have hz : LeV e (vD (O.ofInt 0)) := Or.inr ⟨0, hO.zero, he⟩
  have hr : ∀ (b : Bool), LeV e (vD (if b = true then O.ofInt 0 else maxEb)) := by
    intro b; split
    · exact hz
    · exact Or.inr ⟨e, hm, le_refl e⟩
  specialize hr (eq0G O.toDOps (O.toD (s.val 0 p)) || eq0G O.toDOps (O.toD (s.val 1 p)) ||
    eq0G O.toDOps (O.toD (s.val 2 p)))
  generalize (if (eq0G O.toDOps (O.toD (s.val 0 p)) || eq0G O.toDOps (O.toD (s.val 1 p)) ||
    eq0G O.toDOps (O.toD (s.val 2 p))) = true then O.ofInt 0 else maxEb) = req at h hr
  split at h
  · cases h
  · rename_i r hreq
    have hle : LeV e (vD r) := by
      split at hreq
      · exact loop3_ieee hO (Q := Bd vT k) (fun a b c d ha hb hc hd =>
          derive3_not_nan hO hE hF h0 h1 h2 ha hb hc hd) hf he _ hr hreq
      · simp only [Option.some.injEq] at hreq; rw [← hreq]; exact hr
    simp only [Option.some.injEq] at h
    split at h
    · simp only [Plan.try.injEq] at h; rw [← h.1]; exact hle
    · cases h

/-- What is accepted for a component. -/
theorem encComp3_ieee {M : Mode T D} (hM : M.O = O) (hF : F.Ok) {f : Nat → T} {p : Nat} {eb : D}
    {k : Int} (hk : F.emin < k) (he : vD eb = .fin (p2 k)) {q : Int} {x : T}
    (h : VMode.encComp M f p eb = some (q, x)) {c : ℚ} (hc : vT (f p) = .fin c) :
    ∃ X, vT x = .fin X ∧ |X - c| ≤ (1 - p2 (-(F.p + 1))) * p2 k := by
  unfold VMode.encComp at h
  simp only [hM] at h
  split at h
  · cases h
  · rename_i q' hq
    split at h
    · cases h
    · rename_i hle
      simp only [Option.some.injEq, Prod.mk.injEq] at h
      obtain ⟨rfl, rfl⟩ := h
      exact hO.accept hF he hk hq rfl (by simpa using hle) hc

/-- A bound below `e` with a positive code. -/
theorem ebQuant_leV {lb thr a : D} (hlb : vD lb = .fin 2) (ht : vD thr = .fin (p2 (-52)))
    (he0 : 0 ≤ eps) (he1 : eps ≤ 1) {e : ℚ} (ha : LeV e (vD a)) (hA : e ≤ p2 400)
    (h : 0 < (CpSZ.ebQuant O.toDOps 4 lb thr a).2) :
    ∃ k : Int, -52 < k ∧ vD (CpSZ.ebQuant O.toDOps 4 lb thr a).1 = .fin (p2 k) ∧
      p2 k ≤ (1 + eps) * (1 + p2 (-53)) * e := by
  rcases ha with ha | ⟨x, ha, hx⟩
  · exfalso
    unfold CpSZ.ebQuant at h
    rw [if_pos (by rw [hO.le, ha, ht]; rfl)] at h
    simp at h
  · obtain ⟨k, k1, k2, k3⟩ := hO.ebQuant hlb ht (by norm_num) (by norm_num) he0 he1 ha
      (hx.trans hA) h
    have := p2_pos (-53)
    exact ⟨k, k1, k2, k3.trans (mul_le_mul_of_nonneg_left hx
      (mul_nonneg (by linarith) (by linarith)))⟩

/-- The code of a bound below `e`. -/
theorem ebQuant_leV_range {lb thr a : D} (hlb : vD lb = .fin 2) (ht : vD thr = .fin (p2 (-52)))
    (he0 : 0 ≤ eps) (he1 : eps ≤ 1) {e : ℚ} (ha : LeV e (vD a)) {R : Int} (hR : R ≤ 400)
    (hA : e ≤ p2 R) (h : 0 < (CpSZ.ebQuant O.toDOps 4 lb thr a).2) :
    2 * (CpSZ.ebQuant O.toDOps 4 lb thr a).2 ≤ R + 54 := by
  rcases ha with ha | ⟨x, ha, hx⟩
  · exfalso
    unfold CpSZ.ebQuant at h
    rw [if_pos (by rw [hO.le, ha, ht]; rfl)] at h
    simp at h
  · exact hO.ebQuant_range hlb ht he0 he1 ha hR (hx.trans hA) h

omit hO in
/-- Induction principle for the states and the records of a run. -/
theorem compress_inv_run (M : Mode T D) (plan : State T → Nat → Option (Plan D)) (n : Nat)
    (data : Arr T) (s' : State T) (str : VMode.Streams T)
    (h : VMode.compress M plan n data = some (s', str))
    (I : Nat → State T → Prop) (Q : VMode.VCode T → Prop) (h0 : I 0 (initState M data))
    (hskip : ∀ p s, p < n → I p s → I (p + 1) s)
    (hesc : ∀ p s id xs, (plan s p = some (.lossless id) ∨ ∃ a, plan s p = some (.try a id)) →
      Q (.esc id xs))
    (hstep : ∀ p s s' e qs, p < n → I p s → Coded M plan s s' p e qs →
      (∀ c q, p ≤ q → s.cod c q = M.fwd (data c q) ∧ s.val c q = data c q) →
        I (p + 1) s' ∧ Q (.coded e qs)) :
    I n s' ∧ ∃ (st : Nat → State T) (ws : List (VMode.VCode T)), VMode.Run M plan n data st ws ∧
      st n = s' ∧ (∀ w ∈ ws, Q w) ∧
      str = ⟨ws.flatMap VMode.VCode.eb, ws.flatMap (VMode.VCode.dq M), ws.flatMap VMode.VCode.un⟩ := by
  obtain ⟨st, ws, R, rfl, rfl⟩ := compress_run M plan n data s' str h
  have step : ∀ p, p < n → I p (st p) → I (p + 1) (st (p + 1)) ∧ ∀ w, ws[p]? = some w → Q w := by
    intro p hp hI
    obtain ⟨w, hw⟩ := R.get hp
    rcases VMode.encVertex_cases M plan _ _ _ _ (R.step p w hw) with
      ⟨id, h1, rfl, h2⟩ | ⟨e, qs, rfl, hc⟩
    · refine ⟨by rw [h1]; exact hskip p _ hp hI, fun w' hw' => ?_⟩
      rw [hw] at hw'; cases hw'
      exact hesc p _ id _ h2
    · obtain ⟨g1, g2⟩ := hstep p _ _ e qs hp hI hc (fun c q hq => R.later p hp.le c q hq)
      refine ⟨g1, fun w' hw' => ?_⟩
      rw [hw] at hw'; cases hw'
      exact g2
  have all : ∀ p, p ≤ n → I p (st p) := by
    intro p hp
    induction p with
    | zero => rw [R.start]; exact h0
    | succ p ih => exact (step p (by omega) (ih (by omega))).1
  refine ⟨all n (le_refl n), st, ws, R, rfl, fun w hw => ?_, rfl⟩
  obtain ⟨q, hq, rfl⟩ := List.getElem_of_mem hw
  have hqn : q < n := by rw [← R.len]; exact hq
  exact (step q hqn (all q hqn.le)).2 _ (List.getElem?_eq_getElem hq)

omit hO in
/-- Induction principle for the reconstruction and the records of a run. -/
theorem compress_inv_codes (M : Mode T D) (plan : State T → Nat → Option (Plan D)) (n : Nat)
    (data : Arr T) (s' : State T) (str : VMode.Streams T)
    (h : VMode.compress M plan n data = some (s', str))
    (I : Nat → State T → Prop) (Q : VMode.VCode T → Prop) (h0 : I 0 (initState M data))
    (hskip : ∀ p s, p < n → I p s → I (p + 1) s)
    (hesc : ∀ p s id xs, (plan s p = some (.lossless id) ∨ ∃ a, plan s p = some (.try a id)) →
      Q (.esc id xs))
    (hstep : ∀ p s s' e qs, p < n → I p s → Coded M plan s s' p e qs →
      (∀ c q, p ≤ q → s.cod c q = M.fwd (data c q) ∧ s.val c q = data c q) →
        I (p + 1) s' ∧ Q (.coded e qs)) :
    I n s' ∧ ∃ ws : List (VMode.VCode T), (∀ w ∈ ws, Q w) ∧
      str = ⟨ws.flatMap VMode.VCode.eb, ws.flatMap (VMode.VCode.dq M), ws.flatMap VMode.VCode.un⟩ := by
  obtain ⟨g, _, ws, -, -, h1, h2⟩ := compress_inv_run M plan n data s' str h I Q h0 hskip hesc hstep
  exact ⟨g, ws, h1, h2⟩

/-- The absolute mode: data and bound at most `2^r`. -/
theorem abs3 (hE : IsIeeeE E F vT vD) (hF : F.Ok)
    (hemin : F.emin ≤ -52) (he0 : 0 ≤ eps) (he1 : eps ≤ p2 (-30)) {lb thr : D}
    (hlb : vD lb = .fin 2) (hthr : vD thr = .fin (p2 (-52)))
    {r : Int} (h0 : 0 ≤ r) (h1 : r ≤ 300) (h2 : 3 * r + 11 ≤ F.emax) {r1 r2 r3 : Nat} {maxEb : D}
    {e : ℚ} (hm : vD maxEb = .fin e) (hep : 0 ≤ e) (her : e ≤ p2 r) {cp : Nat → Bool}
    {data : Arr T} {s' : State T} {str : VMode.Streams T}
    (hf : ∀ c q, c < 3 → q < r1 * r2 * r3 → Bd vT r (data c q))
    (h : VMode.compress (absMode3 O lb thr r2 r3 4 32768) (planAbs3T O E r1 r2 r3 maxEb cp)
      (r1 * r2 * r3) data = some (s', str)) :
    (∀ c q, c < 3 → q < r1 * r2 * r3 → Cl vT (slack F eps * e) (s'.val c q) (data c q)) ∧
    (∀ x ∈ str.eb, 0 ≤ x ∧ 2 * x ≤ r + 54) ∧ ∀ x ∈ str.dq, 0 ≤ x ∧ x ≤ 65536 := by
  have hs2 := slack_le F he1
  have he2 : eps ≤ 1 := he1.trans (by rw [← p2_zero]; exact p2_le (by norm_num))
  have hg : 0 ≤ 1 - p2 (-((F.p : Int) + 1)) := by
    have : p2 (-((F.p : Int) + 1)) ≤ p2 0 := p2_le (by omega)
    rw [p2_zero] at this
    linarith
  have wide : ∀ {x c : T}, Bd vT r c → Cl vT (slack F eps * e) x c → Bd vT (r + 1 + 1) x := by
    intro x c hc hx
    rcases hx with rfl | ⟨X, C, x1, x2, x3⟩
    · exact hc.mono (by omega)
    · obtain ⟨y, y1, y2⟩ := hc
      rw [x2] at y1
      cases y1
      refine ⟨X, x1, ?_⟩
      have h3 := abs_sub_abs_le_abs_sub X C
      have h4 : slack F eps * e ≤ 2 * e := mul_le_mul_of_nonneg_right hs2 hep
      have h5 := p2_pos r
      rw [p2_succ, p2_succ]
      linarith
  have hids : ∀ p s id, (planAbs3T O E r1 r2 r3 maxEb cp s p = some (.lossless id) ∨
      ∃ a, planAbs3T O E r1 r2 r3 maxEb cp s p = some (.try a id)) → id = 0 := by
    intro p s id h
    unfold planAbs3T at h
    rcases h with h | ⟨a, h⟩
    · exact planAbs3_ids.1 _ _ _ h
    · exact planAbs3_ids.2 _ _ _ _ h
  have inv := compress_inv_codes _ _ _ data s' str h
    (fun p s => ∀ c q, c < 3 → q < r1 * r2 * r3 →
      Cl vT (slack F eps * e) (s.val c q) (data c q))
    (fun w => (∀ x ∈ w.eb, 0 ≤ x ∧ 2 * x ≤ r + 54) ∧
      ∀ x ∈ w.dq (absMode3 O lb thr r2 r3 4 32768), 0 ≤ x ∧ x ≤ 65536)
    (fun _ _ _ _ => Or.inl rfl) (fun p s _ hI => hI)
    (fun p s id xs hid => by
      refine ⟨?_, by simp [VMode.VCode.dq, absMode3]⟩
      simp only [VMode.VCode.eb, List.mem_cons, List.not_mem_nil, or_false]
      have := hids p s id hid
      omega)
    (fun p s s1 e' qs hp hI hS hlater => ?_)
  · refine ⟨inv.1, ?_⟩
    obtain ⟨-, ws, hw, rfl⟩ := inv
    constructor
    · intro x hx
      obtain ⟨w, hw1, hxw⟩ := List.mem_flatMap.1 hx
      exact (hw w hw1).1 x hxw
    · intro x hx
      obtain ⟨w, hw1, hxw⟩ := List.mem_flatMap.1 hx
      exact (hw w hw1).2 x hxw
  obtain ⟨a, id, rs, hpl, he, hpos, hr, hqs, hc1, hv1⟩ := hS.ex
  have ha := planAbs3T_le hO hE hF (k := r + 1 + 1) (by omega) (by omega) (by omega) hm hep
    (fun c q hc hq => wide (hf c q hc hq) (hI c q hc hq)) hpl
  rw [he] at hpos
  obtain ⟨k, k1, k2, k3⟩ := ebQuant_leV hO hlb hthr he0 he2 ha
    (her.trans (p2_le (by omega))) hpos
  obtain ⟨l1, l2⟩ := encComps_spec _ _ _ _ _ _ hr
  rw [List.length_range] at l1
  refine ⟨?_, ?_, ?_⟩
  rotate_left
  · simp only [VMode.VCode.eb, List.mem_cons, List.not_mem_nil, or_false]
    rintro x rfl
    rw [he]
    exact ⟨hpos.le, ebQuant_leV_range hO hlb hthr he0 he2 ha (by omega) her hpos⟩
  · intro x hx
    change x ∈ qs at hx
    rw [hqs] at hx
    obtain ⟨y, hy, rfl⟩ := List.mem_map.1 hx
    obtain ⟨i, hi, rfl⟩ := List.getElem_of_mem hy
    have hcc := l2 i (by rw [List.length_range]; omega) hi
    unfold VMode.encComp at hcc
    simp only at hcc
    split at hcc
    · cases hcc
    · rename_i q hq
      split at hcc
      · cases hcc
      · simp only [Option.some.injEq] at hcc
        rw [← hcc]
        exact hO.linQuant_range k2 hq
  intro c q hc hq
  by_cases hqp : q = p
  · subst hqp
    have hc' : c < (absMode3 O lb thr r2 r3 4 32768).K := hc
    have hcc := l2 c (by simpa using hc') (by omega)
    simp only [List.getElem_range] at hcc
    have hval : s1.val c q = rs[c].2 := by
      rw [hv1, setCol_same (by simpa [l1, col] using hc')]
      simp [absMode3]
    obtain ⟨C, hC, hCb⟩ := hf c q hc hq
    obtain ⟨X, x1, x2⟩ := encComp3_ieee hO rfl hF (by omega) k2 hcc (c := C) (by
      rw [(hlater c q (le_refl q)).1]; exact hC)
    rw [hval]
    refine Or.inr ⟨X, C, x1, hC, x2.trans ?_⟩
    unfold slack
    rw [mul_assoc]
    exact mul_le_mul_of_nonneg_left k3 hg
  · rw [hv1, setCol_ne hqp]; exact hI c q hc hq

end
end formula
end CpSZ.Ieee
