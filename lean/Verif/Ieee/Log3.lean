import Verif.Ieee.LogRun
import Verif.VMode.Guard
/-
The 3D log modes (src/sz_compress_cp_preserve_3d.cpp L597-1145) in IEEE-754 arithmetic: distance
of the reconstruction from the data.
-/

namespace CpSZ.Ieee
open CpSZ.VMode CpSZ.ThreeD CpSZ.Mesh3D

section formula
variable {T D : Type}

/-- `max_eb_to_keep_sign_3d_online` (src/sz_compress_cp_preserve_3d.cpp L597-602), called with
`double`s; the default argument `D=0` is added, too. -/
def keepLog3D (N : DOps D) (A B C E : D) : D :=
  if eq0G N A && eq0G N B && eq0G N C then N.ofInt 1
  else N.div (N.abs (N.add (N.add (N.add A B) C) E)) (N.add (N.add (N.abs A) (N.abs B)) (N.abs C))

/-- `sgn` (include/sz_cp_preserve_utils.hpp L30-32); the comparisons are exact. -/
def sgnT (O : Ops T D) (x : T) : Int :=
  (if O.lt (O.ofInt 0) (O.toD x) then 1 else 0) - (if O.lt (O.toD x) (O.ofInt 0) then 1 else 0)

/-- `same_direction` (include/sz_cp_preserve_utils.hpp L41-46). -/
def sameDirT (O : Ops T D) (a b c d : T) : Bool :=
  sgnT O a != 0 && (sgnT O a == sgnT O b && sgnT O a == sgnT O c && sgnT O a == sgnT O d)

/-- `max_eb_to_keep_position_and_type_3d_online` (src/sz_compress_cp_preserve_3d.cpp L661-745) for
elements of type `T`: the products of three elements and their sums are elements, the rest is
computed in `double`; `a`, `b`, `c`, `d` are the four vectors (components 0, 1, 2 are `u`, `v`,
`w`), `d` is the vector of the current vertex. -/
def deriveLog3T (O : Ops T D) (E : EOps T D) (a b c d : Nat → T) : D :=
  let N := O.toDOps
  let m3 (x y z : T) : T := E.mulT (E.mulT x y) z
  let mm (x y z x' y' z' : T) : D := O.toD (O.subT (m3 x y z) (m3 x' y' z'))
  let mp (x y z x' y' z' : T) : D := O.toD (O.addT (m3 (E.negT x) y z) (m3 x' y' z'))
  let u3_0 := mp (d 0) (b 1) (c 2) (d 0) (c 1) (b 2)
  let u3_1 := mp (d 0) (c 1) (a 2) (d 0) (a 1) (c 2)
  let u3_2 := mp (d 0) (a 1) (b 2) (d 0) (b 1) (a 2)
  let v3_0 := mm (b 0) (d 1) (c 2) (c 0) (d 1) (b 2)
  let v3_1 := mm (c 0) (d 1) (a 2) (a 0) (d 1) (c 2)
  let v3_2 := mm (a 0) (d 1) (b 2) (b 0) (d 1) (a 2)
  let w3_0 := mp (b 0) (c 1) (d 2) (c 0) (b 1) (d 2)
  let w3_1 := mm (a 0) (c 1) (d 2) (c 0) (a 1) (d 2)
  let w3_2 := mp (a 0) (b 1) (d 2) (b 0) (a 1) (d 2)
  let c_4 := O.toD (O.subT (O.addT (O.subT (O.addT (O.subT (m3 (a 0) (b 1) (c 2))
    (m3 (a 0) (c 1) (b 2))) (m3 (b 0) (c 1) (a 2))) (m3 (b 0) (a 1) (c 2)))
    (m3 (c 0) (a 1) (b 2))) (m3 (c 0) (b 1) (a 2)))
  let sum3 (x y z : D) : D := N.add (N.add x y) z
  let M0 := sum3 u3_0 v3_0 w3_0
  let M1 := sum3 u3_1 v3_1 w3_1
  let M2 := sum3 u3_2 v3_2 w3_2
  let M3 := c_4
  let M := N.add (sum3 M0 M1 M2) M3
  if eq0G N M then
    if sameDirT O (a 0) (b 0) (c 0) (d 0) || sameDirT O (a 1) (b 1) (c 1) (d 1) ||
      sameDirT O (a 2) (b 2) (c 2) (d 2) then N.ofInt 1 else N.ofInt 0
  else
    let flag (m : D) : Bool := eq0G N m || N.lt (N.ofInt 1) (N.div M m)
    let f0 := flag M0
    let f1 := flag M1
    let f2 := flag M2
    let f3 := flag M3
    if f0 && f1 && f2 && f3 then N.ofInt 0
    else
      let eb := N.ofInt 0
      let eb := if f0 then eb else maxfG N eb (minfG N (keepLog3D N u3_0 v3_0 w3_0 (N.ofInt 0))
        (keepLog3D N (N.add u3_1 u3_2) (N.add v3_1 v3_2) (N.add w3_1 w3_2) c_4))
      let eb := if f1 then eb else maxfG N eb (minfG N (keepLog3D N u3_1 v3_1 w3_1 (N.ofInt 0))
        (keepLog3D N (N.add u3_0 u3_2) (N.add v3_0 v3_2) (N.add w3_0 w3_2) c_4))
      let eb := if f2 then eb else maxfG N eb (minfG N (keepLog3D N u3_2 v3_2 w3_2 (N.ofInt 0))
        (keepLog3D N (N.add u3_0 u3_1) (N.add v3_0 v3_1) (N.add w3_0 w3_1) c_4))
      let eb := if f3 then eb else maxfG N eb
        (keepLog3D N (sum3 u3_0 u3_1 u3_2) (sum3 v3_0 v3_1 v3_2) (sum3 w3_0 w3_1 w3_2) (N.ofInt 0))
      eb

variable {O : Ops T D} {F : Fmt} {vT : T → Fp ℚ} {vD : D → Fp ℚ} {eps : ℚ} {E : EOps T D}
variable (hO : IsIeee O F vT vD eps)

section
include hO

/-- The sign bound is not NaN. -/
theorem keepLog3D_ne_nan {j : Int} (h0 : 0 ≤ j) (h1 : j + 3 ≤ 1023) {a b c e : D} (ha : Bd vD j a)
    (hb : Bd vD j b) (hc : Bd vD j c) (he : Bd vD j e) : vD (keepLog3D O.toDOps a b c e) ≠ .nan := by
  obtain ⟨x, hx, -⟩ := bdD_add hO (by omega) (by omega) (bdD_add hO (by omega) (by omega)
    (bdD_add hO (by omega) (by omega) ha hb) (hc.mono (show j ≤ j + 1 by omega)))
    (he.mono (show j ≤ j + 1 + 1 by omega))
  have hA0 := ha
  have hB0 := hb
  have ab : ∀ {y : D}, Bd vD j y → Bd vD j (O.abs y) := by
    rintro y ⟨z, z1, z2⟩
    exact ⟨|z|, by rw [hO.abs, z1, abs_fin], by rwa [abs_abs]⟩
  obtain ⟨s, hs, -⟩ := bdD_add hO (by omega) (by omega) (bdD_add hO (by omega) (by omega)
    (ab ha) (ab hb)) ((ab hc).mono (show j ≤ j + 1 by omega))
  unfold keepLog3D
  split
  · rw [hO.one]; simp
  · rename_i hz
    have hs0 : s ≠ 0 := by
      rintro rfl
      apply hz
      obtain ⟨A, hA, -⟩ := ha
      obtain ⟨B, hB, -⟩ := hb
      obtain ⟨C, hC, -⟩ := hc
      have key : ∀ {x y : D} {X Y z : ℚ}, vD x = .fin X → vD y = .fin Y → 0 ≤ X → 0 ≤ Y →
          vD (O.add x y) = .fin z → X ≤ z ∧ Y ≤ z := by
        intro x y X Y z hx hy h1 h2 h3
        rw [hO.add, hx, hy] at h3
        exact ⟨round_ge ok64 (hO.repD _ _ hx) h1 (by linarith) h3,
          round_ge ok64 (hO.repD _ _ hy) h2 (by linarith) h3⟩
      have hA' : vD (O.abs a) = .fin |A| := by rw [hO.abs, hA, abs_fin]
      have hB' : vD (O.abs b) = .fin |B| := by rw [hO.abs, hB, abs_fin]
      have hC' : vD (O.abs c) = .fin |C| := by rw [hO.abs, hC, abs_fin]
      obtain ⟨t, ht, -⟩ := bdD_add hO (by omega) (by omega)
        (ab hA0) (ab hB0)
      obtain ⟨k1, k2⟩ := key hA' hB' (abs_nonneg _) (abs_nonneg _) ht
      obtain ⟨k3, k4⟩ := key ht hC' ((abs_nonneg A).trans k1) (abs_nonneg _) hs
      have z1 : A = 0 := abs_nonpos_iff.1 (k1.trans k3)
      have z2 : B = 0 := abs_nonpos_iff.1 (k2.trans k3)
      have z3 : C = 0 := abs_nonpos_iff.1 k4
      rw [hO.eq0_fin hA, hO.eq0_fin hB, hO.eq0_fin hC, z1, z2, z3]
      simp
    rw [hO.div _ _ (by rw [hs]; simpa using hs0), hs, hO.abs, hx, abs_fin]
    simp only [Fp.div, hs0, if_false]
    exact round_not_nan _

/-- The derived bound is a number (or infinite) when the data are of moderate size. -/
theorem deriveLog3_not_nan (hE : IsIeeeE E F vT vD) (hF : F.Ok) {k : Int} (h0 : 0 ≤ k)
    (h1 : 3 * k + 5 ≤ F.emax) (h2 : 3 * k + 12 ≤ 1023) {a b c d : Nat → T}
    (ba : ∀ i, i < 3 → Bd vT k (a i)) (bb : ∀ i, i < 3 → Bd vT k (b i))
    (bc : ∀ i, i < 3 → Bd vT k (c i)) (bd : ∀ i, i < 3 → Bd vT k (d i)) :
    vD (deriveLog3T O E a b c d) ≠ .nan := by
  have hum := (emin_le hF).2.1
  have hzero : vD (O.ofInt 0) ≠ .nan := by rw [hO.zero]; simp
  have hone : vD (O.ofInt 1) ≠ .nan := by rw [hO.one]; simp
  have hm : ∀ {k l : Int} {x y : T}, 0 ≤ k → 0 ≤ l → k + l ≤ F.emax → Bd vT k x → Bd vT l y →
      Bd vT (k + l) (E.mulT x y) := by
    rintro k l x y hk hl hkl ⟨x, x1, x2⟩ ⟨y, y1, y2⟩
    obtain ⟨z, z1, z2⟩ := round_bounded hF (rep_p2 (F := F) (k := k + l) (by omega) hkl) (x := x * y) (by
      rw [abs_mul, p2_add]
      exact mul_le_mul x2 y2 (abs_nonneg _) (p2_pos _).le)
    exact ⟨z, by rw [hE.mulT, x1, y1]; exact z1, z2⟩
  have hn : ∀ {x : T}, Bd vT k x → Bd vT k (E.negT x) := by
    rintro x ⟨y, y1, y2⟩
    exact ⟨-y, by rw [hE.negT, y1]; rfl, by rwa [abs_neg]⟩
  have hm3 : ∀ {l : Int} {x y z : T}, 3 * k ≤ l → Bd vT k x → Bd vT k y → Bd vT k z →
      Bd vT l (E.mulT (E.mulT x y) z) := fun hl hx hy hz =>
    (hm (by omega) h0 (by omega) (hm h0 h0 (by omega) hx hy) hz).mono (by omega)
  have hmm : ∀ {x y z x' y' z' : T}, Bd vT k x → Bd vT k y → Bd vT k z → Bd vT k x' → Bd vT k y' →
      Bd vT k z' → Bd vD (3 * k + 1)
        (O.toD (O.subT (E.mulT (E.mulT x y) z) (E.mulT (E.mulT x' y') z'))) :=
    fun hx hy hz hx' hy' hz' => bd_toD hO (bd_sub hO hF (by omega) (by omega)
      (hm3 (le_refl _) hx hy hz) (hm3 (le_refl _) hx' hy' hz'))
  have hmp : ∀ {x y z x' y' z' : T}, Bd vT k x → Bd vT k y → Bd vT k z → Bd vT k x' → Bd vT k y' →
      Bd vT k z' → Bd vD (3 * k + 1)
        (O.toD (O.addT (E.mulT (E.mulT (E.negT x) y) z) (E.mulT (E.mulT x' y') z'))) :=
    fun hx hy hz hx' hy' hz' => bd_toD hO (bd_add hO hF (by omega) (by omega)
      (hm3 (le_refl _) (hn hx) hy hz) (hm3 (le_refl _) hx' hy' hz'))
  have A0 := ba 0 (by norm_num); have A1 := ba 1 (by norm_num); have A2 := ba 2 (by norm_num)
  have B0 := bb 0 (by norm_num); have B1 := bb 1 (by norm_num); have B2 := bb 2 (by norm_num)
  have C0 := bc 0 (by norm_num); have C1 := bc 1 (by norm_num); have C2 := bc 2 (by norm_num)
  have D0 := bd 0 (by norm_num); have D1 := bd 1 (by norm_num); have D2 := bd 2 (by norm_num)
  unfold deriveLog3T
  simp only
  have u0 := hmp D0 B1 C2 D0 C1 B2
  have u1 := hmp D0 C1 A2 D0 A1 C2
  have u2 := hmp D0 A1 B2 D0 B1 A2
  have v0 := hmm B0 D1 C2 C0 D1 B2
  have v1 := hmm C0 D1 A2 A0 D1 C2
  have v2 := hmm A0 D1 B2 B0 D1 A2
  have w0 := hmp B0 C1 D2 C0 B1 D2
  have w1 := hmm A0 C1 D2 C0 A1 D2
  have w2 := hmp A0 B1 D2 B0 A1 D2
  have c4 : Bd vD (3 * k + 5) (O.toD (O.subT (O.addT (O.subT (O.addT (O.subT
      (E.mulT (E.mulT (a 0) (b 1)) (c 2)) (E.mulT (E.mulT (a 0) (c 1)) (b 2)))
      (E.mulT (E.mulT (b 0) (c 1)) (a 2))) (E.mulT (E.mulT (b 0) (a 1)) (c 2)))
      (E.mulT (E.mulT (c 0) (a 1)) (b 2))) (E.mulT (E.mulT (c 0) (b 1)) (a 2)))) := by
    refine bd_toD hO (Bd.mono (show 3 * k + 1 + 1 + 1 + 1 + 1 ≤ 3 * k + 5 by omega) ?_)
    refine bd_sub hO hF (by omega) (by omega) (bd_add hO hF (by omega) (by omega) (bd_sub hO hF
      (by omega) (by omega) (bd_add hO hF (by omega) (by omega) (bd_sub hO hF (by omega) (by omega)
        (hm3 ?_ A0 B1 C2) (hm3 ?_ A0 C1 B2)) (hm3 ?_ B0 C1 A2)) (hm3 ?_ B0 A1 C2))
        (hm3 ?_ C0 A1 B2)) (hm3 ?_ C0 B1 A2) <;> omega
  have z0 : Bd vD (3 * k + 5) (O.ofInt 0) :=
    ⟨0, hO.zero, by rw [abs_zero]; exact (p2_pos _).le⟩
  generalize O.toD (O.addT (E.mulT (E.mulT (E.negT (d 0)) (b 1)) (c 2))
    (E.mulT (E.mulT (d 0) (c 1)) (b 2))) = u3_0 at *
  generalize O.toD (O.addT (E.mulT (E.mulT (E.negT (d 0)) (c 1)) (a 2))
    (E.mulT (E.mulT (d 0) (a 1)) (c 2))) = u3_1 at *
  generalize O.toD (O.addT (E.mulT (E.mulT (E.negT (d 0)) (a 1)) (b 2))
    (E.mulT (E.mulT (d 0) (b 1)) (a 2))) = u3_2 at *
  generalize O.toD (O.subT (E.mulT (E.mulT (b 0) (d 1)) (c 2))
    (E.mulT (E.mulT (c 0) (d 1)) (b 2))) = v3_0 at *
  generalize O.toD (O.subT (E.mulT (E.mulT (c 0) (d 1)) (a 2))
    (E.mulT (E.mulT (a 0) (d 1)) (c 2))) = v3_1 at *
  generalize O.toD (O.subT (E.mulT (E.mulT (a 0) (d 1)) (b 2))
    (E.mulT (E.mulT (b 0) (d 1)) (a 2))) = v3_2 at *
  generalize O.toD (O.addT (E.mulT (E.mulT (E.negT (b 0)) (c 1)) (d 2))
    (E.mulT (E.mulT (c 0) (b 1)) (d 2))) = w3_0 at *
  generalize O.toD (O.subT (E.mulT (E.mulT (a 0) (c 1)) (d 2))
    (E.mulT (E.mulT (c 0) (a 1)) (d 2))) = w3_1 at *
  generalize O.toD (O.addT (E.mulT (E.mulT (E.negT (a 0)) (b 1)) (d 2))
    (E.mulT (E.mulT (b 0) (a 1)) (d 2))) = w3_2 at *
  generalize O.toD (O.subT (O.addT (O.subT (O.addT (O.subT
      (E.mulT (E.mulT (a 0) (b 1)) (c 2)) (E.mulT (E.mulT (a 0) (c 1)) (b 2)))
      (E.mulT (E.mulT (b 0) (c 1)) (a 2))) (E.mulT (E.mulT (b 0) (a 1)) (c 2)))
      (E.mulT (E.mulT (c 0) (a 1)) (b 2))) (E.mulT (E.mulT (c 0) (b 1)) (a 2))) = M3 at *
  have wd : ∀ {x : D}, Bd vD (3 * k + 1) x → Bd vD (3 * k + 5) x := fun h => h.mono (by omega)
  have ad : ∀ {x y : D}, Bd vD (3 * k + 1) x → Bd vD (3 * k + 1) y → Bd vD (3 * k + 5) (O.add x y) :=
    fun hx hy => (bdD_add hO (by omega) (by omega) hx hy).mono (by omega)
  have ad3 : ∀ {x y z : D}, Bd vD (3 * k + 1) x → Bd vD (3 * k + 1) y → Bd vD (3 * k + 1) z →
      Bd vD (3 * k + 5) (O.add (O.add x y) z) := fun hx hy hz =>
    (bdD_add hO (by omega) (by omega) (bdD_add hO (by omega) (by omega) hx hy)
      (hz.mono (show 3 * k + 1 ≤ 3 * k + 1 + 1 by omega))).mono (by omega)
  have kn : ∀ {x y z w : D}, Bd vD (3 * k + 5) x → Bd vD (3 * k + 5) y → Bd vD (3 * k + 5) z →
      Bd vD (3 * k + 5) w → vD (keepLog3D O.toDOps x y z w) ≠ .nan := fun hx hy hz hw =>
    keepLog3D_ne_nan hO (by omega) (by omega) hx hy hz hw
  have k0 := minf_not_nan (N := O.toDOps) (kn (wd u0) (wd v0) (wd w0) z0)
    (kn (ad u1 u2) (ad v1 v2) (ad w1 w2) c4)
  have k1 := minf_not_nan (N := O.toDOps) (kn (wd u1) (wd v1) (wd w1) z0)
    (kn (ad u0 u2) (ad v0 v2) (ad w0 w2) c4)
  have k2 := minf_not_nan (N := O.toDOps) (kn (wd u2) (wd v2) (wd w2) z0)
    (kn (ad u0 u1) (ad v0 v1) (ad w0 w1) c4)
  have k3 := kn (ad3 u0 u1 u2) (ad3 v0 v1 v2) (ad3 w0 w1 w2) z0
  generalize O.add (O.add u3_0 v3_0) w3_0 = M0
  generalize O.add (O.add u3_1 v3_1) w3_1 = M1
  generalize O.add (O.add u3_2 v3_2) w3_2 = M2
  generalize O.add (O.add (O.add M0 M1) M2) M3 = M
  generalize (eq0G O.toDOps M0 || O.lt (O.ofInt 1) (O.div M M0)) = f0
  generalize (eq0G O.toDOps M1 || O.lt (O.ofInt 1) (O.div M M1)) = f1
  generalize (eq0G O.toDOps M2 || O.lt (O.ofInt 1) (O.div M M2)) = f2
  generalize (eq0G O.toDOps M3 || O.lt (O.ofInt 1) (O.div M M3)) = f3
  have st : ∀ (f : Bool) {x y : D}, vD x ≠ .nan → vD y ≠ .nan →
      vD (if f = true then x else maxfG O.toDOps x y) ≠ .nan := by
    intro f x y hx hy
    split
    · exact hx
    · exact maxf_not_nan hx hy
  split
  · split
    · exact hone
    · exact hzero
  split
  · exact hzero
  exact st f3 (st f2 (st f1 (st f0 hzero k0) k1) k2) k3

/-- The bound of a vertex is at most the bound of the user. -/
theorem loopMin3_ieee {r1 r2 r3 : Nat}
    {derive : (Nat → T) → (Nat → T) → (Nat → T) → (Nat → T) → D} {f : Nat → Nat → T} {Q : T → Prop}
    (hd : ∀ a b c d : Nat → T, (∀ i, i < 3 → Q (a i)) → (∀ i, i < 3 → Q (b i)) →
      (∀ i, i < 3 → Q (c i)) → (∀ i, i < 3 → Q (d i)) → vD (derive a b c d) ≠ .nan)
    (hf : ∀ c q, c < 3 → q < r1 * r2 * r3 → Q (f c q)) {i j k : Nat} {e : ℚ}
    (ns : List Nat) {req r : D} (hr : LeV e (vD req))
    (h : loop3 r1 r2 r3 (minBody O.toDOps derive) f i j k ns req = some r) : LeV e (vD r) := by
  have rd_Q : ∀ {idx : Int} {x : Nat → T}, rdAll (r1 * r2 * r3) f idx = some x →
      ∀ i, i < 3 → Q (x i) := by
    intro idx x hx i hi
    unfold rdAll at hx
    split at hx
    · rename_i h1
      simp only [Option.some.injEq] at hx
      rw [← hx]
      exact hf _ _ hi (by omega)
    · cases hx
  induction ns generalizing req with
  | nil => simp only [loop3, Option.some.injEq] at h; rw [← h]; exact hr
  | cons n ns ih =>
    unfold loop3 at h
    split at h
    · simp only at h
      split at h
      · rename_i a b c d ea eb ec ed
        have hmin : LeV e (vD (if O.lt req (derive a b c d) = true then req else derive a b c d)) :=
          minf_le hO hr (hd a b c d (rd_Q ea) (rd_Q eb) (rd_Q ec) (rd_Q ed))
        unfold minBody at h
        exact ih hmin h
      · cases h
    · exact ih hr h

end
end formula

section
variable {F : Fmt} {tr : Pat binary64 → Int} {lg : Pat binary64 → Pat binary64}
  {lgT exT : Pat F → Pat F} {eps : ℚ}

/-- The plan of a 3D log mode: what is tried is the logarithm of 1 plus the bound. -/
theorem planLog3_bits (hF : F.Ok) (hp : F.p ≤ binary64.p) (hu : binary64.umin ≤ F.umin)
    (hemax : F.emax ≤ binary64.emax) (hlg : LogOk lg eps) {tiny : Pat binary64} {esc : Int}
    {bound : Arr (Pat F) → Nat → Option (Pat binary64)} {s : State (Pat F)} {p : Nat}
    {a : Pat binary64} {id : Int} {e : ℚ} (her : e ≤ 1)
    (hb : ∀ req, bound s.val p = some req → LeV e (dec binary64 req))
    (h : planLog3 (bitsL F tr lg lgT exT) tiny esc bound s p = some (.try a id)) :
    ∃ b x, a = lg b ∧ dec binary64 b = .fin x ∧ 1 ≤ x ∧ x ≤ (1 + p2 (-53)) * (1 + e) := by
  have hO := bits_ieee hF hp hu hemax tr hlg
  rcases planLog3_cases h with h | ⟨req0, req, hreq, hor, hpos, h⟩
  · cases h
  cases h
  have hzero : dec binary64 ((bitsL F tr lg lgT exT).ofInt 0) = .fin 0 := hO.zero
  have hpos' : Fp.lt (.fin 0) (dec binary64 req) = true := by
    have h' : (bitsL F tr lg lgT exT).lt ((bitsL F tr lg lgT exT).ofInt 0) req =
      Fp.lt (dec binary64 ((bitsL F tr lg lgT exT).ofInt 0)) (dec binary64 req) := hO.lt _ _
    rw [hzero, hpos] at h'
    exact h'.symm
  have hreq0 : req = req0 := by
    rcases hor with h1 | h1
    · exact h1
    · rw [h1, hzero] at hpos'; simp [Fp.lt] at hpos'
  subst hreq0
  obtain ⟨x, x1, x2, x3⟩ : ∃ x, dec binary64 req = .fin x ∧ 0 < x ∧ x ≤ e := by
    rcases hb req hreq with h' | ⟨x, hx, hle⟩
    · rw [h'] at hpos'; simp [Fp.lt] at hpos'
    · rw [hx] at hpos'
      exact ⟨x, hx, by simpa [Fp.lt] using hpos', hle⟩
  have e2 : p2 1 = 2 := by rw [p2_eq]; norm_num
  obtain ⟨y, y1, y2⟩ := round_bounded ok64 (b := p2 1) (rep_p2 (by decide) (by decide))
    (x := 1 + x) (by rw [e2, abs_of_pos (by linarith)]; linarith)
  have hadd : dec binary64 ((bitsL F tr lg lgT exT).add ((bitsL F tr lg lgT exT).ofInt 1) req)
      = .fin y := by
    refine (hO.add _ _).trans ?_
    have : dec binary64 ((bitsL F tr lg lgT exT).ofInt 1) = .fin 1 := hO.one
    rw [this, x1]
    exact y1
  refine ⟨_, y, rfl, hadd, ?_, ?_⟩
  · exact round_ge ok64 (b := 1)
      (by simpa [p2_zero] using rep_p2 (F := binary64) (k := 0) (by decide) (by decide))
      zero_le_one (by linarith) y1
  · have h3 := rmag_rel (F := binary64) (x := 1 + x)
      ((p2_le (show binary64.emin ≤ 0 by decide)).trans (by rw [p2_zero]; linarith))
    obtain ⟨h4, -, h5, -⟩ := round_fin y1
    rw [abs_of_nonneg (h5 (by linarith)), abs_of_pos (by linarith)] at h4
    rw [← h4] at h3
    have h6 := (abs_le.1 h3).2
    have e53 : p2 (-(binary64.p : Int)) = p2 (-53) := rfl
    rw [e53] at h6
    have := p2_pos (-53)
    nlinarith

/-- `log2(1.0 / threshold)` exact. -/
theorem escMax_bits (hF : F.Ok) (hp : F.p ≤ binary64.p) (hu : binary64.umin ≤ F.umin)
    (hemax : F.emax ≤ binary64.emax) (hlg : LogOk lg eps) {lb thr : Pat binary64}
    (hlb : dec binary64 lb = .fin 1) (hthr : dec binary64 thr = .fin (p2 (-23)))
    (h23 : ∀ a, dec binary64 a = .fin (p2 23) → dec binary64 (lg a) = .fin 23) :
    escMax (bitsL F tr lg lgT exT).toDOps lb thr = 24 := by
  have hO := bits_ieee hF hp hu hemax tr hlg
  have h1 : dec binary64 ((bitsOps F tr lg).ofInt 1) = .fin 1 := hO.one
  have hpos := p2_pos (-23)
  have hq : dec binary64 ((bitsOps F tr lg).div ((bitsOps F tr lg).ofInt 1) thr) = .fin (p2 23) := by
    rw [hO.div _ _ (by rw [hthr]; simpa using hpos.ne'), h1, hthr]
    simp only [Fp.div, hpos.ne', if_false]
    have : (1 : ℚ) / p2 (-23) = p2 23 := by
      rw [div_eq_iff hpos.ne', ← p2_add]; simp [p2_zero]
    rw [this]
    exact round_rep ok64 (rep_p2 (by decide) (by decide))
  have hl := h23 _ hq
  have hz : dec binary64 ((bitsOps F tr lg).div (lg ((bitsOps F tr lg).div
      ((bitsOps F tr lg).ofInt 1) thr)) lb) = .fin 23 := by
    rw [hO.div _ _ (by rw [hlb]; simp), hl, hlb]
    simp only [Fp.div, one_ne_zero, if_false, div_one]
    exact round_rep ok64 (hO.repD _ _ hl)
  have ht := hO.trunc _ _ hz (by norm_num)
  unfold escMax
  change (bitsOps F tr lg).trunc ((bitsOps F tr lg).div (lg ((bitsOps F tr lg).div
      ((bitsOps F tr lg).ofInt 1) thr)) lb) + 1 = 24
  rw [ht]
  unfold truncQ
  norm_num

/-- A number of magnitude between `2^-97` and `2^r`. -/
def LogNz (F : Fmt) (r : Int) (x : Pat F) : Prop :=
  ∃ X : ℚ, dec F x = .fin X ∧ p2 (-97) ≤ |X| ∧ |X| ≤ p2 r

/-- The run of a 3D log mode, for data between `2^-97` and `2^r` and a bound computation that
yields at most the bound of the user. -/
theorem log3_run (hF : F.Ok) (hp : F.p ≤ binary64.p) (hu : binary64.umin ≤ F.umin)
    (hemax : F.emax ≤ binary64.emax) (hemin : F.emin ≤ -23) (hlg : LogOk lg eps) (hup : LogUp lg)
    (H : ExpLogOk F lgT exT) (he0 : 0 ≤ eps) (he1 : eps ≤ p2 (-31)) {r : Int} (h1 : r ≤ 124)
    {lb thr tiny : Pat binary64} (hlb : dec binary64 lb = .fin 1)
    (hthr : dec binary64 thr = .fin (p2 (-23))) {esc : Int} (hesc : 0 ≤ esc ∧ esc ≤ 30)
    {pred : (Nat → Pat F) → Nat → Pat F}
    {bound : Arr (Pat F) → Nat → Option (Pat binary64)} {e : ℚ} (hep : 0 ≤ e) (her : e ≤ 1)
    {n : Nat} (hb : ∀ (f : Arr (Pat F)) p req, p < n →
      (∀ c q, c < 3 → q < n → Bd (dec F) (r + 2) (f c q)) → bound f p = some req →
        LeV e (dec binary64 req))
    {data : Arr (Pat F)} {s' : State (Pat F)} {str : VMode.Streams (Pat F)}
    (hf : ∀ c q, c < 3 → q < n → LogNz F r (data c q))
    (h : VMode.compress (logMode3 (bitsL F tr lg lgT exT) lb thr pred 2 32768)
      (planLog3 (bitsL F tr lg lgT exT) tiny esc bound) n data = some (s', str)) :
    (∀ c q, c < 3 → q < n → LogCl F e (s'.val c q) (data c q) ∧
      ∃ l, dec F (s'.cod c q) = .fin l ∧ -99 ≤ l) ∧
    (∀ x ∈ str.eb, 0 ≤ x ∧ x ≤ 30) ∧ (∀ x ∈ str.dq, 0 ≤ x ∧ x ≤ 65536) ∧
    VMode.compress (logMode3 (bitsL F tr lg lgT exT) lb thr pred 2 32768)
      (guardPlan (logMode3 (bitsL F tr lg lgT exT) lb thr pred 2 32768) 24
        (planLog3 (bitsL F tr lg lgT exT) tiny esc bound)) n data = some (s', str) := by
  have hM : LogModeB (logMode3 (bitsL F tr lg lgT exT) lb thr pred 2 32768)
      (bitsL F tr lg lgT exT) := ⟨rfl, rfl, hlb, hthr, rfl, rfl, rfl, rfl⟩
  have hnz : ∀ c q, c < 3 → q < n → dec F (data c q) ≠ .fin 0 := by
    intro c q hc hq hz
    obtain ⟨X, x1, x2, -⟩ := hf c q hc hq
    rw [x1] at hz
    cases hz
    have := p2_pos (-97)
    rw [abs_zero] at x2
    linarith
  obtain ⟨g, st, ws, R, rfl, hw, rfl⟩ := stateLogB_run hF hp hu hemax hemin hlg hup he0 he1 H hep her
    hM h1 (data := data) (fun c q hc hq => by
      obtain ⟨X, x1, x2, x3⟩ := hf c q hc hq
      exact ⟨X, x1, Or.inr x2, x3⟩)
    (fun s p a id hpn _ hbd hpl =>
      ⟨planLog3_bits hF hp hu hemax hlg her (fun req hr => hb _ p req hpn hbd hr) hpl,
        fun c hc => hnz c p hc hpn⟩)
    (fun s p id hid => by
      have : id = 0 ∨ id = esc := by
        rcases hid with hid | ⟨a, hid⟩ <;>
          rcases planLog3_cases hid with h' | ⟨_, _, _, _, _, h'⟩ <;> cases h'
        · exact Or.inl rfl
        · exact Or.inr rfl
      rcases this with rfl | rfl
      · exact ⟨le_refl _, by norm_num⟩
      · exact hesc) h
  refine ⟨fun c q hc hq => ⟨(g c q hc hq).1, (g c q hc hq).2 (hnz c q hc hq)⟩, ?_, ?_, ?_⟩
  · intro x hx
    obtain ⟨w, hw1, hxw⟩ := List.mem_flatMap.1 hx
    exact (hw w hw1).1 x hxw
  · intro x hx
    obtain ⟨w, hw1, hxw⟩ := List.mem_flatMap.1 hx
    exact (hw w hw1).2.1 x hxw
  · exact compress_of_run (R.guard fun w hm he x hx => by
      have := (hw w hm).2.2 he x hx
      omega)

/-- The changed plan of a 3D log mode never codes a bound as an escape. -/
theorem good_guard3 (hF : F.Ok) {lb thr tiny : Pat binary64} {esc : Int}
    (h24 : escMax (bitsL F tr lg lgT exT).toDOps lb thr = 24)
    (hesc : esc = 0 ∨ esc = 24) {pred : (Nat → Pat F) → Nat → Pat F}
    (hpred : ∀ f g p, (∀ q, q < p → f q = g q) → pred f p = pred g p)
    (bound : Arr (Pat F) → Nat → Option (Pat binary64)) (n : Nat) :
    Good (logMode3 (bitsL F tr lg lgT exT) lb thr pred 2 32768)
      (guardPlan (logMode3 (bitsL F tr lg lgT exT) lb thr pred 2 32768) 24
        (planLog3 (bitsL F tr lg lgT exT) tiny esc bound)) n := by
  have ids : ∀ s p id, (planLog3 (bitsL F tr lg lgT exT) tiny esc bound s p = some (.lossless id) ∨
      ∃ a, planLog3 (bitsL F tr lg lgT exT) tiny esc bound s p = some (.try a id)) →
      id = 0 ∨ id = 24 := by
    intro s p id hid
    rcases hid with hid | ⟨a, hid⟩ <;>
      rcases planLog3_cases hid with h' | ⟨_, _, _, _, _, h'⟩ <;> cases h'
    · exact Or.inl rfl
    · exact hesc
  have isE : ∀ id : Int, id = 0 ∨ id = 24 →
      (logMode3 (bitsL F tr lg lgT exT) lb thr pred 2 32768).isEsc id = true := by
    intro id h
    simp only [logMode3, h24, Bool.or_eq_true, beq_iff_eq]
    exact h
  constructor
  · exact hpred
  · exact logFwd_eq (bitsL_laws hF)
  · intro s p id h
    apply isE
    rcases guardPlan_cases h with ⟨id', h1, h2⟩ | ⟨a, id', h1, -⟩
    · cases h1; exact ids s p _ h2
    · cases h1
  · intro s p a id h
    apply isE
    rcases guardPlan_cases h with ⟨id', h1, -⟩ | ⟨a, id', h1, h2, -⟩
    · cases h1
    · cases h1; exact ids s p _ (Or.inr ⟨_, h2⟩)
  · intro s p a id _ h hpos
    rcases guardPlan_cases h with ⟨id', h1, -⟩ | ⟨a, id', h1, h2, h3⟩
    · cases h1
    · cases h1
      simp only [logMode3, h24, Bool.or_eq_false_iff, beq_eq_false_iff_ne, ne_eq] at hpos h3 ⊢
      exact ⟨by omega, h3⟩

end
end CpSZ.Ieee
