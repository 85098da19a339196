import Verif.Sz3.Lockstep
import Verif.Online2D.Abs
/-
The interpolation based mode in exact arithmetic.
-/

namespace CpSZ.Sz3
open Mesh2D

/-- Exact arithmetic. -/
noncomputable def realS : SOps ℝ ℝ := ⟨realD, realD, id⟩

/-- Rounded arithmetic: element operations rounded by `rT`, `double` operations by `rD`. -/
noncomputable def roundedS (rT rD lg : ℝ → ℝ) : SOps ℝ ℝ :=
  ⟨(roundedOps rT rD lg).toDOps, (roundedOps rT rT lg).toDOps, rT⟩

/-- The constants (src/sz_compress_cp_preserve_2d.cpp L1719-1722, L1759, L1766, L1770-1774). -/
noncomputable def parSz3 (maxEb : ℝ) : Par ℝ where
  base := 4
  logBase := Real.logb 2 4
  thr := (2 : ℝ) ^ (-52 : ℤ)
  capacity := 65536
  ebFull := maxEb
  ebHalf := maxEb * (1 / 2)

/-- `derive_eb_abs_online_2d` in exact arithmetic.  (src/sz_compress_cp_preserve_2d.cpp L1540-1561.)
-/
noncomputable def boundSz3 (r1 r2 : Nat) (f : Fld ℝ) (e : Ev) (eb : ℝ) : Option ℝ :=
  (deriveEb r1 r2 minfX deriveAbs f e (some eb)).map (·.getD 0)

/-- The compressor in exact arithmetic (src/sz_compress_cp_preserve_2d.cpp L1711-1793). -/
noncomputable def compressSz3 (r1 r2 : Nat) (maxEb : ℝ) (m : Fld ℝ) :
    Option (Fld ℝ × Streams ℝ) :=
  compress realS (parSz3 maxEb) r1 r2 (boundSz3 r1 r2) m

/-- The decompressor in exact arithmetic (src/sz_decompress_cp_preserve_2d.cpp L341-366). -/
noncomputable def decompressSz3 (r1 r2 : Nat) (m0 : Fld ℝ) (s : Streams ℝ) : Option (Fld ℝ) :=
  decompress realS 4 ((2 : ℝ) ^ (-52 : ℤ)) 32768 r1 r2 m0 s

theorem sane_rounded {rT rD lg : ℝ → ℝ} (hT : IsRounding rT) (hD : IsRounding rD) (base : Int)
    (thr : ℝ) (hb : 0 ≤ base) (ht : 0 ≤ thr) (radius : Int) :
    Sane (roundedS rT rD lg) base thr radius := by
  have t0 : rT 0 = 0 := by simpa using hT.int 0 (by norm_num)
  have d0 : rD 0 = 0 := by simpa using hD.int 0 (by norm_num)
  have tp : ∀ x, 0 ≤ x → 0 ≤ rT x := fun x hx => by rw [← t0]; exact hT.mono hx
  have dp : ∀ x, 0 ≤ x → 0 ≤ rD x := fun x hx => by rw [← d0]; exact hD.mono hx
  constructor
  · simp [isZero, roundedS, roundedOps, t0, d0]
  · rintro x id t rfl
    left
    simp only [roundedS, roundedOps]
    have hbR : (0 : ℝ) ≤ (base : ℝ) := by exact_mod_cast hb
    rw [truncR_nonneg]
    · exact Int.floor_nonneg.2 (tp _ (div_nonneg (abs_nonneg _)
        (tp _ (dp _ (mul_nonneg (dp _ (zpow_nonneg hbR _)) ht)))))
    · exact tp _ (div_nonneg (abs_nonneg _)
        (tp _ (dp _ (mul_nonneg (dp _ (zpow_nonneg hbR _)) ht))))

theorem roundedS_id : roundedS id id (Real.logb 2) = realS := rfl

theorem sane_real (maxEb : ℝ) : Sane realS (parSz3 maxEb).base (parSz3 maxEb).thr
    (parSz3 maxEb).radius := by
  rw [← roundedS_id]
  exact sane_rounded .id .id _ _ (by simp [parSz3]) (by simp only [parSz3]; positivity) _

/-! ### Definedness -/

theorem deriveLoop_eq {T D : Type} (r1 r2 : Nat) (minf : D → D → D)
    (derive : T → T → T → T → T → T → D) (f : Fld T) (e : Ev) (ks : List Nat) (req : D)
    (hp : e.pos = e.row * r2 + e.col) (hc : e.col < r2) :
    deriveLoop r1 r2 minf derive f e ks req =
      requiredLoop r1 r2 minf (fun _ => derive) f e.pos ks req := by
  have h1 : e.pos / r2 = e.row := by
    rw [hp, Nat.add_comm, Nat.add_mul_div_right _ _ (by omega), Nat.div_eq_of_lt hc, Nat.zero_add]
  have h2 : e.pos % r2 = e.col := by
    rw [hp, Nat.add_comm, Nat.add_mul_mod_self_right, Nat.mod_eq_of_lt hc]
  induction ks generalizing req with
  | nil => rfl
  | cons k ks ih =>
    simp only [deriveLoop, requiredLoop, h1, h2, ih]
    split
    · generalize rd (r1 * r2) f.u (↑e.pos + offsets r2 k) = a
      generalize rd (r1 * r2) f.u (↑e.pos + offsets r2 (k + 1)) = b
      generalize rd (r1 * r2) f.v (↑e.pos + offsets r2 k) = c
      generalize rd (r1 * r2) f.v (↑e.pos + offsets r2 (k + 1)) = d
      cases a <;> cases b <;> cases c <;> cases d <;> rfl
    · rfl

/-- A vertex of the plan: in the grid and addressed correctly. -/
def Ev.ok (r1 r2 : Nat) (e : Ev) : Prop :=
  e.row < r1 ∧ e.col < r2 ∧ e.pos = e.row * r2 + e.col

theorem plan_ok {r1 r2 : Nat} (h1 : 0 < r1) (h2 : 0 < r2) : ∀ e ∈ planEnc r1 r2, e.ok r1 r2 := by
  intro e he
  have := (plan_mem h1 h2 e.rc).1 (List.mem_map.2 ⟨e, he, rfl⟩)
  exact ⟨this.1, this.2, plan_pos e he⟩

/-- The bound is at most the given one and at most that of every incident triangle. -/
theorem boundSz3_spec {r1 r2 : Nat} {f : Fld ℝ} {e : Ev} (he : e.ok r1 r2) (eb : ℝ) :
    ∃ req, boundSz3 r1 r2 f e eb = some req ∧ req ≤ eb ∧
      ∀ k, k < 6 → inMesh r1 r2 (e.pos / r2) (e.pos % r2) k = true → ∃ E,
        deriveAbs (f.u (nbr r2 e.pos k)) (f.u (nbr r2 e.pos (k + 1))) (f.u e.pos)
          (f.v (nbr r2 e.pos k)) (f.v (nbr r2 e.pos (k + 1))) (f.v e.pos) = some E ∧ req ≤ E := by
  obtain ⟨hi, hj, hp⟩ := he
  have h1 : e.pos / r2 = e.row := by
    rw [hp, Nat.add_comm, Nat.add_mul_div_right _ _ (by omega), Nat.div_eq_of_lt hj, Nat.zero_add]
  have h2 : e.pos % r2 = e.col := by
    rw [hp, Nat.add_comm, Nat.add_mul_mod_self_right, Nat.mod_eq_of_lt hj]
  obtain ⟨E, hE, hle, hall⟩ := requiredLoop_le r1 r2 (fun _ => deriveAbs) f e.row e.col
    hi hj [0, 1, 2, 3, 4, 5] (by simp) eb (fun k hk _ => by
      obtain ⟨E, hE, -⟩ := deriveAbs_cases (u0 := f.u (nbr r2 (e.row * r2 + e.col) k))
        (u1 := f.u (nbr r2 (e.row * r2 + e.col) (k + 1))) (u2 := f.u (e.row * r2 + e.col))
        (v0 := f.v (nbr r2 (e.row * r2 + e.col) k))
        (v1 := f.v (nbr r2 (e.row * r2 + e.col) (k + 1))) (v2 := f.v (e.row * r2 + e.col))
      rw [hE]; simp)
  rw [← hp] at hE hall
  refine ⟨E, ?_, hle, fun k hk hm => hall k (by simp; omega) (by rwa [h1, h2] at hm)⟩
  unfold boundSz3 deriveEb
  rw [deriveLoop_eq _ _ _ _ _ _ _ _ hp hj, hE]
  rfl

theorem readAll_defined {T : Type} {n : Nat} {f : Nat → T} {ps : List Int}
    (h : ∀ p ∈ ps, ∃ q : Nat, p = q ∧ q < n) :
    ∃ xs, readAll n f ps = some xs ∧ xs.length = ps.length := by
  induction ps with
  | nil => exact ⟨[], rfl, rfl⟩
  | cons p ps ih =>
    obtain ⟨xs, hx, hl⟩ := ih fun p' hp' => h p' (by simp [hp'])
    obtain ⟨q, rfl, hq⟩ := h p (by simp)
    exact ⟨f q :: xs, by simp only [readAll, rd_nat n f q hq, hx], by simp [hl]⟩

theorem predict_defined {T : Type} {N : DOps T} {n : Nat} {f : Nat → T} {e : DEv}
    (h : ∀ p ∈ e.reads, ∃ q : Nat, p = q ∧ q < n) : ∃ x, predict N n f e = some x := by
  obtain ⟨xs, hx, hl⟩ := readAll_defined (f := f) h
  unfold predict
  rw [hx]
  simp only [DEv.reads, List.length_map] at hl
  cases hk : e.kind <;> rw [hk] at hl <;> simp only [Interp.reads, List.length_cons,
    List.length_nil, List.length_eq_zero_iff] at hl
  · subst hl; exact ⟨_, rfl⟩
  · match xs, hl with
    | [_], _ => exact ⟨_, rfl⟩
  · match xs, hl with
    | [_, _], _ => exact ⟨_, rfl⟩
  · match xs, hl with
    | [_, _, _], _ => exact ⟨_, rfl⟩
  · match xs, hl with
    | [_, _, _], _ => exact ⟨_, rfl⟩
  · match xs, hl with
    | [_, _, _, _], _ => exact ⟨_, rfl⟩

theorem encAll_defined {T D : Type} {S : SOps T D} {P : Par D} {n : Nat}
    {bound : Fld T → Ev → D → Option D} {es : List Ev} {done : Nat → Prop}
    (hC : Causal done es) (hd : ∀ q, done q → q < n) (hp : ∀ e ∈ es, e.pos < n)
    (hb : ∀ e ∈ es, ∀ f eb, ∃ req, bound f e eb = some req) (f : Fld T) :
    ∃ f' cs, encAll S P n bound es f = some (f', cs) := by
  induction es generalizing done f with
  | nil => exact ⟨f, [], rfl⟩
  | cons e es ih =>
    obtain ⟨req, hreq⟩ := hb e (by simp) f (if e.half then P.ebHalf else P.ebFull)
    have hr : ∀ p ∈ e.toD.reads, ∃ q : Nat, p = q ∧ q < n := fun p hp => by
      obtain ⟨q, rfl, hq⟩ := hC.1 p hp
      exact ⟨q, rfl, hd q hq⟩
    obtain ⟨pu, hpu⟩ := predict_defined (N := S.t) (f := f.u) hr
    obtain ⟨pv, hpv⟩ := predict_defined (N := S.t) (f := f.v) hr
    have h1 : ∃ f1 c, encEv S P n bound f e = some (f1, c) := by
      unfold encEv
      rw [hreq]
      simp only [hpu, hpv]
      exact ⟨_, _, rfl⟩
    obtain ⟨f1, c, h1⟩ := h1
    obtain ⟨f2, cs, h2⟩ := ih hC.2 (fun q hq => hq.elim (hd q) (fun h => h ▸ hp e (by simp)))
      (fun e' he' => hp e' (by simp [he'])) (fun e' he' => hb e' (by simp [he'])) f1
    exact ⟨f2, c :: cs, by simp only [encAll, h1, h2]⟩

/-! ### One vertex -/

theorem isZero_real (x : ℝ) : isZero realS.t x = decide (x = 0) := by
  simp only [isZero, realS, realD, Int.cast_zero]
  rw [← Bool.decide_and, decide_eq_decide]
  constructor
  · rintro ⟨a, b⟩; exact le_antisymm a b
  · rintro rfl; exact ⟨le_refl _, le_refl _⟩

/-- The quantiser keeps the value or moves it by at most the bound. -/
theorem quantT_real (radius : Int) (cur pred eb : ℝ) :
    (quantT realS.t radius cur pred eb).2.1 = cur ∨
      (eb ≠ 0 ∧ |(quantT realS.t radius cur pred eb).2.1 - cur| ≤ eb) := by
  unfold quantT
  rw [isZero_real]
  by_cases hz : eb = 0
  · left; simp [hz]
  simp only [hz, decide_false, Bool.false_eq_true, if_false]
  split
  · split_ifs with hneg h2 h2
    · exact Or.inl rfl
    · right
      refine ⟨hz, ?_⟩
      simp only [realS, realD, decide_eq_true_eq, not_lt] at h2 ⊢
      exact h2
    · exact Or.inl rfl
    · right
      refine ⟨hz, ?_⟩
      simp only [realS, realD, decide_eq_true_eq, not_lt] at h2 ⊢
      exact h2
  · exact Or.inl rfl

/-- Effect of one vertex in exact arithmetic. -/
theorem encEv_real {r1 r2 : Nat} {maxEb : ℝ} {f f' : Fld ℝ} {e : Ev} {c : Code ℝ}
    (h : encEv realS (parSz3 maxEb) (r1 * r2) (boundSz3 r1 r2) f e = some (f', c)) :
    ∃ req x y, boundSz3 r1 r2 f e (if e.half then maxEb * (1 / 2) else maxEb) = some req ∧
      f' = f.set e.pos x y ∧
      ((x = f.u e.pos ∧ y = f.v e.pos) ∨ (0 < req ∧ ∃ k : ℕ,
        (4 : ℝ) ^ k * (2 : ℝ) ^ (-52 : ℤ) ≤ req ∧
        |x - f.u e.pos| ≤ (4 : ℝ) ^ k * (2 : ℝ) ^ (-52 : ℤ) ∧
        |y - f.v e.pos| ≤ (4 : ℝ) ^ k * (2 : ℝ) ^ (-52 : ℤ))) := by
  unfold encEv at h
  split at h
  · cases h
  rename_i req hreq
  simp only at h
  split at h
  · rename_i pu pv hpu hpv
    simp only [Option.some.injEq, Prod.mk.injEq] at h
    obtain ⟨rfl, -⟩ := h
    refine ⟨req, _, _, hreq, rfl, ?_⟩
    have hthr : (0 : ℝ) < (2 : ℝ) ^ (-52 : ℤ) := by positivity
    obtain ⟨s1, -, s3, s4⟩ := ebQuant_spec 4 (by norm_num) ((2 : ℝ) ^ (-52 : ℤ)) req hthr
    simp only [Int.cast_ofNat] at s1 s3 s4
    have hq1 := quantT_real (parSz3 maxEb).radius (f.u e.pos) pu
      (realS.conv (ebQuant realS.d (parSz3 maxEb).base (parSz3 maxEb).logBase (parSz3 maxEb).thr
        req).1)
    have hq2 := quantT_real (parSz3 maxEb).radius (f.v e.pos) pv
      (realS.conv (ebQuant realS.d (parSz3 maxEb).base (parSz3 maxEb).logBase (parSz3 maxEb).thr
        req).1)
    set X := (quantT realS.t (parSz3 maxEb).radius (f.u e.pos) pu
      (realS.conv (ebQuant realS.d (parSz3 maxEb).base (parSz3 maxEb).logBase (parSz3 maxEb).thr
        req).1)).2.1
    set Y := (quantT realS.t (parSz3 maxEb).radius (f.v e.pos) pv
      (realS.conv (ebQuant realS.d (parSz3 maxEb).base (parSz3 maxEb).logBase (parSz3 maxEb).thr
        req).1)).2.1
    simp only [realS, parSz3, id_eq] at hq1 hq2
    rcases lt_or_ge ((2 : ℝ) ^ (-52 : ℤ)) req with hlt | hge
    · right
      obtain ⟨t1, t2, -⟩ := s3 hlt
      obtain ⟨k, hk⟩ : ∃ k : ℕ, (ebQuant realD 4 (Real.logb 2 4) ((2 : ℝ) ^ (-52 : ℤ)) req).2 =
        (k : ℤ) := ⟨_, (Int.toNat_of_nonneg s1).symm⟩
      rw [hk, zpow_natCast] at t1
      rw [t1] at t2 hq1 hq2
      have hpos : (0 : ℝ) < 4 ^ k * (2 : ℝ) ^ (-52 : ℤ) := by positivity
      refine ⟨hthr.trans hlt, k, t2, ?_, ?_⟩
      · rcases hq1 with h | h
        · rw [h, sub_self, abs_zero]; exact hpos.le
        · exact h.2
      · rcases hq2 with h | h
        · rw [h, sub_self, abs_zero]; exact hpos.le
        · exact h.2
    · left
      rw [s4 hge] at hq1 hq2
      simp only [ne_eq, not_true_eq_false, false_and, or_false] at hq1 hq2
      exact ⟨hq1, hq2⟩
  · cases h

/-! ### Invariant -/

/-- The run: working copy before each vertex. -/
noncomputable def trace {T D : Type} (S : SOps T D) (P : Par D) (n : Nat)
    (bound : Fld T → Ev → D → Option D) : List Ev → Fld T → List (Fld T × Ev)
  | [], _ => []
  | e :: es, f => (f, e) ::
    match encEv S P n bound f e with
    | none => []
    | some (f', _) => trace S P n bound es f'

structure Inv (r1 r2 : Nat) (maxEb : ℝ) (m : Fld ℝ) (todo : List Nat) (f : Fld ℝ) : Prop where
  later : ∀ q ∈ todo, f.u q = m.u q ∧ f.v q = m.v q
  close : ∀ q, (f.u q = m.u q ∨ |f.u q - m.u q| ≤ maxEb) ∧ (f.v q = m.v q ∨ |f.v q - m.v q| ≤ maxEb)
  cp : ∀ t : Tri, t.inGrid r1 r2 → t.hasCP r2 m → t.hasCP r2 f
  exact : ∀ t : Tri, t.inGrid r1 r2 → t.hasCP r2 m → ∀ P ∈ t.verts,
    f.u (P.1 * r2 + P.2) = m.u (P.1 * r2 + P.2) ∧ f.v (P.1 * r2 + P.2) = m.v (P.1 * r2 + P.2)

theorem set_self (f : Fld ℝ) (p : Nat) : f.set p (f.u p) (f.v p) = f := by
  obtain ⟨u, v⟩ := f
  simp only [Online2D.Field.set, Online2D.Field.mk.injEq]
  constructor <;> funext q <;> simp only [Online2D.setAt] <;> split <;> simp_all

/-- A vertex that moves is not a vertex of a triangle with a critical point. -/
theorem no_cp_of_bound {r1 r2 : Nat} {f : Fld ℝ} {e : Ev} (he : e.ok r1 r2) {eb req : ℝ}
    (hreq : boundSz3 r1 r2 f e eb = some req) (hpos : 0 < req) (k : Nat) (hk : k < 6)
    (hm : inMesh r1 r2 (e.pos / r2) (e.pos % r2) k = true) :
    ¬ HasCP (f.u (nbr r2 e.pos k), f.v (nbr r2 e.pos k))
        (f.u (nbr r2 e.pos (k + 1)), f.v (nbr r2 e.pos (k + 1))) (f.u e.pos, f.v e.pos) ∧
      ∀ x y, |x - f.u e.pos| < req → |y - f.v e.pos| < req →
      ¬ HasCP (f.u (nbr r2 e.pos k), f.v (nbr r2 e.pos k))
        (f.u (nbr r2 e.pos (k + 1)), f.v (nbr r2 e.pos (k + 1))) (x, y) := by
  obtain ⟨req', hr', -, hall⟩ := boundSz3_spec (f := f) he eb
  rw [hreq] at hr'
  cases hr'
  obtain ⟨E, hE, hle⟩ := hall k hk hm
  obtain ⟨E', hE', hs⟩ := deriveAbs_cases (u0 := f.u (nbr r2 e.pos k))
    (u1 := f.u (nbr r2 e.pos (k + 1))) (u2 := f.u e.pos) (v0 := f.v (nbr r2 e.pos k))
    (v1 := f.v (nbr r2 e.pos (k + 1))) (v2 := f.v e.pos)
  rw [hE] at hE'
  cases hE'
  exact hs req hpos hle

theorem no_cp_of_vertex {r1 r2 : Nat} {f : Fld ℝ} {e : Ev} (he : e.ok r1 r2) {eb req : ℝ}
    (hreq : boundSz3 r1 r2 f e eb = some req) (hpos : 0 < req) (t : Tri) (ht : t.inGrid r1 r2)
    (hc : t.hasCP r2 f) (P : Nat × Nat) (hP : P ∈ t.verts) : P.1 * r2 + P.2 ≠ e.pos := by
  intro hPe
  obtain ⟨hi, hj, hp⟩ := id he
  have h1 : e.pos / r2 = e.row := by
    rw [hp, Nat.add_comm, Nat.add_mul_div_right _ _ (by omega), Nat.div_eq_of_lt hj, Nat.zero_add]
  have h2 : e.pos % r2 = e.col := by
    rw [hp, Nat.add_comm, Nat.add_mul_mod_self_right, Nat.mod_eq_of_lt hj]
  have hcol : P.2 < r2 := by
    unfold Tri.inGrid at ht
    unfold Tri.verts at hP
    split at hP <;> simp only [List.mem_cons, List.not_mem_nil, or_false] at hP <;>
      rcases hP with rfl | rfl | rfl <;> simp only <;> omega
  obtain ⟨e1, e2⟩ := flat_inj hcol hj (hPe.trans hp)
  have hv : (e.row, e.col) ∈ t.verts := by rw [← e1, ← e2]; exact hP
  obtain ⟨k, hk, hm, htk, -⟩ := incident_unique r1 r2 _ _ t hi hj ht hv
  obtain ⟨-, -, -, -, hcp, -⟩ := tri_flat r1 r2 e.row e.col k hi hj hk hm
  rw [htk, ← hp] at hcp
  exact (no_cp_of_bound he hreq hpos k hk (by rw [h1, h2]; exact hm)).1 ((hcp f).1 hc)

theorem hasCP_congr {r2 : Nat} {t : Tri} {f g : Fld ℝ}
    (h : ∀ P ∈ t.verts, f.u (P.1 * r2 + P.2) = g.u (P.1 * r2 + P.2) ∧
      f.v (P.1 * r2 + P.2) = g.v (P.1 * r2 + P.2)) : t.hasCP r2 f ↔ t.hasCP r2 g := by
  have hv : ∀ q, q < 3 → t.vec r2 f q = t.vec r2 g q := by
    intro q hq
    have hm : t.verts.getD q (0, 0) ∈ t.verts := by
      have h3 : q = 0 ∨ q = 1 ∨ q = 2 := by omega
      unfold Tri.verts
      rcases h3 with rfl | rfl | rfl <;> split <;> simp
    simp only [Tri.vec, gridVal, (h _ hm).1, (h _ hm).2]
  unfold Tri.hasCP
  rw [hv 0 (by omega), hv 1 (by omega), hv 2 (by omega)]

theorem inv_step {r1 r2 : Nat} {maxEb : ℝ} {m f f' : Fld ℝ} {e : Ev} {c : Code ℝ}
    {todo : List Nat} (he : e.ok r1 r2) (hnd : e.pos ∉ todo)
    (hI : Inv r1 r2 maxEb m (e.pos :: todo) f)
    (h : encEv realS (parSz3 maxEb) (r1 * r2) (boundSz3 r1 r2) f e = some (f', c)) :
    Inv r1 r2 maxEb m todo f' := by
  obtain ⟨req, x, y, hreq, rfl, hxy⟩ := encEv_real h
  rcases hxy with ⟨rfl, rfl⟩ | ⟨hpos, k, hk, hx, hy⟩
  · rw [set_self]
    exact ⟨fun q hq => hI.later q (by simp [hq]), hI.close, hI.cp, hI.exact⟩
  · obtain ⟨eu, ev⟩ := hI.later e.pos (by simp)
    obtain ⟨req', hr', hle, -⟩ := boundSz3_spec (f := f) he
      (if e.half then maxEb * (1 / 2) else maxEb)
    rw [hreq] at hr'
    cases hr'
    have hmax : req ≤ maxEb := by
      revert hle
      split
      · intro hle; linarith
      · exact fun hle => hle
    have hne : ∀ t : Tri, t.inGrid r1 r2 → t.hasCP r2 m → ∀ P ∈ t.verts,
        P.1 * r2 + P.2 ≠ e.pos := fun t ht hc =>
      no_cp_of_vertex he hreq hpos t ht (hI.cp t ht hc)
    refine ⟨fun q hq => ?_, fun q => ?_, fun t ht hc => ?_, fun t ht hc P hP => ?_⟩
    · have hqp : q ≠ e.pos := fun h => hnd (h ▸ hq)
      simp only [Online2D.Field.set, Online2D.setAt, hqp, if_false]
      exact hI.later q (by simp [hq])
    · by_cases hqp : q = e.pos
      · subst hqp
        simp only [Online2D.Field.set, Online2D.setAt, if_true]
        rw [← eu, ← ev]
        exact ⟨Or.inr (hx.trans (hk.trans hmax)), Or.inr (hy.trans (hk.trans hmax))⟩
      · simp only [Online2D.Field.set, Online2D.setAt, hqp, if_false]
        exact hI.close q
    · refine (hasCP_congr fun P hP => ?_).1 (hI.cp t ht hc)
      have := hne t ht hc P hP
      simp only [Online2D.Field.set, Online2D.setAt, this, if_false, and_self]
    · have := hne t ht hc P hP
      simp only [Online2D.Field.set, Online2D.setAt, this, if_false]
      exact hI.exact t ht hc P hP

theorem inv_all {r1 r2 : Nat} {maxEb : ℝ} {m : Fld ℝ} {es : List Ev} {f f' : Fld ℝ}
    {cs : List (Code ℝ)} (hok : ∀ e ∈ es, e.ok r1 r2) (hnd : (es.map Ev.pos).Nodup)
    (hI : Inv r1 r2 maxEb m (es.map Ev.pos) f)
    (h : encAll realS (parSz3 maxEb) (r1 * r2) (boundSz3 r1 r2) es f = some (f', cs)) :
    Inv r1 r2 maxEb m [] f' := by
  induction es generalizing f cs with
  | nil =>
    simp only [encAll, Option.some.injEq, Prod.mk.injEq] at h
    rw [← h.1]; exact hI
  | cons e es ih =>
    unfold encAll at h
    split at h
    · cases h
    rename_i f1 c h1
    split at h
    · cases h
    rename_i f2 cs' h2
    simp only [Option.some.injEq, Prod.mk.injEq] at h
    obtain ⟨rfl, rfl⟩ := h
    rw [List.map_cons, List.nodup_cons] at hnd
    exact ih (fun e' he' => hok e' (by simp [he'])) hnd.2
      (inv_step (hok e (by simp)) hnd.1 hI h1) h2

/-- With bounds that are not a power of four times the threshold no vertex update creates a
critical point. -/
theorem cp_step {r1 r2 : Nat} {maxEb : ℝ} {f f' : Fld ℝ} {e : Ev} {c : Code ℝ}
    (he : e.ok r1 r2)
    (hs : ∀ req, boundSz3 r1 r2 f e (if e.half then maxEb * (1 / 2) else maxEb) = some req →
      ∀ k : ℕ, req ≠ (4 : ℝ) ^ k * (2 : ℝ) ^ (-52 : ℤ))
    (h : encEv realS (parSz3 maxEb) (r1 * r2) (boundSz3 r1 r2) f e = some (f', c)) (t : Tri)
    (ht : t.inGrid r1 r2) : t.hasCP r2 f ↔ t.hasCP r2 f' := by
  obtain ⟨req, x, y, hreq, rfl, hxy⟩ := encEv_real h
  rcases hxy with ⟨rfl, rfl⟩ | ⟨hpos, k, hk, hx, hy⟩
  · rw [set_self]
  · have hlt := lt_of_le_of_ne hk (hs req hreq k).symm
    have hp : e.pos < r1 * r2 := by rw [he.2.2]; exact flat_lt _ _ _ _ he.1 he.2.1
    refine Online2D.set_hasCP hp (fun k' hk' hm => ?_) t ht
    obtain ⟨n1, n2⟩ := no_cp_of_bound he hreq hpos k' hk' hm
    exact ⟨fun h => absurd h n1,
      fun h => absurd h (n2 x y (lt_of_le_of_lt hx hlt) (lt_of_le_of_lt hy hlt))⟩

theorem cp_all {r1 r2 : Nat} {maxEb : ℝ} {es : List Ev} {f f' : Fld ℝ}
    {cs : List (Code ℝ)} (hok : ∀ e ∈ es, e.ok r1 r2)
    (hs : ∀ x ∈ trace realS (parSz3 maxEb) (r1 * r2) (boundSz3 r1 r2) es f, ∀ req,
      boundSz3 r1 r2 x.1 x.2 (if x.2.half then maxEb * (1 / 2) else maxEb) = some req →
      ∀ k : ℕ, req ≠ (4 : ℝ) ^ k * (2 : ℝ) ^ (-52 : ℤ))
    (h : encAll realS (parSz3 maxEb) (r1 * r2) (boundSz3 r1 r2) es f = some (f', cs)) (t : Tri)
    (ht : t.inGrid r1 r2) : t.hasCP r2 f ↔ t.hasCP r2 f' := by
  induction es generalizing f cs with
  | nil =>
    simp only [encAll, Option.some.injEq, Prod.mk.injEq] at h
    rw [← h.1]
  | cons e es ih =>
    unfold encAll at h
    split at h
    · cases h
    rename_i f1 c h1
    split at h
    · cases h
    rename_i f2 cs' h2
    simp only [Option.some.injEq, Prod.mk.injEq] at h
    obtain ⟨rfl, rfl⟩ := h
    have hs' : ∀ x ∈ (f, e) :: trace realS (parSz3 maxEb) (r1 * r2) (boundSz3 r1 r2) es f1,
        ∀ req, boundSz3 r1 r2 x.1 x.2 (if x.2.half then maxEb * (1 / 2) else maxEb) = some req →
        ∀ k : ℕ, req ≠ (4 : ℝ) ^ k * (2 : ℝ) ^ (-52 : ℤ) := by
      intro x hx
      apply hs
      simp only [trace, h1]
      exact hx
    rw [cp_step (hok e (by simp)) (hs' (f, e) (by simp)) h1 t ht]
    exact ih (fun e' he' => hok e' (by simp [he'])) (fun x hx => hs' x (by simp [hx])) h2

end CpSZ.Sz3
