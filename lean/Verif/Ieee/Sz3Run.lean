import Verif.Ieee.Sz3
/-
Runs of the interpolation based mode in IEEE-754 arithmetic.
-/

namespace CpSZ.Sz3

variable {T D : Type}

/-- The values of a vertex that are stored are those with the code 0. -/
def Tidy (c : Code T) : Prop :=
  c.un.length = (if c.qu = 0 then 1 else 0) + (if c.qv = 0 then 1 else 0)

/-- The two outcomes of the quantiser, whatever the arithmetic. -/
theorem quantT_shape (N : DOps T) (radius : Int) (cur pred eb : T) :
    quantT N radius cur pred eb = (0, cur, [cur]) ∨
      (isZero N eb = false ∧ (quantT N radius cur pred eb).2.2 = [] ∧
        (quantT N radius cur pred eb).2.1 =
          N.add pred (N.mul (N.ofInt (2 * ((quantT N radius cur pred eb).1 - radius))) eb)) := by
  by_cases hz : isZero N eb = true
  · left; simp only [quantT, hz, if_true]
  rw [Bool.not_eq_true] at hz
  simp only [quantT, hz, Bool.false_eq_true, if_false]
  generalize N.trunc (N.div (N.abs (N.sub cur pred)) _) = t at *
  split
  · cases N.lt (N.sub cur pred) (N.ofInt 0) <;>
      simp only [Bool.false_eq_true, if_false, if_true] <;> split
    · exact Or.inl rfl
    · exact Or.inr ⟨trivial, rfl, by simp only; congr 3; omega⟩
    · exact Or.inl rfl
    · exact Or.inr ⟨trivial, rfl, by simp only; congr 3; omega⟩
  · exact Or.inl rfl

theorem recoverT_tidy {N : DOps T} {radius : Int} {cur pred eb eb' : T}
    (hq : (quantT N radius cur pred eb).2.2.length =
      if (quantT N radius cur pred eb).1 = 0 then 1 else 0)
    (he : isZero N eb = false → eb' = eb) (un : List T) :
    recoverT N radius pred (quantT N radius cur pred eb).1 eb'
      ((quantT N radius cur pred eb).2.2 ++ un) =
    some ((quantT N radius cur pred eb).2.1, un) := by
  rcases quantT_shape N radius cur pred eb with h | ⟨h1, h3, h4⟩
  · rw [h]; rfl
  · have h2 : (quantT N radius cur pred eb).1 ≠ 0 := by
      intro h
      rw [h3, if_pos h] at hq
      simp at hq
    rw [h3, h4, he h1]
    unfold recoverT
    rw [if_pos h2]
    rfl

theorem tidy_split {N : DOps T} {radius : Int} {c1 p1 c2 p2 eb : T} {id : Int}
    (h : Tidy ⟨id, (quantT N radius c1 p1 eb).1, (quantT N radius c2 p2 eb).1,
      (quantT N radius c1 p1 eb).2.2 ++ (quantT N radius c2 p2 eb).2.2⟩) :
    ((quantT N radius c1 p1 eb).2.2.length = if (quantT N radius c1 p1 eb).1 = 0 then 1 else 0) ∧
    ((quantT N radius c2 p2 eb).2.2.length = if (quantT N radius c2 p2 eb).1 = 0 then 1 else 0) := by
  have one : ∀ c p, (quantT N radius c p eb).2.2.length ≤
      if (quantT N radius c p eb).1 = 0 then 1 else 0 := by
    intro c p
    rcases quantT_shape N radius c p eb with h | ⟨-, h, -⟩ <;> rw [h] <;> simp
  unfold Tidy at h
  simp only [List.length_append] at h
  have h1 := one c1 p1
  have h2 := one c2 p2
  omega

theorem lockstep_tidy {S : SOps T D} {P : Par D}
    (hS : isZero S.t (S.conv (S.d.ofInt 0)) = true) (n : Nat)
    (bound : Fld T → Ev → D → Option D) :
    ∀ (es : List Ev) (done : Nat → Prop) (f f' d : Fld T) (cs : List (Code T)),
      Causal done es → Agree done f d → encAll S P n bound es f = some (f', cs) →
      (∀ c ∈ cs, Tidy c) →
      ∃ d', decAll S P.base P.thr P.radius n (es.map Ev.toD) d (streams cs) = some d' ∧
        Agree (fun q => done q ∨ q ∈ es.map Ev.pos) f' d' := by
  intro es
  induction es with
  | nil =>
    intro done f f' d cs _ hA h _
    simp only [encAll, Option.some.injEq, Prod.mk.injEq] at h
    obtain ⟨rfl, rfl⟩ := h
    exact ⟨d, rfl, fun q hq => hA q (by simpa using hq)⟩
  | cons e es ih =>
    intro done f f' d cs hC hA h hT
    unfold encAll at h
    split at h
    · cases h
    rename_i f1 c h1
    split at h
    · cases h
    rename_i f2 cs' h2
    simp only [Option.some.injEq, Prod.mk.injEq] at h
    obtain ⟨rfl, rfl⟩ := h
    unfold encEv at h1
    split at h1
    · cases h1
    rename_i req hreq
    simp only at h1
    split at h1
    · rename_i pu pv hpu hpv
      simp only [Option.some.injEq, Prod.mk.injEq] at h1
      obtain ⟨rfl, rfl⟩ := h1
      obtain ⟨t1, t2⟩ := tidy_split (hT _ List.mem_cons_self)
      have hu : predict S.t n d.u e.toD = some pu := by
        rw [← hpu]
        exact (predict_congr fun p hp => by
          obtain ⟨q, rfl, hq⟩ := hC.1 p hp
          exact ⟨q, rfl, (hA q hq).1⟩).symm
      have hv : predict S.t n d.v e.toD = some pv := by
        rw [← hpv]
        exact (predict_congr fun p hp => by
          obtain ⟨q, rfl, hq⟩ := hC.1 p hp
          exact ⟨q, rfl, (hA q hq).2⟩).symm
      have heb : isZero S.t (S.conv (ebQuant S.d P.base P.logBase P.thr req).1) = false →
          S.conv (S.d.mul (S.d.pow P.base (ebQuant S.d P.base P.logBase P.thr req).2) P.thr) =
          S.conv (ebQuant S.d P.base P.logBase P.thr req).1 := by
        intro hz
        unfold ebQuant at hz ⊢
        split
        · rename_i hle
          rw [if_pos hle, hS] at hz
          cases hz
        · rfl
      obtain ⟨d', hd', hA'⟩ := ih _ _ _ _ _ hC.2 (hA.set e.pos _ _) h2
        (fun c hc => hT c (by simp [hc]))
      refine ⟨d', ?_, fun q hq => hA' q ?_⟩
      · simp only [List.map_cons, decAll, decEv, streams, List.flatMap_cons, List.cons_append,
          List.nil_append, hu, hv, List.append_assoc]
        rw [recoverT_tidy t1 heb]
        simp only
        rw [recoverT_tidy t2 heb]
        exact hd'
      · rw [List.map_cons, List.mem_cons] at hq
        tauto
    · cases h1

theorem compressBytes_of {S : SOps T D} {c : Codec T} {cD : Codec D} {E1 E2 : Env} {P : Par D}
    {r1 r2 : Nat} {bound : Fld T → Ev → D → Option D} {m m' : Fld T} {s : Streams T}
    {bs : List Byte} (h : compress S P r1 r2 bound m = some (m', s))
    (hs : serialize c cD E1 E2 P s = some bs) :
    compressBytes S c cD E1 E2 P r1 r2 bound m = some (m', bs) := by
  simp only [compressBytes, h, hs]

theorem decompressBytes_of {S : SOps T D} {c : Codec T} {cD : Codec D} {base : Int} {thr : D}
    {radius : Int} {r1 r2 : Nat} {m0 d : Fld T} {s : Streams T} {bs : List Byte}
    (h : parse c cD (r1 * r2) bs = some ⟨base, thr, radius, s⟩)
    (hd : decAll S base thr radius (r1 * r2) ((planEnc r1 r2).map Ev.toD) m0 s = some d) :
    decompressBytes S c cD r1 r2 m0 bs = some d := by
  simp only [decompressBytes, h, decompress, planDec_eq, hd]

/-- An invariant of the working copy, and a property of the codes. -/
theorem encAll_inv {S : SOps T D} {P : Par D} {n : Nat} {bound : Fld T → Ev → D → Option D}
    {I : List Nat → Fld T → Prop} {Q : Code T → Prop} {es : List Ev}
    (hok : ∀ e ∈ es, ∀ todo f f' c, e.pos ∉ todo → I (e.pos :: todo) f →
      encEv S P n bound f e = some (f', c) → I todo f' ∧ Q c)
    (hnd : (es.map Ev.pos).Nodup) {f f' : Fld T} {cs : List (Code T)} (hI : I (es.map Ev.pos) f)
    (h : encAll S P n bound es f = some (f', cs)) : I [] f' ∧ ∀ c ∈ cs, Q c := by
  induction es generalizing f cs with
  | nil =>
    simp only [encAll, Option.some.injEq, Prod.mk.injEq] at h
    rw [← h.1, ← h.2]; exact ⟨hI, by simp⟩
  | cons e es ih =>
    unfold encAll at h
    split at h
    · cases h
    rename_i f1 c h1
    split at h
    · cases h
    rename_i f2 cs' h2
    simp only [Option.some.injEq, Prod.mk.injEq] at h
    obtain ⟨rfl, rfl⟩ := h
    rw [List.map_cons, List.nodup_cons] at hnd
    obtain ⟨k1, k2⟩ := hok e (by simp) _ _ _ _ hnd.1 hI h1
    obtain ⟨j1, j2⟩ := ih (fun e' he' => hok e' (by simp [he'])) hnd.2 k1 h2
    exact ⟨j1, by
      intro c' hc'
      rcases List.mem_cons.1 hc' with rfl | hc'
      · exact k2
      · exact j2 c' hc'⟩

end CpSZ.Sz3

namespace CpSZ.Ieee
open CpSZ.Sz3

/-- What holds of the codes of a vertex: the code of the bound is at most `(r+54)/2`, those of the
data are in the table, and 0 marks the stored ones. -/
def GoodCode {F : Fmt} (r : Int) (c : Code (Pat F)) : Prop :=
  (0 ≤ c.id ∧ 2 * c.id ≤ r + 54) ∧ (0 ≤ c.qu ∧ c.qu < 65536) ∧ (0 ≤ c.qv ∧ c.qv < 65536) ∧ Tidy c

section
variable {F : Fmt} {trT : Pat F → Int} {tr : Pat binary64 → Int}
  {lg : Pat binary64 → Pat binary64} {eps : ℚ}

/-- The factor by which a value may be off: rounding of the distance, error of `log2`, rounding of
the quotient in the bound quantiser. -/
def slackN (F : Fmt) (eps : ℚ) : ℚ := (1 + eps) * (1 + p2 (-53)) / (1 - p2 (-(F.p : Int)))

theorem gap_pos (F : Fmt) (hp : 2 ≤ F.p) : 0 < 1 - p2 (-(F.p : Int)) := by
  have : p2 (-(F.p : Int)) < p2 0 := p2_lt (by omega)
  rw [p2_zero] at this
  linarith

theorem dec_conv_p2 (hF : F.Ok) {k : Int} (h1 : F.umin ≤ k) (h2 : k ≤ F.emax) {a : Pat binary64}
    (h : dec binary64 a = .fin (p2 k)) : dec F (conv binary64 F a) = .fin (p2 k) := by
  unfold conv
  refine (dec_enc hF _ (val_narrow _)).trans ?_
  rw [h]
  exact round_rep hF (rep_p2 h1 h2)

theorem ofIntD_bits (n : Int) : dec binary64 ((bitsD tr lg).ofInt n) = round binary64 n :=
  dec_enc ok64 _ (val_round _)

theorem conv_zero (hF : F.Ok) :
    isZero (bitsN F trT) (conv binary64 F ((bitsD tr lg).ofInt 0)) = true := by
  have h0 : dec binary64 ((bitsD tr lg).ofInt 0) = .fin 0 := by
    rw [ofIntD_bits, Int.cast_zero]
    exact round_zero ok64
  have : dec F (conv binary64 F ((bitsD tr lg).ofInt 0)) = .fin 0 := by
    unfold conv
    refine (dec_enc hF _ (val_narrow _)).trans ?_
    rw [h0]
    exact round_zero hF
  rw [isZero_bits hF this]
  simp

/-- One component of a vertex. -/
theorem quantT_run (hF : F.Ok) (hemin : F.emin ≤ -52) {cur pred eb : Pat F} {r : Int} {k : Int}
    (hr : r + 10 ≤ F.emax) (h0 : 0 ≤ r) (hc : Bd (dec F) r cur) (hp : Bd (dec F) (r + 9) pred)
    (hk : -52 ≤ k) (he : dec F eb = .fin (p2 k)) :
    (0 ≤ (quantT (bitsN F trT) 32768 cur pred eb).1 ∧
      (quantT (bitsN F trT) 32768 cur pred eb).1 < 65536) ∧
    ((quantT (bitsN F trT) 32768 cur pred eb).2.2.length =
      if (quantT (bitsN F trT) 32768 cur pred eb).1 = 0 then 1 else 0) ∧
    Cl (dec F) (p2 k / (1 - p2 (-(F.p : Int)))) (quantT (bitsN F trT) 32768 cur pred eb).2.1 cur := by
  have hu := (emin_le hF).2.1
  obtain ⟨c, c1, c2⟩ := hc
  obtain ⟨pr, p1, p2'⟩ := hp
  obtain ⟨d, hd, -⟩ := round_bounded hF (rep_p2 (F := F) (k := r + 9 + 1) (by omega) (by omega))
    (x := c - pr) (by
      have h1 := abs_sub c pr
      have h2 : p2 r ≤ p2 (r + 9) := p2_le (by omega)
      rw [p2_succ]; linarith)
  rcases quantT_bits hF (trT := trT) c1 p1 hd he with h | ⟨q1, q2, q3, X, x1, x2⟩
  · rw [h]
    exact ⟨by norm_num, by simp, Or.inl rfl⟩
  · refine ⟨⟨q1.le, q2⟩, by rw [q3, if_neg (by omega)]; rfl, Or.inr ⟨X, c, x1, c1, ?_⟩⟩
    have := near_of_rmag (F := F) (by omega) (abs_nonneg (X - c)) x2
    rw [le_div_iff₀ (gap_pos F hF.p2)]
    linarith

/-- The invariant of the run. -/
structure InvN (F : Fmt) (r1 r2 : Nat) (B : ℚ) (m : Fld (Pat F)) (todo : List Nat)
    (f : Fld (Pat F)) : Prop where
  later : ∀ q ∈ todo, f.u q = m.u q ∧ f.v q = m.v q
  close : ∀ q, Cl (dec F) B (f.u q) (m.u q) ∧ Cl (dec F) B (f.v q) (m.v q)
  keep : ∀ t : Tri, t.inGrid r1 r2 → t.hasCP r2 (realField (dec F) m) → ∀ P ∈ t.verts,
    f.u (P.1 * r2 + P.2) = m.u (P.1 * r2 + P.2) ∧ f.v (P.1 * r2 + P.2) = m.v (P.1 * r2 + P.2)

theorem cl_wide {B : ℚ} {r : Int} (hB : B ≤ 2 * p2 r) {x c : Pat F} (hc : Bd (dec F) r c)
    (hx : Cl (dec F) B x c) : Bd (dec F) (r + 1 + 1) x := by
  rcases hx with rfl | ⟨X, C, x1, x2, x3⟩
  · exact hc.mono (by omega)
  · obtain ⟨y, y1, y2⟩ := hc
    rw [x2] at y1
    cases y1
    refine ⟨X, x1, ?_⟩
    have h3 := abs_sub_abs_le_abs_sub X C
    have h5 := p2_pos r
    rw [p2_succ, p2_succ]
    linarith

theorem cp_same {r2 : Nat} {t : Tri} {f m : Fld (Pat F)}
    (h : ∀ P ∈ t.verts, f.u (P.1 * r2 + P.2) = m.u (P.1 * r2 + P.2) ∧
      f.v (P.1 * r2 + P.2) = m.v (P.1 * r2 + P.2))
    (hc : t.hasCP r2 (realField (dec F) m)) : t.hasCP r2 (realField (dec F) f) :=
  (hasCP_congr fun P hP => by
    obtain ⟨e1, e2⟩ := h P hP
    simp only [realField, e1, e2, and_self]).2 hc

theorem verts_col {r1 r2 : Nat} {t : Tri} (ht : t.inGrid r1 r2) : ∀ P ∈ t.verts, P.2 < r2 := by
  intro P hP
  unfold Tri.inGrid at ht
  unfold Tri.verts at hP
  split at hP <;> simp only [List.mem_cons, List.not_mem_nil, or_false] at hP <;>
    rcases hP with rfl | rfl | rfl <;> simp only <;> omega

variable (hF : F.Ok) (hp5 : 5 ≤ F.p) (hp : F.p ≤ binary64.p) (hu : binary64.umin ≤ F.umin)
  (he : F.emax ≤ binary64.emax) (hemin : F.emin ≤ -52) (hlg : LogOk lg eps)
  (hlb : dec binary64 (lg (enc binary64 false (.fin 4))) = .fin 2) (he0 : 0 ≤ eps)
  (he1 : eps ≤ p2 (-30))
include hF hp hu he hlg

/-- The bound of a vertex is at most the given one; at a vertex of a triangle with a critical point
it is not positive. -/
theorem sz3Bound_spec {ov : Bool} {r : Int} (h0 : 0 ≤ r) (h2 : r + r + 3 ≤ F.emax) {r1 r2 : Nat}
    {f : Fld (Pat F)} (hf : ∀ q, q < r1 * r2 → Bd (dec F) r (f.u q) ∧ Bd (dec F) r (f.v q)) {e : Ev}
    (hok : e.ok r1 r2) {eb req : Pat binary64} {E : ℚ} (hE : LeV E (dec binary64 eb))
    (h : sz3Bound F tr lg ov r1 r2 f e eb = some req) :
    LeV E (dec binary64 req) ∧ ∀ t : Tri, t.inGrid r1 r2 → t.hasCP r2 (realField (dec F) f) →
      (∃ P ∈ t.verts, P.1 * r2 + P.2 = e.pos) → LeV 0 (dec binary64 req) := by
  have hO := bits_ieee hF hp hu he tr hlg
  have hEE := bits_ieeeE hF hp hu he tr hlg ov
  obtain ⟨hi, hj, hpos⟩ := id hok
  unfold sz3Bound deriveEb at h
  rw [deriveLoop_eq _ _ _ _ _ _ _ _ hpos hj] at h
  have hpn : e.pos < r1 * r2 := by rw [hpos]; exact Mesh2D.flat_lt _ _ _ _ hi hj
  have nn : ∀ (k : Nat) (u0 u1 u2 v0 v1 v2 : Pat F), Bd (dec F) r u0 → Bd (dec F) r u1 →
      Bd (dec F) r u2 → Bd (dec F) r v0 → Bd (dec F) r v1 → Bd (dec F) r v2 →
      dec binary64 ((fun _ : Nat => deriveAbsT (bitsOps F tr lg) (bitsE F tr lg ov)) k
        u0 u1 u2 v0 v1 v2) ≠ .nan :=
    fun _ u0 u1 u2 v0 v1 v2 b0 b1 b2 c0 c1 c2 =>
      derive_not_nan hO hEE hF hp hu he h0 h2 b0 b1 b2 c0 c1 c2
  refine ⟨requiredLoop_ieee hO (Q := Bd (dec F) r) nn hf hpn hE h, ?_⟩
  rintro t ht hc ⟨P, hP, hPe⟩
  obtain ⟨f1, f2⟩ := Mesh2D.flat_inj (verts_col ht P hP) hj (hPe.trans hpos)
  have hv : (e.row, e.col) ∈ t.verts := by rw [← f1, ← f2]; exact hP
  obtain ⟨κ, hk, hin, htk, -⟩ := Mesh2D.incident_unique r1 r2 _ _ t hi hj ht hv
  obtain ⟨n0, n1, -, -, hcp, -⟩ := Mesh2D.tri_flat r1 r2 e.row e.col κ hi hj hk hin
  rw [htk] at hcp
  have hcp := (hcp _).1 hc
  rw [hpos] at h
  refine requiredLoop_zero hO (Q := Bd (dec F) r) nn hf hi hj (ks := [0, 1, 2, 3, 4, 5]) (by simp)
    hE (k := κ) (by simp; omega) hin ?_ h
  obtain ⟨⟨a0, a0v, a0b⟩, ⟨c0, c0v, c0b⟩⟩ := hf _ n0
  obtain ⟨⟨a1, a1v, a1b⟩, ⟨c1, c1v, c1b⟩⟩ := hf _ n1
  obtain ⟨⟨a2, a2v, a2b⟩, ⟨c2, c2v, c2b⟩⟩ := hf _ (by rw [hpos] at hpn; exact hpn)
  refine derive_cp hO hEE hF hp hu he h0 h2 a0v a1v a2v c0v c1v c2v a0b a1b a2b c0b c1b c2b ?_
  have := minors_of_cp hcp
  simp only [realField, a0v, a1v, a2v, c0v, c1v, c2v, valR] at this
  exact_mod_cast this

include hp5 hemin hlb he0 he1

/-- One vertex. -/
theorem encEv_bits {ov : Bool} {r : Int} (h0 : 0 ≤ r) (h1 : r ≤ 400) (h2 : r + r + 7 ≤ F.emax)
    (h3 : r + 10 ≤ F.emax)
    {r1 r2 : Nat} {maxEb : Pat binary64} {e : ℚ} (hm : dec binary64 maxEb = .fin e) (hep : 0 ≤ e)
    (her : e ≤ p2 r) (hsl : slackN F eps ≤ 2) {m : Fld (Pat F)}
    (hf : ∀ q, q < r1 * r2 → Bd (dec F) r (m.u q) ∧ Bd (dec F) r (m.v q)) {v : Ev}
    (hok : v.ok r1 r2) {todo : List Nat} (hnd : v.pos ∉ todo) {f f' : Fld (Pat F)}
    {c : Code (Pat F)} (hI : InvN F r1 r2 (slackN F eps * e) m (v.pos :: todo) f)
    (h : encEv (sz3Bits F trT tr lg) (sz3Par lg maxEb) (r1 * r2) (sz3Bound F tr lg ov r1 r2) f v =
      some (f', c)) :
    InvN F r1 r2 (slackN F eps * e) m todo f' ∧ GoodCode r c := by
  have hO := bits_ieee hF hp hu he tr hlg
  have he2 : eps ≤ 1 := he1.trans (by rw [← p2_zero]; exact p2_le (by norm_num))
  have hpn : v.pos < r1 * r2 := by rw [hok.2.2]; exact Mesh2D.flat_lt _ _ _ _ hok.1 hok.2.1
  have hB : slackN F eps * e ≤ 2 * p2 r := mul_le_mul hsl her hep (by norm_num)
  have hw : ∀ q, q < r1 * r2 → Bd (dec F) (r + 1 + 1) (f.u q) ∧ Bd (dec F) (r + 1 + 1) (f.v q) :=
    fun q hq => ⟨cl_wide hB (hf q hq).1 (hI.close q).1, cl_wide hB (hf q hq).2 (hI.close q).2⟩
  obtain ⟨eu, ev⟩ := hI.later v.pos (by simp)
  unfold encEv at h
  split at h
  · cases h
  rename_i req hreq
  simp only at h
  -- the bound of the user, or half of it
  have hstart : LeV e (dec binary64
      (if v.half then (sz3Par lg maxEb).ebHalf else (sz3Par lg maxEb).ebFull)) := by
    split
    · obtain ⟨y, y1, y2⟩ := round_bounded ok64 (hO.repD _ _ hm) (x := e * p2 (-1)) (by
        have e1 : p2 (-1) = 1 / 2 := by rw [p2_eq]; norm_num
        rw [e1, abs_of_nonneg (by linarith)]
        linarith)
      refine Or.inr ⟨y, (dec_enc ok64 _ (val_mul _ _)).trans ?_, (le_abs_self y).trans y2⟩
      rw [hm, dec_enc ok64 _ (show Val binary64 (.fin (p2 (-1))) from
        rep_p2 (by decide) (by decide))]
      exact y1
    · exact Or.inr ⟨e, hm, le_refl e⟩
  obtain ⟨b1, b2⟩ := sz3Bound_spec hF hp hu he hlg (r := r + 1 + 1) (by omega) (by omega) hw hok
    hstart hreq
  have b1' : LeV (p2 r) (dec binary64 req) := by
    rcases b1 with b1 | ⟨x, x1, x2⟩
    · exact Or.inl b1
    · exact Or.inr ⟨x, x1, x2.trans her⟩
  have ht : dec binary64 (sz3Par lg maxEb).thr = .fin (p2 (-52)) :=
    dec_enc ok64 _ (rep_p2 (by decide) (by decide))
  have hq := ebQuant_any hO (lb := (sz3Par lg maxEb).logBase) hlb ht he0 he2
    (show -54 ≤ r by omega) h1 b1'
  change _ ∨ ∃ A k, _ at hq
  split at h
  · rename_i pu pv hpu hpv
    simp only [Option.some.injEq, Prod.mk.injEq] at h
    obtain ⟨rfl, rfl⟩ := h
    have ppu := predict_bits (trT := trT) hF hp5 (k := r + 1 + 1) (by omega) (by omega)
      (fun q hq => (hw q hq).1) hpu
    have ppv := predict_bits (trT := trT) hF hp5 (k := r + 1 + 1) (by omega) (by omega)
      (fun q hq => (hw q hq).2) hpv
    rcases hq with ⟨-, hz⟩ | ⟨A, k, a1, a2, a3, a4, a5, a6, a7⟩
    · -- the vertex is stored
      change CpSZ.ebQuant (bitsD tr lg) 4 _ _ _ = _ at hz
      obtain ⟨z, hz0⟩ : ∃ z, z = (bitsD tr lg).ofInt 0 := ⟨_, rfl⟩
      have hcz : isZero (bitsN F trT) (conv binary64 F z) = true := by rw [hz0]; exact conv_zero hF
      have hq0 : ∀ cur pred, quantT (bitsN F trT) 32768 cur pred (conv binary64 F z) =
          (0, cur, [cur]) := by
        intro cur pred
        unfold quantT
        rw [hcz, if_pos rfl]
      have e1 : (ebQuant (sz3Bits F trT tr lg).d (sz3Par lg maxEb).base (sz3Par lg maxEb).logBase
          (sz3Par lg maxEb).thr req) = (z, 0) := by rw [hz0]; exact hz
      rw [e1]
      have e2 : ∀ cur pred, quantT (sz3Bits F trT tr lg).t (sz3Par lg maxEb).radius cur pred
          ((sz3Bits F trT tr lg).conv z) = (0, cur, [cur]) := hq0
      simp only [e2]
      refine ⟨⟨fun q hq => ?_, fun q => ?_, fun t ht hc P hP => ?_⟩, ?_⟩
      · have hqp : q ≠ v.pos := fun h => hnd (h ▸ hq)
        simp only [Online2D.Field.set, Online2D.setAt, hqp, if_false]
        exact hI.later q (by simp [hq])
      · by_cases hqp : q = v.pos
        · simp only [Online2D.Field.set, Online2D.setAt, hqp, if_true]
          exact ⟨Or.inl eu, Or.inl ev⟩
        · simp only [Online2D.Field.set, Online2D.setAt, hqp, if_false]
          exact hI.close q
      · by_cases hqp : P.1 * r2 + P.2 = v.pos
        · simp only [Online2D.Field.set, Online2D.setAt, hqp, if_true]
          exact ⟨eu, ev⟩
        · simp only [Online2D.Field.set, Online2D.setAt, hqp, if_false]
          exact hI.keep t ht hc P hP
      · exact ⟨⟨le_refl 0, by change 2 * (0 : Int) ≤ _; omega⟩, ⟨le_refl 0, show (0 : Int) < 65536 by decide⟩,
          ⟨le_refl 0, show (0 : Int) < 65536 by decide⟩, rfl⟩
    · change 0 ≤ (CpSZ.ebQuant (bitsD tr lg) 4 _ _ _).2 at a3
      change 2 * (CpSZ.ebQuant (bitsD tr lg) 4 _ _ _).2 ≤ _ at a4
      change k = 2 * (CpSZ.ebQuant (bitsD tr lg) 4 _ _ _).2 + -52 at a5
      have hk52 : -52 ≤ k := by omega
      have hum : F.umin ≤ F.emin := by
        have := hF.p2
        unfold Fmt.umin; omega
      have hcv : dec F ((sz3Bits F trT tr lg).conv (ebQuant (sz3Bits F trT tr lg).d
          (sz3Par lg maxEb).base (sz3Par lg maxEb).logBase (sz3Par lg maxEb).thr req).1) =
          .fin (p2 k) := dec_conv_p2 hF (by omega) (by omega) a6
      obtain ⟨x1, x2, x3⟩ := quantT_run (trT := trT) hF hemin (by omega) h0
        (by rw [eu]; exact (hf _ hpn).1 : Bd (dec F) r (f.u v.pos)) (ppu.mono (by omega)) hk52 hcv
      obtain ⟨y1, y2, y3⟩ := quantT_run (trT := trT) hF hemin (by omega) h0
        (by rw [ev]; exact (hf _ hpn).2 : Bd (dec F) r (f.v v.pos)) (ppv.mono (by omega)) hk52 hcv
      have hA : A ≤ e := by
        rcases b1 with b1 | ⟨x, x1, x2⟩
        · rw [a1] at b1; cases b1
        · rw [a1] at x1; cases x1; exact x2
      have hle : p2 k / (1 - p2 (-(F.p : Int))) ≤ slackN F eps * e := by
        have g := gap_pos F hF.p2
        unfold slackN
        rw [div_mul_eq_mul_div]
        refine div_le_div_of_nonneg_right (a7.trans (mul_le_mul_of_nonneg_left hA ?_)) g.le
        have := p2_pos (-53)
        exact mul_nonneg (by linarith) (by linarith)
      have grow : ∀ {x c : Pat F}, Cl (dec F) (p2 k / (1 - p2 (-(F.p : Int)))) x c →
          Cl (dec F) (slackN F eps * e) x c := by
        rintro x c (h | ⟨X, C, h3, h4, h5⟩)
        · exact Or.inl h
        · exact Or.inr ⟨X, C, h3, h4, h5.trans hle⟩
      refine ⟨⟨fun q hq => ?_, fun q => ?_, fun t ht hc P hP => ?_⟩, ?_⟩
      · have hqp : q ≠ v.pos := fun h => hnd (h ▸ hq)
        simp only [Online2D.Field.set, Online2D.setAt, hqp, if_false]
        exact hI.later q (by simp [hq])
      · by_cases hqp : q = v.pos
        · simp only [Online2D.Field.set, Online2D.setAt, hqp, if_true]
          rw [← eu, ← ev]
          exact ⟨grow x3, grow y3⟩
        · simp only [Online2D.Field.set, Online2D.setAt, hqp, if_false]
          exact hI.close q
      · by_cases hqp : P.1 * r2 + P.2 = v.pos
        · exfalso
          have := b2 t ht (cp_same (hI.keep t ht hc) hc) ⟨P, hP, hqp⟩
          have hl : Fp.le (dec binary64 req) (dec binary64 (sz3Par lg maxEb).thr) = true := by
            have h5 := p2_pos (-52)
            rcases this with h3 | ⟨x, h3, h4⟩ <;> rw [h3, ‹dec binary64 (sz3Par lg maxEb).thr = _›]
            · rfl
            · simp only [Fp.le, decide_eq_true_eq]; linarith
          rw [hO.le] at a2
          rw [hl] at a2
          cases a2
        · simp only [Online2D.Field.set, Online2D.setAt, hqp, if_false]
          exact hI.keep t ht hc P hP
      · refine ⟨⟨a3, a4⟩, x1, y1, ?_⟩
        unfold Tidy
        simp only [List.length_append]
        exact congrArg₂ (· + ·) x2 y2
  · cases h

/-- The run. -/
theorem runSz3_inv {ov : Bool} {r : Int} (h0 : 0 ≤ r) (h1 : r ≤ 400) (h2 : r + r + 7 ≤ F.emax)
    (h3 : r + 10 ≤ F.emax)
    {r1 r2 : Nat} (hr1 : 0 < r1) (hr2 : 0 < r2) {maxEb : Pat binary64} {e : ℚ}
    (hm : dec binary64 maxEb = .fin e) (hep : 0 ≤ e) (her : e ≤ p2 r) (hsl : slackN F eps ≤ 2)
    {m : Fld (Pat F)} (hf : ∀ q, q < r1 * r2 → Bd (dec F) r (m.u q) ∧ Bd (dec F) r (m.v q)) :
    ∃ m' cs, encAll (sz3Bits F trT tr lg) (sz3Par lg maxEb) (r1 * r2) (sz3Bound F tr lg ov r1 r2)
        (planEnc r1 r2) m = some (m', cs) ∧
      runSz3 F trT tr lg ov r1 r2 maxEb m = some (m', streams cs) ∧
      InvN F r1 r2 (slackN F eps * e) m [] m' ∧ ∀ c ∈ cs, GoodCode r c := by
  obtain ⟨m', s, h⟩ := compress_defined (sz3Bits F trT tr lg) (sz3Par lg maxEb) r1 r2 hr1 hr2
    (minfG (bitsOps F tr lg).toDOps) (deriveAbsT (bitsOps F tr lg) (bitsE F tr lg ov)) m
  unfold compress at h
  split at h
  · cases h
  rename_i m1 cs hall
  simp only [Option.some.injEq, Prod.mk.injEq] at h
  obtain ⟨rfl, rfl⟩ := h
  have hnd : ((planEnc r1 r2).map Ev.pos).Nodup :=
    (plan_perm hr1 hr2).nodup_iff.2 List.nodup_range
  obtain ⟨i1, i2⟩ := encAll_inv (I := InvN F r1 r2 (slackN F eps * e) m) (Q := GoodCode r)
    (fun v hv todo f f' c hnd hI hs => encEv_bits hF hp5 hp hu he hemin hlg hlb he0 he1 h0 h1 h2 h3 hm
      hep her hsl hf (plan_ok hr1 hr2 v hv) hnd hI hs) hnd
    ⟨fun _ _ => ⟨rfl, rfl⟩, fun _ => ⟨Or.inl rfl, Or.inl rfl⟩, fun _ _ _ _ _ => ⟨rfl, rfl⟩⟩ hall
  refine ⟨m1, cs, hall, ?_, i1, i2⟩
  have hall' : encAll (sz3Bits F trT tr lg) (sz3Par lg maxEb) (r1 * r2)
      (sz3Bound F tr lg ov r1 r2) (planEnc r1 r2) m = some (m1, cs) := hall
  simp only [runSz3, compress, hall']

end

end CpSZ.Ieee
