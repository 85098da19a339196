import Verif.FloatErr
import Verif.Online2D.Abs
import Verif.ThreeD.Grid
/-
Whole runs of the compressors in rounded arithmetic: distance of each reconstructed value from the
input.
-/

namespace CpSZ.Rounded
open CpSZ

/-! ### 2D -/

section two
open CpSZ.Online2D CpSZ.Mesh2D

/-- An accepted component in rounded arithmetic. -/
theorem encComp_rounded {rT rD lg : ℝ → ℝ} {u g δ : ℝ} (hT : Guard rT g) (hg : g ≤ 1) (hD : IsFloat rD u)
    (hl : IsLog2 rD lg δ) {r2 : Nat} {f : Nat → ℝ} {p : Nat} {a : ℝ} {id q : Int} {x : ℝ}
    (hov : (1 + u) * (a * 2 ^ 52) < (2 : ℝ) ^ (1024 : ℕ))
    (h : encComp (roundedOps rT rD lg) parOnline r2 f p a = some (id, q, x)) :
    |x - f p| < (1 - g) * ((1 + u) * (2 : ℝ) ^ δ) * a := by
  obtain ⟨h0, h1, -, -, h2⟩ := encComp_some _ _ _ _ _ _ _ _ _ h
  have e4 : Real.logb 2 4 = ((2 : ℕ) : ℝ) := by
    rw [show (4 : ℝ) = 2 ^ 2 by norm_num, Real.logb_pow, Real.logb_self_eq_one (by norm_num)]
    norm_num
  have et : (1 / 2 ^ 52 : ℝ) = (2 : ℝ) ^ (-52 : ℤ) := by norm_num
  have ep : ebQuant (roundedOps rT rD lg).toDOps parOnline.base parOnline.logBase parOnline.thr a =
      ebQuant (roundedOps rT rD lg).toDOps (2 ^ 2) ((2 : ℕ) : ℝ) ((2 : ℝ) ^ (-52 : ℤ)) a := by
    rw [← e4, ← et]; rfl
  rw [ep] at h1 h2
  rw [h1] at h0
  obtain ⟨k, k1, k2⟩ := ebQuant_rounded (rT := rT) hD hl 2 (Or.inr rfl) (-52) a (by
    rw [← et]; rw [div_div_eq_mul_div, div_one]; exact hov) h0
  rw [k1] at h2
  have h3 : |rT (x - f p)| < (2 : ℝ) ^ k := by
    simpa [roundedOps] using h2
  exact (hT k _ h3).trans_le (by
    rw [mul_assoc]; exact mul_le_mul_of_nonneg_left k2 (by linarith))

/-- `MINF` from the global bound on never exceeds it. -/
theorem requiredLoop_le_start {r1 r2 : Nat} {derive : Nat → ℝ → ℝ → ℝ → ℝ → ℝ → ℝ → ℝ}
    {m : Online2D.Field ℝ} {p : Nat} {B : ℝ} (ks : List Nat) (req : ℝ) (hreq : req ≤ B) {r : ℝ}
    (h : requiredLoop r1 r2 minf derive m p ks req = some r) : r ≤ B := by
  induction ks generalizing req with
  | nil => simp only [requiredLoop, Option.some.injEq] at h; rw [← h]; exact hreq
  | cons k ks ih =>
    unfold requiredLoop at h
    split at h
    · split at h
      · exact ih _ ((minf_le_left _ _).trans hreq) h
      · cases h
    · exact ih _ hreq h

/-- A run is defined if the bound of each vertex is. -/
theorem compress_defined2 {T D : Type} (O : Ops T D) (P : Par D) (r1 r2 : Nat)
    (absEb : D → T → D) (bound : Online2D.Field T → Nat → Option D) (m : Online2D.Field T)
    (hb : ∀ f p, p < r1 * r2 → (bound f p).isSome) :
    ∃ m' s, compress O P r1 r2 absEb bound m = some (m', s) := by
  have hd : ∀ q f, 0 ≤ q → q < 0 + r1 * r2 → (encVertex O P r2 absEb bound f q).isSome := by
    intro q f _ hq
    obtain ⟨req, hreq⟩ := Option.isSome_iff_exists.1 (hb f q (by omega))
    unfold encVertex
    rw [hreq]
    simp only
    split
    · split <;> rfl
    · rfl
  obtain ⟨⟨m', ws⟩, h⟩ := Option.isSome_iff_exists.1
    (scanEnc_defined (encVertex O P r2 absEb bound) (r1 * r2) 0 hd m)
  exact ⟨m', ⟨ws.flatMap VCode.eb, ws.flatMap (VCode.dq P.radius), ws.flatMap VCode.un⟩,
    by simp only [compress, h]⟩

/-- What a run guarantees about each component. -/
theorem run2 {rT rD lg : ℝ → ℝ} {u g δ : ℝ} (hT : Guard rT g) (hg : g ≤ 1) (hD : IsFloat rD u)
    (hl : IsLog2 rD lg δ) {r1 r2 : Nat} {absEb : ℝ → ℝ → ℝ} {m m0 m' : Online2D.Field ℝ}
    {bound : Online2D.Field ℝ → Nat → Option ℝ} {s : Streams ℝ} {B : ℝ → ℝ}
    (hB : ∀ f p req, bound f p = some req → 0 < req → ∀ x, absEb req x ≤ B x)
    (hov : ∀ q, q < r1 * r2 → (1 + u) * (B (m.u q) * 2 ^ 52) < (2 : ℝ) ^ (1024 : ℕ) ∧
      (1 + u) * (B (m.v q) * 2 ^ 52) < (2 : ℝ) ^ (1024 : ℕ))
    (h : compress (roundedOps rT rD lg) parOnline r1 r2 absEb bound m = some (m', s)) :
    ∃ d, decompress (roundedOps rT rD lg) parOnline r1 r2 m0 s = some d ∧
      ∀ q, q < r1 * r2 →
        (d.u q = m.u q ∨ |d.u q - m.u q| < (1 - g) * ((1 + u) * (2 : ℝ) ^ δ) * B (m.u q)) ∧
        (d.v q = m.v q ∨ |d.v q - m.v q| < (1 - g) * ((1 + u) * (2 : ℝ) ^ δ) * B (m.v q)) := by
  have hu := hD.u_nonneg
  have hC : 0 ≤ (1 - g) * ((1 + u) * (2 : ℝ) ^ δ) :=
    mul_nonneg (by linarith) (mul_nonneg (by linarith) (Real.rpow_pos_of_pos (by norm_num) _).le)
  obtain ⟨d, hd, hA⟩ := lockstep _ _ _ _ _ _ m m0 m' s h
  refine ⟨d, hd, fun q hq => ?_⟩
  rw [(hA q hq).1, (hA q hq).2]
  have inv := compress_inv _ _ _ _ _ _ m m' s h
    (fun p f => (∀ q, p ≤ q → f.u q = m.u q ∧ f.v q = m.v q) ∧ ∀ q,
      (f.u q = m.u q ∨ |f.u q - m.u q| < (1 - g) * ((1 + u) * (2 : ℝ) ^ δ) * B (m.u q)) ∧
      (f.v q = m.v q ∨ |f.v q - m.v q| < (1 - g) * ((1 + u) * (2 : ℝ) ^ δ) * B (m.v q)))
    ⟨fun _ _ => ⟨rfl, rfl⟩, fun _ => ⟨Or.inl rfl, Or.inl rfl⟩⟩
    (fun p f _ hI => ⟨fun q hq => hI.1 q (by omega), hI.2⟩)
    (fun p f x y hp hI hS => by
      obtain ⟨req, e0, q0, e1, q1, hb, hlt, c0, c1⟩ := hS
      have hpos : 0 < req := by
        have := of_decide_eq_true hlt
        have r0 : rD 0 = 0 := by simpa using hD.int 0 (by norm_num)
        simpa [roundedOps, r0] using this
      obtain ⟨eu, ev⟩ := hI.1 p (le_refl p)
      have key : ∀ z, absEb req z ≤ B z := hB f p req hb hpos
      have mono : ∀ z, (1 + u) * (B z * 2 ^ 52) < (2 : ℝ) ^ (1024 : ℕ) →
          (1 + u) * (absEb req z * 2 ^ 52) < (2 : ℝ) ^ (1024 : ℕ) := fun z hz =>
        lt_of_le_of_lt (mul_le_mul_of_nonneg_left
          (mul_le_mul_of_nonneg_right (key z) (by positivity)) (by linarith)) hz
      have k0 := encComp_rounded hT hg hD hl (mono _ (by rw [eu]; exact (hov p hp).1)) c0
      have k1 := encComp_rounded hT hg hD hl (mono _ (by rw [ev]; exact (hov p hp).2)) c1
      rw [eu] at k0
      rw [ev] at k1
      refine ⟨fun q hq => ?_, fun q => ?_⟩
      · have hne : q ≠ p := by omega
        simp only [Field.set, setAt, if_neg hne]
        exact hI.1 q (by omega)
      · by_cases hqp : q = p
        · subst hqp
          simp only [Field.set, setAt, if_true]
          exact ⟨Or.inr (k0.trans_le (mul_le_mul_of_nonneg_left (key _) hC)),
            Or.inr (k1.trans_le (mul_le_mul_of_nonneg_left (key _) hC))⟩
        · simp only [Field.set, setAt, if_neg hqp]
          exact hI.2 q)
  exact inv.2 q

end two

/-! ### 3D -/

section three
open CpSZ.VMode CpSZ.ThreeD CpSZ.Mesh3D

theorem encComp3_rounded {M : Mode ℝ ℝ} {rT rD lg : ℝ → ℝ} {g : ℝ} (hT : Guard rT g)
    (hO : M.O = roundedOps rT rD lg) {f : Nat → ℝ} {p : Nat} {k : ℤ}
    {q : Int} {x : ℝ} (h : VMode.encComp M f p ((2 : ℝ) ^ k) = some (q, x)) :
    |x - f p| < (1 - g) * (2 : ℝ) ^ k := by
  unfold VMode.encComp at h
  simp only [hO] at h
  split at h
  · cases h
  · split at h
    · cases h
    · rename_i hle
      simp only [Option.some.injEq, Prod.mk.injEq] at h
      obtain ⟨-, rfl⟩ := h
      apply hT
      simpa [roundedOps] using hle

theorem loop3_le_start {r1 r2 r3 : Nat} {B : ℝ}
    {body : ℝ → Int → (Nat → ℝ) → (Nat → ℝ) → (Nat → ℝ) → (Nat → ℝ) → ℝ × Bool}
    (hbody : ∀ req idx a b c d, req ≤ B → (body req idx a b c d).1 ≤ B)
    {f : Nat → Nat → ℝ} {i j k : Nat} (ns : List Nat) (req : ℝ) (hreq : req ≤ B) {r : ℝ}
    (h : loop3 r1 r2 r3 body f i j k ns req = some r) : r ≤ B := by
  induction ns generalizing req with
  | nil => simp only [loop3, Option.some.injEq] at h; rw [← h]; exact hreq
  | cons n ns ih =>
    unfold loop3 at h
    split at h
    · simp only at h
      split at h
      · rename_i a b c d _ _ _ _
        have hb := hbody req (cellIndex r2 r3 i j k n) a b c d hreq
        split at h
        · rename_i req' he
          rw [he] at hb
          simp only [Option.some.injEq] at h
          rw [← h]; exact hb
        · rename_i req' he
          rw [he] at hb
          exact ih _ hb h
      · cases h
    · exact ih _ hreq h

theorem planAbs3_le {rT rD lg : ℝ → ℝ} {u : ℝ} (hD : IsFloat rD u) {isZero nz : ℝ → Bool}
    {r1 r2 r3 : Nat} {maxEb : ℝ} (hm : 0 ≤ maxEb) {cp : Nat → Bool}
    {derive : (Nat → ℝ) → (Nat → ℝ) → (Nat → ℝ) → (Nat → ℝ) → ℝ} {s : State ℝ} {p : Nat} {a : ℝ}
    {id : Int}
    (h : planAbs3 (roundedOps rT rD lg) isZero nz r1 r2 r3 maxEb cp derive s p =
      some (.try a id)) : a ≤ maxEb := by
  have r0 : (roundedOps rT rD lg).ofInt 0 = 0 := by
    have : rD 0 = 0 := by simpa using hD.int 0 (by norm_num)
    simpa [roundedOps] using this
  unfold planAbs3 at h
  simp only at h
  have h0 : (if (isZero (s.val 0 p) || isZero (s.val 1 p) || isZero (s.val 2 p)) = true then
      (roundedOps rT rD lg).ofInt 0 else maxEb) ≤ maxEb := by
    split
    · rw [r0]; exact hm
    · exact le_refl _
  generalize (if (isZero (s.val 0 p) || isZero (s.val 1 p) || isZero (s.val 2 p)) = true then
      (roundedOps rT rD lg).ofInt 0 else maxEb) = req at h h0
  have key : ∀ r, (if nz req = true then required3 r1 r2 r3
      (absBody (roundedOps rT rD lg).toDOps cp derive) s.val p req else some req) = some r →
      r ≤ maxEb := by
    intro r hr
    split at hr
    · refine loop3_le_start (fun req idx a b c d hreq => ?_) _ _ h0 hr
      unfold absBody minBody
      split
      · exact r0.le.trans hm
      · simp only
        split
        · exact hreq
        · rename_i hlt
          have : ¬ (req < derive a b c d) := by simpa [roundedOps] using hlt
          exact (not_lt.1 this).trans hreq
    · simp only [Option.some.injEq] at hr; rw [← hr]; exact h0
  split at h
  · cases h
  · rename_i r hr
    have := key r hr
    simp only [Option.some.injEq] at h
    split at h
    · simp only [Plan.try.injEq] at h; rw [← h.1]; exact this
    · cases h

/-- The plan of the absolute mode never reads outside the arrays. -/
theorem planAbs3_defined {T D : Type} {O : Ops T D} {isZero : T → Bool} {nz : D → Bool}
    {r1 r2 r3 : Nat} {maxEb : D} {cp : Nat → Bool}
    {derive : (Nat → T) → (Nat → T) → (Nat → T) → (Nat → T) → D} {s : State T} {p : Nat}
    (hp : p < r1 * r2 * r3) :
    (planAbs3 O isZero nz r1 r2 r3 maxEb cp derive s p).isSome := by
  have key : ∀ (b : Bool) (req : D), (if b then required3 r1 r2 r3
      (absBody O.toDOps cp derive) s.val p req else some req).isSome := by
    intro b req
    cases b
    · rfl
    · exact required3_defined hp req
  unfold planAbs3
  simp only
  generalize (if (isZero (s.val 0 p) || isZero (s.val 1 p) || isZero (s.val 2 p)) = true then
    O.ofInt 0 else maxEb) = req
  obtain ⟨r, hr⟩ := Option.isSome_iff_exists.1 (key (nz req) req)
  rw [hr]
  rfl

theorem run3 {rT rD lg : ℝ → ℝ} {u g δ : ℝ} (hT : Guard rT g) (hg : g ≤ 1) (hD : IsFloat rD u)
    (hl : IsLog2 rD lg δ) {isZero nz : ℝ → Bool}
    {r1 r2 r3 : Nat} {maxEb : ℝ} (hm : 0 ≤ maxEb) {cp : Nat → Bool}
    {derive : (Nat → ℝ) → (Nat → ℝ) → (Nat → ℝ) → (Nat → ℝ) → ℝ} {data m0 : Arr ℝ}
    {s' : State ℝ} {str : VMode.Streams ℝ}
    (hov : (1 + u) * (maxEb * 2 ^ 52) < (2 : ℝ) ^ (1024 : ℕ))
    (h : VMode.compress (absMode3 (roundedOps rT rD lg) (Real.logb 2 4) (1 / 2 ^ 52) r2 r3 4 32768)
      (planAbs3 (roundedOps rT rD lg) isZero nz r1 r2 r3 maxEb cp derive) (r1 * r2 * r3) data =
        some (s', str)) :
    ∃ d, decompress1 (absMode3 (roundedOps rT rD lg) (Real.logb 2 4) (1 / 2 ^ 52) r2 r3 4 32768)
        (r1 * r2 * r3) m0 str = some d ∧
      ∀ c q, c < 3 → q < r1 * r2 * r3 →
        d.cod c q = data c q ∨ |d.cod c q - data c q| < (1 - g) * ((1 + u) * (2 : ℝ) ^ δ) * maxEb := by
  have hu := hD.u_nonneg
  have hC : 0 ≤ (1 - g) * ((1 + u) * (2 : ℝ) ^ δ) :=
    mul_nonneg (by linarith) (mul_nonneg (by linarith) (Real.rpow_pos_of_pos (by norm_num) _).le)
  obtain ⟨i1, i2⟩ := planAbs3_ids (O := roundedOps rT rD lg) (isZero := isZero)
    (nz := nz) (r1 := r1) (r2 := r2) (r3 := r3) (maxEb := maxEb) (cp := cp) (derive := derive)
  obtain ⟨d, hd, hA⟩ := lockstep1 _ _ _ (goodAbs3 (roundedOps rT rD lg) (Real.logb 2 4)
    (1 / 2 ^ 52) r2 r3 4 32768 _ _ i1 i2) data m0 s' str h
  refine ⟨d, hd, fun c q hc hq => ?_⟩
  rw [hA c q hc hq]
  have e4 : Real.logb 2 4 = ((2 : ℕ) : ℝ) := by
    rw [show (4 : ℝ) = 2 ^ 2 by norm_num, Real.logb_pow, Real.logb_self_eq_one (by norm_num)]
    norm_num
  have et : (1 / 2 ^ 52 : ℝ) = (2 : ℝ) ^ (-52 : ℤ) := by norm_num
  have inv := VMode.compress_inv _ _ _ data s' str h
    (fun p s => ∀ c q, c < 3 →
      s.cod c q = data c q ∨ |s.cod c q - data c q| < (1 - g) * ((1 + u) * (2 : ℝ) ^ δ) * maxEb)
    (fun _ _ _ => Or.inl rfl) (fun p s _ hI => hI)
    (fun p s s1 e qs hp hI hS hlater => by
      obtain ⟨a, id, rs, hpl, he, hpos, hr, -, h1, h2⟩ := hS.ex
      have ha := planAbs3_le hD hm hpl
      have ep : ebQuant (absMode3 (roundedOps rT rD lg) (Real.logb 2 4) (1 / 2 ^ 52) r2 r3 4
          32768).O.toDOps (absMode3 (roundedOps rT rD lg) (Real.logb 2 4) (1 / 2 ^ 52) r2 r3 4
          32768).base (absMode3 (roundedOps rT rD lg) (Real.logb 2 4) (1 / 2 ^ 52) r2 r3 4
          32768).logBase (absMode3 (roundedOps rT rD lg) (Real.logb 2 4) (1 / 2 ^ 52) r2 r3 4
          32768).thr a = ebQuant (roundedOps rT rD lg).toDOps (2 ^ 2) ((2 : ℕ) : ℝ)
            ((2 : ℝ) ^ (-52 : ℤ)) a := by
        rw [← e4, ← et]; rfl
      rw [ep] at he hr
      rw [he] at hpos
      obtain ⟨k, k1, k2⟩ := ebQuant_rounded (rT := rT) hD hl 2 (Or.inr rfl) (-52) a (by
        rw [← et, div_div_eq_mul_div, div_one]
        exact lt_of_le_of_lt (mul_le_mul_of_nonneg_left
          (mul_le_mul_of_nonneg_right ha (by positivity)) (by linarith)) hov) hpos
      rw [k1] at hr
      obtain ⟨l1, l2⟩ := encComps_spec _ _ _ _ _ _ hr
      rw [List.length_range] at l1
      intro c q hc
      by_cases hqp : q = p
      · subst hqp
        have hc' : c < (absMode3 (roundedOps rT rD lg) (Real.logb 2 4) (1 / 2 ^ 52) r2 r3 4
          32768).K := hc
        have hc1 := l2 c (by simpa using hc') (by omega)
        simp only [List.getElem_range] at hc1
        have hcod : s1.cod c q = rs[c].2 := by
          rw [h1, setCol_same (by simpa [l1] using hc')]; simp
        have hlt := encComp3_rounded hT rfl (q := rs[c].1) (x := rs[c].2) hc1
        rw [(hlater c q (le_refl q)).1] at hlt
        rw [hcod]
        exact Or.inr (hlt.trans_le ((mul_le_mul_of_nonneg_left k2 (by linarith)).trans (by
          rw [← mul_assoc]; exact mul_le_mul_of_nonneg_left ha hC)))
      · rw [h1, setCol_ne hqp]; exact hI c q hc)
  exact inv c q hc

end three

end CpSZ.Rounded
