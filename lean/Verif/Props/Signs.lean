import Verif.Props.Lattice
import Verif.AbsRounded
import Verif.Bound2DRounded
import Verif.VMode.Log2D
/-
C76: the sign convention of the components does not matter.
-/

namespace CpSZ

/-- Specification: the factor of a component whose sign is flipped if `b`. -/
noncomputable def sg (b : Bool) : ℝ := if b then -1 else 1

/-- Specification: the code of the negated difference. -/
def mirror (b : Bool) (R q : Int) : Int := if b then 2 * R - q else q

/-- Specification: apply `f` and `g` to the elements of a list in turn. -/
def alt {α : Type} (f g : α → α) : List α → List α
  | [] => []
  | [x] => [f x]
  | x :: y :: l => f x :: g y :: alt f g l

theorem sg_mul_self (b : Bool) : sg b * sg b = 1 := by cases b <;> norm_num [sg]

theorem abs_sg_mul (b : Bool) (x : ℝ) : |sg b * x| = |x| := by cases b <;> simp [sg]

theorem sg_mul_zero_iff (b : Bool) (x : ℝ) : sg b * x = 0 ↔ x = 0 := by cases b <;> simp [sg]

/-- What is needed of a rounding here. -/
theorem odd_sg {r : ℝ → ℝ} (h : ∀ x, r (-x) = -r x) (b : Bool) (x : ℝ) :
    r (sg b * x) = sg b * r x := by
  cases b
  · simp [sg]
  · simp [sg, h]

theorem linQuant_sg {rT rD lg : ℝ → ℝ} (hD : IsRounding rD) (b : Bool) (d e : ℝ) (cap R : Int) :
    linQuant (roundedOps rT rD lg).toDOps (sg b * d) e cap R =
      (linQuant (roundedOps rT rD lg).toDOps d e cap R).map (mirror b R) := by
  cases b
  · simp only [sg, Bool.false_eq_true, if_false, one_mul]
    cases linQuant (roundedOps rT rD lg).toDOps d e cap R <;> rfl
  · have hm : mirror true R = fun q => 2 * R - q := rfl
    simp only [sg, hm, if_true, neg_mul, one_mul]
    unfold linQuant
    simp only [roundedOps, abs_neg, decide_eq_true_eq]
    have d0 : rD ((0 : ℤ) : ℝ) = 0 := by simpa using hD.int 0 (by norm_num)
    have d1 : rD ((1 : ℤ) : ℝ) = 1 := by simpa using hD.int 1 (by norm_num)
    have d2 : rD ((2 : ℤ) : ℝ) = 2 := by simpa using hD.int 2 (by norm_num)
    split
    · simp only [Option.map_some, Option.some.injEq, d0, Left.neg_pos_iff]
      rcases lt_trichotomy d 0 with h | h | h
      · rw [if_pos h, if_neg (by linarith), neg_div, hD.odd, truncR_neg]
        ring
      · subst h
        have z : rD 0 = 0 := by simpa using d0
        have o : rD 1 = 1 := by simpa using d1
        have hh : rD (1 / 2) = 1 / 2 := by
          have := hD.pow2 (-1) (by norm_num) (by norm_num)
          norm_num at this ⊢
          exact this
        have ht : truncR (1 / 2) = 0 := by rw [truncR_nonneg (by norm_num)]; norm_num
        rw [if_neg (lt_irrefl _)]
        simp only [abs_zero, zero_div, z, zero_add, d1, d2, o, neg_div]
        rw [hD.odd, hh, truncR_neg, ht]
        ring
      · rw [if_neg (by linarith), if_pos h, neg_div, hD.odd, truncR_neg]
        ring
    · rfl

theorem linOffset_sg {rT rD lg : ℝ → ℝ} (hD : ∀ x, rD (-x) = -rD x) (b : Bool) (e : ℝ)
    (R q : Int) :
    linOffset (roundedOps rT rD lg).toDOps e R (mirror b R q) =
      sg b * linOffset (roundedOps rT rD lg).toDOps e R q := by
  cases b
  · simp [sg, mirror]
  · simp only [sg, mirror, if_true, linOffset, roundedOps]
    rw [show 2 * (2 * R - q - R) = -(2 * (q - R)) by ring, Int.cast_neg, hD, neg_mul, hD]
    ring

namespace Online2D

/-- Specification: the field with the signs of the first component flipped if `b` and those of
the second if `c`. -/
noncomputable def Field.flip (b c : Bool) (m : Field ℝ) : Field ℝ :=
  ⟨fun p => sg b * m.u p, fun p => sg c * m.v p⟩

/-- Specification: the streams of the flipped field: the same codes of the bounds, mirrored codes
of the values, negated values where they are stored. -/
noncomputable def Streams.flip (b c : Bool) (R : Int) (s : Streams ℝ) : Streams ℝ :=
  ⟨s.eb, alt (mirror b R) (mirror c R) s.dq, alt (sg b * ·) (sg c * ·) s.un⟩

theorem lorenzo_sg {rT rD lg : ℝ → ℝ} (hT : ∀ x, rT (-x) = -rT x) (b : Bool) (r2 : Nat)
    (f : Nat → ℝ) (p : Nat) :
    lorenzo (roundedOps rT rD lg) r2 (fun q => sg b * f q) p =
      sg b * lorenzo (roundedOps rT rD lg) r2 f p := by
  have hif : ∀ (c : Prop) [Decidable c] (x : ℝ), (if c then sg b * x else (0 : ℝ)) =
      sg b * (if c then x else 0) := by
    intro c _ x; split <;> simp
  unfold lorenzo
  simp only [roundedOps, hif]
  rw [← mul_add, odd_sg hT, ← mul_sub, odd_sg hT]

theorem encComp_sg {rT rD lg : ℝ → ℝ} (hT : IsRounding rT) (hD : IsRounding rD) (P : Par ℝ)
    (b : Bool) (r2 : Nat) (f : Nat → ℝ) (p : Nat) (e : ℝ) :
    encComp (roundedOps rT rD lg) P r2 (fun q => sg b * f q) p e =
      (encComp (roundedOps rT rD lg) P r2 f p e).map
        (fun w => (w.1, mirror b P.radius w.2.1, sg b * w.2.2)) := by
  unfold encComp
  rw [lorenzo_sg hT.odd]
  generalize ebQuant (roundedOps rT rD lg).toDOps P.base P.logBase P.thr e = E
  obtain ⟨eb, id⟩ := E
  dsimp only
  split
  · have hdiff : (roundedOps rT rD lg).toD ((roundedOps rT rD lg).subT (sg b * f p)
        (sg b * lorenzo (roundedOps rT rD lg) r2 f p)) = sg b * (roundedOps rT rD lg).toD
        ((roundedOps rT rD lg).subT (f p) (lorenzo (roundedOps rT rD lg) r2 f p)) := by
      show rT (_ - _) = sg b * rT (_ - _)
      rw [← mul_sub, odd_sg hT.odd]
    rw [hdiff, linQuant_sg hD]
    generalize linQuant (roundedOps rT rD lg).toDOps ((roundedOps rT rD lg).toD
        ((roundedOps rT rD lg).subT (f p) (lorenzo (roundedOps rT rD lg) r2 f p))) eb P.capacity
        P.radius = o
    cases o with
    | none => rfl
    | some q =>
      simp only [Option.map_some]
      rw [linOffset_sg hD.odd]
      generalize linOffset (roundedOps rT rD lg).toDOps eb P.radius q = off
      have hdec : (roundedOps rT rD lg).ofD ((roundedOps rT rD lg).add ((roundedOps rT rD lg).toD
          (sg b * lorenzo (roundedOps rT rD lg) r2 f p)) (sg b * off)) =
          sg b * (roundedOps rT rD lg).ofD ((roundedOps rT rD lg).add ((roundedOps rT rD lg).toD
          (lorenzo (roundedOps rT rD lg) r2 f p)) off) := by
        show rT (rD (_ + _)) = sg b * rT (rD (_ + _))
        rw [← odd_sg hT.odd, ← odd_sg hD.odd, mul_add]
        rfl
      rw [hdec]
      generalize (roundedOps rT rD lg).ofD ((roundedOps rT rD lg).add ((roundedOps rT rD lg).toD
          (lorenzo (roundedOps rT rD lg) r2 f p)) off) = x
      have habs : (roundedOps rT rD lg).abs ((roundedOps rT rD lg).toD
          ((roundedOps rT rD lg).subT (sg b * x) (sg b * f p))) =
          (roundedOps rT rD lg).abs ((roundedOps rT rD lg).toD
          ((roundedOps rT rD lg).subT x (f p))) := by
        show |rT (_ - _)| = |rT (_ - _)|
        rw [← mul_sub, odd_sg hT.odd, abs_sg_mul]
      rw [habs]
      split <;> rfl
  · rfl

/-- What one vertex contributes after the flip. -/
noncomputable def VCode.flip (b c : Bool) (R : Int) : VCode ℝ → VCode ℝ
  | .lossless u v => .lossless (sg b * u) (sg c * v)
  | .coded e0 e1 q0 q1 => .coded e0 e1 (mirror b R q0) (mirror c R q1)

theorem flip_set (b c : Bool) (m : Field ℝ) (p : Nat) (x y : ℝ) :
    (m.flip b c).set p (sg b * x) (sg c * y) = (m.set p x y).flip b c := by
  unfold Field.set Field.flip setAt
  congr 1 <;> funext q <;> simp only <;> split <;> rfl

theorem encVertex_flip {rT rD lg : ℝ → ℝ} (hT : IsRounding rT) (hD : IsRounding rD) (P : Par ℝ)
    (b c : Bool) (r2 : Nat) (absEb : ℝ → ℝ → ℝ) (bound : Field ℝ → Nat → Option ℝ)
    (ha : ∀ b req x, absEb req (sg b * x) = absEb req x)
    (hb : ∀ m p, bound (m.flip b c) p = bound m p) (m : Field ℝ) (p : Nat) :
    encVertex (roundedOps rT rD lg) P r2 absEb bound (m.flip b c) p =
      (encVertex (roundedOps rT rD lg) P r2 absEb bound m p).map
        (fun w => (w.1.flip b c, w.2.flip b c P.radius)) := by
  unfold encVertex
  rw [hb]
  cases bound m p with
  | none => rfl
  | some req =>
    dsimp only
    split
    · rw [show (m.flip b c).u = fun q => sg b * m.u q from rfl,
        show (m.flip b c).v = fun q => sg c * m.v q from rfl]
      dsimp only
      rw [ha, ha, encComp_sg hT hD, encComp_sg hT hD]
      cases encComp (roundedOps rT rD lg) P r2 m.u p (absEb req (m.u p)) with
      | none => rfl
      | some w =>
        cases encComp (roundedOps rT rD lg) P r2 m.v p (absEb req (m.v p)) with
        | none => rfl
        | some w' =>
          simp only [Option.map_some, flip_set]
          rfl
    · rfl

theorem scanEnc_map {σ ω : Type} (step step' : σ → Nat → Option (σ × ω)) (g : σ → σ) (h : ω → ω)
    (H : ∀ s p, step' (g s) p = (step s p).map (fun w => (g w.1, h w.2))) (n p : Nat) (s : σ) :
    scanEnc step' n p (g s) = (scanEnc step n p s).map (fun w => (g w.1, w.2.map h)) := by
  induction n generalizing p s with
  | zero => rfl
  | succ n ih =>
    unfold scanEnc
    rw [H]
    cases step s p with
    | none => rfl
    | some w =>
      simp only [Option.map_some]
      rw [ih]
      cases scanEnc step n (p + 1) w.1 with
      | none => rfl
      | some w' => rfl

theorem alt_flatMap {α β : Type} (f g : β → β) (k : α → List β) (h : α → α)
    (H : ∀ a, (k a = [] ∧ k (h a) = []) ∨ ∃ x y, k a = [x, y] ∧ k (h a) = [f x, g y]) (l : List α) :
    (l.map h).flatMap k = alt f g (l.flatMap k) := by
  induction l with
  | nil => rfl
  | cons a l ih =>
    rw [List.map_cons, List.flatMap_cons, List.flatMap_cons, ih]
    rcases H a with ⟨h1, h2⟩ | ⟨x, y, h1, h2⟩
    · rw [h1, h2]; rfl
    · rw [h1, h2]; rfl

/-- **C76** The 2D online modes, for any arithmetic with symmetric roundings: if the bound of a
vertex does not depend on the sign conventions, the field with the signs of one or both components
flipped compresses to the same codes of the bounds, mirrored codes of the values and negated
stored values, and the compressor's copy of the field is the flipped one. -/
theorem C76_compress {rT rD lg : ℝ → ℝ} (hT : IsRounding rT) (hD : IsRounding rD) (P : Par ℝ)
    (b c : Bool) (r1 r2 : Nat) (absEb : ℝ → ℝ → ℝ) (bound : Field ℝ → Nat → Option ℝ)
    (ha : ∀ b req x, absEb req (sg b * x) = absEb req x)
    (hb : ∀ m p, bound (m.flip b c) p = bound m p) (m : Field ℝ) :
    compress (roundedOps rT rD lg) P r1 r2 absEb bound (m.flip b c) =
      (compress (roundedOps rT rD lg) P r1 r2 absEb bound m).map
        (fun w => (w.1.flip b c, w.2.flip b c P.radius)) := by
  unfold compress
  rw [scanEnc_map _ _ (Field.flip b c) (VCode.flip b c P.radius)
    (encVertex_flip hT hD P b c r2 absEb bound ha hb)]
  cases scanEnc (encVertex (roundedOps rT rD lg) P r2 absEb bound) (r1 * r2) 0 m with
  | none => rfl
  | some w =>
    simp only [Option.map_some, Option.some.injEq, Prod.mk.injEq, true_and]
    unfold Streams.flip
    congr 1
    · rw [List.flatMap_map]
      congr 1
      funext a
      cases a <;> rfl
    · refine alt_flatMap _ _ _ _ (fun a => Or.inr ?_) _
      cases a with
      | lossless u v =>
        refine ⟨_, _, rfl, ?_⟩
        simp only [VCode.flip, VCode.dq]
        cases b <;> cases c <;> simp only [mirror, Bool.false_eq_true, if_false, if_true] <;>
          congr 1 <;> ring_nf
      | coded e0 e1 q0 q1 => exact ⟨_, _, rfl, rfl⟩
    · refine alt_flatMap _ _ _ _ (fun a => ?_) _
      cases a with
      | lossless u v => exact Or.inr ⟨_, _, rfl, rfl⟩
      | coded e0 e1 q0 q1 => exact Or.inl ⟨rfl, rfl⟩

/-- **C76** The decompressor on any streams, whether or not a compressor wrote them: the mirrored
streams decompress to the flipped field. -/
theorem C76_decompress {rT rD lg : ℝ → ℝ} (hT : ∀ x, rT (-x) = -rT x) (hD : ∀ x, rD (-x) = -rD x)
    (P : Par ℝ) (b c : Bool) (r1 r2 : Nat) (m0 : Field ℝ) (s : Streams ℝ) :
    decompress (roundedOps rT rD lg) P r1 r2 (m0.flip b c) (s.flip b c P.radius) =
      (decompress (roundedOps rT rD lg) P r1 r2 m0 s).map (Field.flip b c) := by
  have hx : ∀ (b : Bool) (f : Nat → ℝ) (p : Nat) (e : ℝ) (q : Int),
      (roundedOps rT rD lg).ofD ((roundedOps rT rD lg).add ((roundedOps rT rD lg).toD
        (lorenzo (roundedOps rT rD lg) r2 (fun q => sg b * f q) p))
        (linOffset (roundedOps rT rD lg).toDOps e P.radius (mirror b P.radius q))) =
      sg b * (roundedOps rT rD lg).ofD ((roundedOps rT rD lg).add ((roundedOps rT rD lg).toD
        (lorenzo (roundedOps rT rD lg) r2 f p))
        (linOffset (roundedOps rT rD lg).toDOps e P.radius q)) := by
    intro b f p e q
    rw [lorenzo_sg hT, linOffset_sg hD]
    show rT (rD (_ + _)) = sg b * rT (rD (_ + _))
    rw [← odd_sg hT, ← odd_sg hD, mul_add]
    rfl
  have hstep : ∀ (m : Field ℝ) (p : Nat) (s : Streams ℝ),
      decVertex (roundedOps rT rD lg) P r2 (m.flip b c) p (s.flip b c P.radius) =
        (decVertex (roundedOps rT rD lg) P r2 m p s).map
          (fun w => (w.1.flip b c, w.2.flip b c P.radius)) := by
    intro m p s
    obtain ⟨eb, dq, un⟩ := s
    match eb, dq with
    | [], _ => rfl
    | [_], _ => rfl
    | _ :: _ :: _, [] => rfl
    | _ :: _ :: _, [_] => rfl
    | e0 :: e1 :: ebs, q0 :: q1 :: dqs =>
      unfold decVertex Streams.flip
      simp only [alt]
      by_cases h0 : e0 = 0
      · rw [if_pos h0, if_pos h0]
        match un with
        | [] => rfl
        | [_] => rfl
        | x :: y :: uns =>
          simp only [alt, flip_set]
          rfl
      · rw [if_neg h0, if_neg h0]
        have h1 := hx b m.u p
        have h2 := hx c m.v p
        simp only [Field.flip, Option.map_some, Option.some.injEq, Prod.mk.injEq, and_true] at *
        rw [h1, h2]
        exact flip_set b c m p _ _
  unfold decompress
  have hscan : ∀ n p (m : Field ℝ) (s : Streams ℝ),
      scanDec (decVertex (roundedOps rT rD lg) P r2) n p (m.flip b c) (s.flip b c P.radius) =
        (scanDec (decVertex (roundedOps rT rD lg) P r2) n p m s).map
          (fun w => (w.1.flip b c, w.2.flip b c P.radius)) := by
    intro n
    induction n with
    | zero => intros; rfl
    | succ n ih =>
      intro p m s
      unfold scanDec
      rw [hstep]
      cases decVertex (roundedOps rT rD lg) P r2 m p s with
      | none => rfl
      | some w => exact ih _ _ _
  rw [hscan]
  cases scanDec (decVertex (roundedOps rT rD lg) P r2) (r1 * r2) 0 m0 s <;> rfl

/-! ### The bounds -/

theorem requiredLoop_flip (r1 r2 : Nat) (derive : Nat → ℝ → ℝ → ℝ → ℝ → ℝ → ℝ → Option ℝ)
    (b c : Bool) (hd : ∀ k u0 u1 u2 v0 v1 v2, derive k (sg b * u0) (sg b * u1) (sg b * u2)
      (sg c * v0) (sg c * v1) (sg c * v2) = derive k u0 u1 u2 v0 v1 v2) (m : Field ℝ) (p : Nat)
    (ks : List Nat) (req : Option ℝ) :
    Mesh2D.requiredLoop r1 r2 minfX derive (m.flip b c) p ks req =
      Mesh2D.requiredLoop r1 r2 minfX derive m p ks req := by
  have hrd : ∀ (b : Bool) (f : Nat → ℝ) (i : Int), Mesh2D.rd (r1 * r2) (fun q => sg b * f q) i =
      (Mesh2D.rd (r1 * r2) f i).map (sg b * ·) := by
    intro b f i
    unfold Mesh2D.rd
    split <;> rfl
  induction ks generalizing req with
  | nil => rfl
  | cons k ks ih =>
    unfold Mesh2D.requiredLoop
    split
    · rw [show (m.flip b c).u = fun q => sg b * m.u q from rfl,
        show (m.flip b c).v = fun q => sg c * m.v q from rfl]
      simp only [hrd]
      cases Mesh2D.rd (r1 * r2) m.u (p + Mesh2D.offsets r2 k) with
      | none => rfl
      | some u0 =>
        cases Mesh2D.rd (r1 * r2) m.u (p + Mesh2D.offsets r2 (k + 1)) with
        | none => rfl
        | some u1 =>
          cases Mesh2D.rd (r1 * r2) m.v (p + Mesh2D.offsets r2 k) with
          | none => rfl
          | some v0 =>
            cases Mesh2D.rd (r1 * r2) m.v (p + Mesh2D.offsets r2 (k + 1)) with
            | none => rfl
            | some v1 =>
              simp only [Option.map_some]
              rw [hd]
              exact ih _
    · exact ih _

theorem keepAbsR_sg (rF : ℝ → ℝ) (b c d : Bool) (A B C : ℝ) :
    keepAbsR rF (sg b * A) (sg c * B) (sg d * C) = keepAbsR rF A B C := by
  unfold keepAbsR
  rw [abs_sg_mul, abs_sg_mul, abs_sg_mul]

theorem deriveAbsR_sg {rT rF rD : ℝ → ℝ} (hT : ∀ x, rT (-x) = -rT x) (hD : ∀ x, rD (-x) = -rD x)
    (b c : Bool) (u0 u1 u2 v0 v1 v2 : ℝ) :
    deriveAbsR rT rF rD (sg b * u0) (sg b * u1) (sg b * u2) (sg c * v0) (sg c * v1) (sg c * v2) =
      deriveAbsR rT rF rD u0 u1 u2 v0 v1 v2 := by
  have hp : ∀ x y : ℝ, sg b * x * (sg c * y) = sg (xor b c) * (x * y) := by
    intro x y; cases b <;> cases c <;> simp [sg]
  have hq : ∀ x y : ℝ, sg (xor b c) * x / (sg (xor b c) * y) = x / y := by
    intro x y
    exact mul_div_mul_left _ _ (by cases b <;> cases c <;> norm_num [sg])
  have hn : ∀ (b : Bool) (x : ℝ), -(sg b * x) = sg b * -x := by intro b x; ring
  unfold deriveAbsR
  simp only [hp, odd_sg hT, odd_sg hD, ← mul_sub, ← mul_add, hq, sg_mul_zero_iff, hn, keepAbsR_sg]

theorem boundAbsR_flip {rT rF rD : ℝ → ℝ} (hT : ∀ x, rT (-x) = -rT x)
    (hD : ∀ x, rD (-x) = -rD x) (b c : Bool) (r1 r2 : Nat) (maxEb : ℝ) (m : Field ℝ) (p : Nat) :
    boundAbsR rT rF rD r1 r2 maxEb (m.flip b c) p = boundAbsR rT rF rD r1 r2 maxEb m p := by
  unfold boundAbsR Mesh2D.requiredEb
  rw [requiredLoop_flip r1 r2 _ b c (fun _ => deriveAbsR_sg hT hD b c)]
  have h1 : (m.flip b c).u p = 0 ↔ m.u p = 0 := sg_mul_zero_iff b _
  have h2 : (m.flip b c).v p = 0 ↔ m.v p = 0 := sg_mul_zero_iff c _
  simp only [h1, h2]

theorem keepSignR_neg {rT rF rD : ℝ → ℝ} (hT : ∀ x, rT (-x) = -rT x) (A B C : ℝ) :
    keepSignR rT rF rD (-A) (-B) (-C) = keepSignR rT rF rD A B C := by
  unfold keepSignR
  rw [abs_neg, abs_neg, ← neg_add, hT, ← neg_add, hT, abs_neg]

theorem deriveOnlineR_neg {rT rF rD : ℝ → ℝ} (hT : ∀ x, rT (-x) = -rT x)
    (hD : ∀ x, rD (-x) = -rD x) (u0 u1 u2 v0 v1 v2 c0 c1 c2 c3 : ℝ) :
    deriveOnlineR rT rF rD (-u0) (-u1) (-u2) (-v0) (-v1) (-v2) c0 c1 c2 c3 =
      deriveOnlineR rT rF rD u0 u1 u2 v0 v1 v2 c0 c1 c2 c3 := by
  have hk : keepTypeR rT rF rD (-u0) (-u1) (-u2) (-v0) (-v1) (-v2) c0 c1 c2 c3 =
      keepTypeR rT rF rD u0 u1 u2 v0 v1 v2 c0 c1 c2 c3 := by
    have hA : ∀ a b x : ℝ, rT (rT (a * x) - rT (b * -x)) = -rT (rT (-a * x) - rT (b * x)) := by
      intro a b x
      rw [mul_neg b, neg_mul a, hT (b * x), hT (a * x), sub_neg_eq_add, ← neg_add', hT, neg_neg]
    have hC : rT (rT (rT (rT (c0 * -u0) + rT (c1 * -u1)) + rT (c2 * -v0)) + rT (c3 * -v1)) =
        -rT (rT (rT (rT (c0 * u0) + rT (c1 * u1)) + rT (c2 * v0)) + rT (c3 * v1)) := by
      rw [mul_neg, mul_neg, mul_neg, mul_neg, hT, hT, hT, hT, ← neg_add, hT, ← neg_add, hT,
        ← neg_add, hT]
    unfold keepTypeR
    simp only [neg_mul_neg]
    simp only [hA, hC]
    simp only [keepSignR_neg hT, ← neg_add, hD, mul_neg, neg_mul, neg_neg, abs_neg]
  unfold deriveOnlineR
  simp only [neg_mul_neg, neg_neg, hk]
  simp only [neg_mul, mul_neg]

theorem boundOnlineR_flip {rT rF rD : ℝ → ℝ} (hT : ∀ x, rT (-x) = -rT x)
    (hD : ∀ x, rD (-x) = -rD x) (b : Bool) (r1 r2 : Nat) (maxEb : ℝ) (m : Field ℝ) (p : Nat) :
    boundOnlineR rT rF rD r1 r2 maxEb (m.flip b b) p = boundOnlineR rT rF rD r1 r2 maxEb m p := by
  unfold boundOnlineR Mesh2D.requiredEb
  rw [requiredLoop_flip r1 r2 _ b b]
  intro k u0 u1 u2 v0 v1 v2
  cases b
  · simp [sg]
  · simp only [sg, if_true, neg_mul, one_mul]
    exact deriveOnlineR_neg hT hD ..

theorem flip_flip (b c : Bool) (m : Field ℝ) : (m.flip b c).flip b c = m := by
  unfold Field.flip
  simp only [← mul_assoc, sg_mul_self, one_mul]

/-- **C76** The absolute mode in floating point: the signs of the two components may be flipped
independently.  Whatever the output arrays contain before, the streams of the flipped field
decompress to the flip of what the streams of the field decompress to. -/
theorem C76_absolute {rT rF rD lg : ℝ → ℝ} (hT : IsRounding rT) (hD : IsRounding rD)
    (b c : Bool) (r1 r2 : Nat) (maxEb : ℝ) (m m' : Field ℝ) (s : Streams ℝ)
    (h : compress (roundedOps rT rD lg) parOnline r1 r2 (fun req _ => req)
      (boundAbsR rT rF rD r1 r2 maxEb) m = some (m', s)) :
    ∃ s', compress (roundedOps rT rD lg) parOnline r1 r2 (fun req _ => req)
        (boundAbsR rT rF rD r1 r2 maxEb) (m.flip b c) = some (m'.flip b c, s') ∧
      s'.eb = s.eb ∧ s'.dq.length = s.dq.length ∧ s'.un.length = s.un.length ∧
      ∀ m0, decompress (roundedOps rT rD lg) parOnline r1 r2 m0 s' =
        (decompress (roundedOps rT rD lg) parOnline r1 r2 (m0.flip b c) s).map
          (Field.flip b c) := by
  have hlen : ∀ {α : Type} (f g : α → α) (l : List α), (alt f g l).length = l.length := by
    intro α f g l
    fun_induction alt f g l <;> simp_all
  refine ⟨s.flip b c parOnline.radius, ?_, rfl, hlen _ _ _, hlen _ _ _, fun m0 => ?_⟩
  · rw [C76_compress hT hD parOnline b c r1 r2 _ _ (fun _ _ _ => rfl)
      (boundAbsR_flip hT.odd hD.odd b c r1 r2 maxEb), h]
    rfl
  · rw [← C76_decompress hT.odd hD.odd, flip_flip]

/-- **C76** The relative mode in floating point: the signs of both components may be flipped
together. -/
theorem C76_relative_partial {rT rF rD lg : ℝ → ℝ} (hT : IsRounding rT) (hD : IsRounding rD)
    (b : Bool) (r1 r2 : Nat) (maxEb : ℝ) (m m' : Field ℝ) (s : Streams ℝ)
    (h : compress (roundedOps rT rD lg) parOnline r1 r2 (fun req cur => rD (|cur| * req))
      (boundOnlineR rT rF rD r1 r2 maxEb) m = some (m', s)) :
    ∃ s', compress (roundedOps rT rD lg) parOnline r1 r2 (fun req cur => rD (|cur| * req))
        (boundOnlineR rT rF rD r1 r2 maxEb) (m.flip b b) = some (m'.flip b b, s') ∧
      s'.eb = s.eb ∧ s'.dq.length = s.dq.length ∧ s'.un.length = s.un.length ∧
      ∀ m0, decompress (roundedOps rT rD lg) parOnline r1 r2 m0 s' =
        (decompress (roundedOps rT rD lg) parOnline r1 r2 (m0.flip b b) s).map
          (Field.flip b b) := by
  have hlen : ∀ {α : Type} (f g : α → α) (l : List α), (alt f g l).length = l.length := by
    intro α f g l
    fun_induction alt f g l <;> simp_all
  refine ⟨s.flip b b parOnline.radius, ?_, rfl, hlen _ _ _, hlen _ _ _, fun m0 => ?_⟩
  · rw [C76_compress hT hD parOnline b b r1 r2 _ _
      (fun b req x => by rw [abs_sg_mul]) (boundOnlineR_flip hT.odd hD.odd b r1 r2 maxEb), h]
    rfl
  · rw [← C76_decompress hT.odd hD.odd, flip_flip]

/-- The critical point of this field at the triangle of the vertices 0, 1 and 3 is a saddle; with
the signs of the first component flipped it is a node with a double eigenvalue. -/
noncomputable def exOneSign : Field ℝ :=
  ⟨fun p => if p = 0 then -1 else if p = 1 then 1 else 0,
    fun p => if p = 0 ∨ p = 1 then 1 else if p = 3 then -1 else 0⟩

/-- **C76** In the relative mode the sign of one component alone does matter: the bound of vertex
1 is the limit given by the user for the field and zero (the vertex is stored verbatim) for the
field with the signs of the first component flipped. -/
theorem C76_one_sign_matters :
    boundOnline 2 2 (1 / 10) exOneSign 1 = some (1 / 10) ∧
    boundOnline 2 2 (1 / 10) (exOneSign.flip true false) 1 = some 0 := by
  have hin : Mesh2D.inMesh 2 2 (1 / 2) (1 % 2) 0 = false ∧
      Mesh2D.inMesh 2 2 (1 / 2) (1 % 2) 1 = false ∧
      Mesh2D.inMesh 2 2 (1 / 2) (1 % 2) 2 = true ∧
      Mesh2D.inMesh 2 2 (1 / 2) (1 % 2) 3 = false ∧
      Mesh2D.inMesh 2 2 (1 / 2) (1 % 2) 4 = false ∧
      Mesh2D.inMesh 2 2 (1 / 2) (1 % 2) 5 = false := by decide
  obtain ⟨i0, i1, i2, i3, i4, i5⟩ := hin
  have c0 : Mesh2D.invC 2 0 = -1 := by norm_num [Mesh2D.invC, Mesh2D.tab, Mesh2D.tx, Mesh2D.ty]
  have c1 : Mesh2D.invC 2 1 = 0 := by norm_num [Mesh2D.invC, Mesh2D.tab, Mesh2D.tx, Mesh2D.ty]
  have c2 : Mesh2D.invC 2 2 = 0 := by norm_num [Mesh2D.invC, Mesh2D.tab, Mesh2D.tx, Mesh2D.ty]
  have c3 : Mesh2D.invC 2 3 = 1 := by norm_num [Mesh2D.invC, Mesh2D.tab, Mesh2D.tx, Mesh2D.ty]
  have key : ∀ m : Field ℝ, boundOnline 2 2 (1 / 10) m 1 = some ((minfX (some (1 / 10))
      (deriveOnline (m.u 0) (m.u 3) (m.u 1) (m.v 0) (m.v 3) (m.v 1) (-1) 0 0 1)).getD 0) := by
    intro m
    unfold boundOnline Mesh2D.requiredEb
    simp only [Mesh2D.requiredLoop, i0, i1, i2, i3, i4, i5, Bool.false_eq_true, if_false, if_true]
    norm_num [Mesh2D.rd, Mesh2D.offsets, deriveK, c0, c1, c2, c3]
    rfl
  rw [key, key]
  constructor
  · norm_num [exOneSign, deriveOnline, keepPosition, keepSign, keepType, minfX, minf]
  · norm_num [exOneSign, Field.flip, sg, deriveOnline, keepPosition, keepSign, keepType, minfX,
      minf]

end Online2D

/-! ### The block codecs -/

namespace Block
open Buf3

/-- Specification: the code of the flipped value; `0` marks values that are stored. -/
def mirror0 (b : Bool) (R t : Int) : Int := if t = 0 then 0 else mirror b R t

theorem quantize_sg {rT rD lg : ℝ → ℝ} (hT : IsRounding rT) (hD : IsRounding rD) (b : Bool)
    (pred cur prec : ℝ) (cap R : Int) :
    (quantize (roundedQ rT rD lg) (sg b * pred) (sg b * cur) prec cap R).2.1 =
        sg b * (quantize (roundedQ rT rD lg) pred cur prec cap R).2.1 ∧
      (quantize (roundedQ rT rD lg) (sg b * pred) (sg b * cur) prec cap R).2.2 =
        (quantize (roundedQ rT rD lg) pred cur prec cap R).2.2.map (sg b * ·) ∧
      (0 < prec → cap = 2 * R → 2 * R ≤ 2 ^ 24 →
        (quantize (roundedQ rT rD lg) (sg b * pred) (sg b * cur) prec cap R).1 =
          mirror0 b R (quantize (roundedQ rT rD lg) pred cur prec cap R).1) := by
  have hq0 : ∀ q, 0 < prec → cap = 2 * R → 2 * R ≤ 2 ^ 24 → linQuant (roundedQ rT rD lg).toDOps
      ((roundedQ rT rD lg).diff cur pred) prec cap R = some q → q ≠ 0 := by
    rintro q hp rfl hR h
    have := linQuant_range (rT := rT) hD _ prec R hp hR q h
    omega
  unfold quantize
  have hdiff : (roundedQ rT rD lg).diff (sg b * cur) (sg b * pred) =
      sg b * (roundedQ rT rD lg).diff cur pred := by
    show rT (_ - _) = sg b * rT (_ - _)
    rw [← mul_sub, odd_sg hT.odd]
  have hl : linQuant (roundedQ rT rD lg).toDOps (sg b * (roundedQ rT rD lg).diff cur pred) prec cap
      R = (linQuant (roundedQ rT rD lg).toDOps ((roundedQ rT rD lg).diff cur pred) prec cap
      R).map (mirror b R) :=
    linQuant_sg (rT := rT) hD b _ _ _ _
  rw [hdiff, hl]
  revert hq0
  generalize linQuant (roundedQ rT rD lg).toDOps ((roundedQ rT rD lg).diff cur pred) prec cap R = o
  intro hq0
  cases o with
  | none => exact ⟨rfl, rfl, fun _ _ _ => rfl⟩
  | some q =>
    simp only [Option.map_some]
    have hoff : linOffset (roundedQ rT rD lg).toDOps prec R (mirror b R q) =
        sg b * linOffset (roundedQ rT rD lg).toDOps prec R q :=
      linOffset_sg (rT := rT) (lg := lg) hD.odd b prec R q
    rw [hoff]
    generalize linOffset (roundedQ rT rD lg).toDOps prec R q = off
    have hdec : (roundedQ rT rD lg).addTo (sg b * pred) (sg b * off) =
        sg b * (roundedQ rT rD lg).addTo pred off := by
      show rT (rD (_ + _)) = sg b * rT (rD (_ + _))
      rw [← odd_sg hT.odd, ← odd_sg hD.odd, mul_add]
    rw [hdec]
    generalize (roundedQ rT rD lg).addTo pred off = x
    have hdist : (roundedQ rT rD lg).dist (sg b * x) (sg b * cur) =
        (roundedQ rT rD lg).dist x cur := by
      show |rT (_ - _)| = |rT (_ - _)|
      rw [← mul_sub, odd_sg hT.odd, abs_sg_mul]
    rw [hdist]
    split
    · refine ⟨rfl, rfl, fun hp hc hR => ?_⟩
      simp only [mirror0, if_neg (hq0 q hp hc hR rfl)]
    · exact ⟨rfl, rfl, fun _ _ _ => rfl⟩

theorem lor2_sg {rT rF rD lg : ℝ → ℝ} (hT : ∀ x, rT (-x) = -rT x) (hF : ∀ x, rF (-x) = -rF x)
    (b : Bool) (d2 : Nat) (R : Nat → ℝ) (X Y : Nat) :
    lorGrid2 (roundedB rT rF rD lg) d2 (fun p => sg b * R p) X Y =
      sg b * lorGrid2 (roundedB rT rF rD lg) d2 R X Y := by
  have hif : ∀ (c : Prop) [Decidable c] (x : ℝ), (if c then (0 : ℝ) else sg b * x) =
      sg b * (if c then 0 else x) := by
    intro c _ x; split <;> simp
  unfold lorGrid2
  simp only [roundedB, hif]
  rw [← mul_add, odd_sg hT, ← mul_sub, odd_sg hT, odd_sg hF]

theorem lor3_sg {rT rF rD lg : ℝ → ℝ} (hT : ∀ x, rT (-x) = -rT x) (hF : ∀ x, rF (-x) = -rF x)
    (b : Bool) (d2 d3 : Nat) (o : Nat × Nat × Nat) (R : Nat → ℝ) (X Y Z : Nat) :
    lorGrid3 (roundedB rT rF rD lg) d2 d3 o (fun p => sg b * R p) X Y Z =
      sg b * lorGrid3 (roundedB rT rF rD lg) d2 d3 o R X Y Z := by
  have hif : ∀ (c : Prop) [Decidable c] (x : ℝ), (if c then (0 : ℝ) else sg b * x) =
      sg b * (if c then 0 else x) := by
    intro c _ x; split <;> simp
  unfold lorGrid3 padAt
  simp only [roundedB, hif]
  rw [← mul_add, odd_sg hT, ← mul_add, odd_sg hT, ← mul_sub, odd_sg hT, ← mul_sub, odd_sg hT,
    ← mul_sub, odd_sg hT, ← mul_add, odd_sg hT, odd_sg hF]

/-- **C76** The 2D codec with one bound per point: the flipped field decompresses to the flipped
values. -/
theorem C76_block_2d {rT rF rD lg : ℝ → ℝ} (hT : IsRounding rT) (hF : ∀ x, rF (-x) = -rF x)
    (hD : IsRounding rD) (b : Bool) (data prec : Nat → ℝ) (r1 r2 bs : Nat) (h1 : 0 < r1)
    (h2 : 0 < r2) (hb : 0 < bs) (out0 out1 : Nat → ℝ) :
    ∀ p < r1 * r2, writes out0
      (outEb2 (roundedB rT rF rD lg) (fun p => sg b * data p) prec r1 r2 bs).recon p =
      sg b * writes out1 (outEb2 (roundedB rT rF rD lg) data prec r1 r2 bs).recon p := by
  set B := roundedB rT rF rD lg with hB
  have key : ∀ (data out0 : Nat → ℝ), IsRecon B (cfg2 B r2 bs (false, B.zeroT) 32768 prec true
      B.tenth (fun _ _ _ _ => none)) r2 (r1 * r2) data
      (writes out0 (outEb2 B data prec r1 r2 bs).recon) := by
    intro data out0 p hp
    exact (plan_recon B r1 r2 bs h1 h2 hb (cfg2 B r2 bs (false, B.zeroT) 32768 prec true B.tenth
      (fun _ _ _ _ => none)) rfl rfl
      (regAt2_buf B) (fun _ _ _ _ => rfl) data
      (List.replicate 3 B.zeroF) out0).1 p hp
  have hR := key data out1
  generalize writes out1 (outEb2 B data prec r1 r2 bs).recon = R at hR ⊢
  refine isRecon_unique B _ r2 (r1 * r2) h2 (fun p => sg b * data p) _ (fun p => sg b * R p)
    (key _ out0) (fun p hp => ?_)
  rw [hB, lor2_sg hT.odd hF, ← hB]
  simp only
  conv_lhs => rw [hR p hp]
  unfold lorStep
  simp only [cfg2, Bool.true_and, Bool.false_eq_true, if_false]
  by_cases hz : B.isZero (prec p) = true
  · rw [if_pos hz, if_pos hz]
  · rw [if_neg hz, if_neg hz]
    exact (quantize_sg hT hD b _ _ _ _ _).1.symm

/-- **C76** The codes are mirrored, those of stored values stay zero. -/
theorem C76_block_2d_codes {rT rF rD lg : ℝ → ℝ} (hT : IsRounding rT)
    (hF : ∀ x, rF (-x) = -rF x) (hD : IsRounding rD) (b : Bool) (data prec : Nat → ℝ)
    (r1 r2 bs : Nat) (h1 : 0 < r1) (h2 : 0 < r2) (hb : 0 < bs)
    (hp : ∀ p < r1 * r2, 0 ≤ prec p) :
    (outEb2 (roundedB rT rF rD lg) (fun p => sg b * data p) prec r1 r2 bs).ty =
      (outEb2 (roundedB rT rF rD lg) data prec r1 r2 bs).ty.map (mirror0 b 32768) := by
  have hval := C76_block_2d (lg := lg) hT hF hD b data prec r1 r2 bs h1 h2 hb (fun _ => 0)
    (fun _ => 0)
  set B := roundedB rT rF rD lg with hB
  have key : ∀ (data : Nat → ℝ), List.Forall₂ (fun (w : Nat × ℝ) t => ∃ un, lorStep
      (cfg2 B r2 bs (false, B.zeroT) 32768 prec true B.tenth (fun _ _ _ _ => none))
      (lorGrid2 B r2 (writes (fun _ => 0) (outEb2 B data prec r1 r2 bs).recon)
        (w.1 / r2) (w.1 % r2)) (data w.1) (prec w.1) = (t, un, w.2))
      (outEb2 B data prec r1 r2 bs).recon (outEb2 B data prec r1 r2 bs).ty := by
    intro data
    exact (plan_recon B r1 r2 bs h1 h2 hb (cfg2 B r2 bs (false, B.zeroT) 32768 prec true B.tenth
      (fun _ _ _ _ => none)) rfl rfl
      (regAt2_buf B) (fun _ _ _ _ => rfl) data
      (List.replicate 3 B.zeroF) (fun _ => 0)).2
  have hfst : ∀ data, (outEb2 B data prec r1 r2 bs).recon.map Prod.fst =
      positions (planC2 r1 r2 bs) := by
    intro data
    unfold outEb2
    rw [runEnc_recon_pos]
  have hpos : ∀ data, ∀ w ∈ (outEb2 B data prec r1 r2 bs).recon, w.1 < r1 * r2 := by
    intro data w hw
    have : w.1 ∈ (outEb2 B data prec r1 r2 bs).recon.map Prod.fst := List.mem_map_of_mem hw
    rw [hfst] at this
    exact List.mem_range.1 ((tiling2 r1 r2 bs h1 h2 hb).mem_iff.1 this)
  have k1 := key data
  have k2 := key (fun p => sg b * data p)
  have f1 := hfst data
  have f2 := hfst (fun p => sg b * data p)
  have p1 := hpos data
  generalize writes (fun _ => 0) (outEb2 B data prec r1 r2 bs).recon = R at *
  generalize writes (fun _ => 0) (outEb2 B (fun p => sg b * data p) prec r1 r2 bs).recon = R' at *
  generalize (outEb2 B data prec r1 r2 bs).recon = l at *
  generalize (outEb2 B (fun p => sg b * data p) prec r1 r2 bs).recon = l' at *
  rw [← f1] at f2
  obtain ⟨n1, g1⟩ := List.forall₂_iff_get.1 k1
  obtain ⟨n2, g2⟩ := List.forall₂_iff_get.1 k2
  have hll : l'.length = l.length := by
    have := congrArg List.length f2
    simpa using this
  refine List.ext_getElem (by rw [List.length_map]; omega) (fun i hi hi' => ?_)
  rw [List.length_map] at hi'
  rw [List.getElem_map]
  obtain ⟨un, s1⟩ := g1 i (by omega) hi'
  obtain ⟨un', s2⟩ := g2 i (by omega) hi
  have hq : (l'.get ⟨i, by omega⟩).1 = (l.get ⟨i, by omega⟩).1 := by
    have := List.getElem_of_eq f2 (i := i) (by rw [List.length_map]; omega)
    simpa using this
  have hlt := p1 _ (List.get_mem l ⟨i, by omega⟩)
  rw [hq] at s2
  simp only [List.get_eq_getElem] at s1 s2 hlt hq
  generalize (l[i]'(by omega)) = w at *
  generalize (l'[i]'(by omega)) = w' at *
  generalize (outEb2 B data prec r1 r2 bs).ty[i] = t at *
  generalize (outEb2 B (fun p => sg b * data p) prec r1 r2 bs).ty[i] = t' at *
  obtain ⟨p, v⟩ := w
  simp only at s1 s2 hlt hq
  have hg : lorGrid2 B r2 R' (p / r2) (p % r2) = sg b * lorGrid2 B r2 R (p / r2) (p % r2) := by
    rw [hB, ← lor2_sg hT.odd hF]
    have hpe : p = (p / r2) * r2 + p % r2 := by
      rw [Nat.mul_comm]; exact (Nat.div_add_mod p r2).symm
    have hY := Nat.mod_lt p h2
    refine lorGrid2_congr _ _ _ _ _ _ (fun _ => hval _ ?_) (fun h => hval _ ?_)
      (fun h h' => hval _ ?_)
    · omega
    · obtain ⟨X, hX⟩ : ∃ k, p / r2 = k + 1 := Nat.exists_eq_succ_of_ne_zero h.ne'
      rw [hX] at hpe ⊢
      rw [Nat.add_sub_cancel]
      rw [Nat.add_mul] at hpe
      omega
    · obtain ⟨X, hX⟩ : ∃ k, p / r2 = k + 1 := Nat.exists_eq_succ_of_ne_zero h.ne'
      rw [hX] at hpe ⊢
      rw [Nat.add_sub_cancel]
      rw [Nat.add_mul] at hpe
      omega
  rw [hg] at s2
  unfold lorStep at s1 s2
  simp only [cfg2, Bool.true_and, Bool.false_eq_true, if_false] at s1 s2
  by_cases hz : B.isZero (prec p) = true
  · rw [if_pos hz] at s1 s2
    simp only [Prod.mk.injEq] at s1 s2
    rw [← s1.1, ← s2.1]
    rfl
  · rw [if_neg hz] at s1 s2
    simp only [Prod.mk.injEq] at s1 s2
    rw [← s1.1, ← s2.1]
    have hne : prec p ≠ 0 := fun h => hz (by rw [hB]; exact decide_eq_true h)
    exact (quantize_sg hT hD b _ _ _ _ _).2.2 (lt_of_le_of_ne (hp p hlt) hne.symm) (by norm_num)
      (by norm_num)

/-- **C76** The 3D codec with one bound per point. -/
theorem C76_block_3d {rT rF rD lg : ℝ → ℝ} (hT : IsRounding rT) (hF : ∀ x, rF (-x) = -rF x)
    (hD : IsRounding rD) (b : Bool) (data prec : Nat → ℝ) (r1 r2 r3 bs : Nat) (h1 : 0 < r1)
    (h2 : 0 < r2) (h3 : 0 < r3) (hb : 0 < bs) (out0 out1 : Nat → ℝ) :
    ∀ X < r1, ∀ Y < r2, ∀ Z < r3, writes out0 (outEb3 (roundedB rT rF rD lg)
        (fun p => sg b * data p) prec r1 r2 r3 bs).recon (idx3 r2 r3 X Y Z) =
      sg b * writes out1 (outEb3 (roundedB rT rF rD lg) data prec r1 r2 r3 bs).recon
        (idx3 r2 r3 X Y Z) := by
  set B := roundedB rT rF rD lg with hB
  have hR := eb3_recon B data prec r1 r2 r3 bs h1 h2 h3 hb out1
  generalize writes out1 (outEb3 B data prec r1 r2 r3 bs).recon = R at hR ⊢
  refine Buf3.isRecon_unique B ⟨r1, r2, r3, bs, false⟩ (cfgEb3 B r2 r3 bs prec)
    (fun _ _ _ _ => rfl) (fun p => sg b * data p) _ (fun p => sg b * R p)
    (eb3_recon B _ prec r1 r2 r3 bs h1 h2 h3 hb out0) (fun X hX Y hY Z hZ _ => ?_)
  rw [hB, lor3_sg hT.odd hF, ← hB]
  simp only
  conv_lhs => rw [hR X hX Y hY Z hZ rfl]
  unfold lorStep
  simp only [cfgEb3, cfg3, Bool.true_and, Bool.false_eq_true, if_false]
  by_cases hz : B.isZero (prec (idx3 r2 r3 X Y Z)) = true
  · rw [if_pos hz, if_pos hz]
  · rw [if_neg hz, if_neg hz]
    exact (quantize_sg hT hD b _ _ _ _ _).1.symm

-- `float` data with `double` bounds, some of them zero.
example (data : Nat → ℝ) (out0 : Nat → ℝ) : ∀ p < 7 * 9,
    writes out0 (outEb2 (roundedB (fl nearest 24) (fl nearest 24) (fl nearest 53) (Real.logb 2))
      (fun p => -1 * data p) (fun p => if p % 3 = 0 then 0 else 1 / 10) 7 9 4).recon p =
    -1 * writes out0 (outEb2 (roundedB (fl nearest 24) (fl nearest 24) (fl nearest 53)
      (Real.logb 2)) data (fun p => if p % 3 = 0 then 0 else 1 / 10) 7 9 4).recon p := by
  have h24 := (fl_isFloat (p := 24) nearest_rounding (by norm_num)).toIsRounding
  have h53 := (fl_isFloat (p := 53) nearest_rounding (by norm_num)).toIsRounding
  exact C76_block_2d h24 h24.odd h53 true data _ 7 9 4 (by norm_num) (by norm_num) (by norm_num)
    out0 out0

end Block

namespace Online2D

-- Both modes, `float` data: the hypotheses hold for every field.
example (m : Field ℝ) (maxEb : ℝ) : ∃ m' s s',
    compress (roundedOps (fl nearest 24) (fl nearest 53) (Real.logb 2)) parOnline 5 6
      (fun req _ => req) (boundAbsR (fl nearest 24) (fl nearest 24) (fl nearest 53) 5 6 maxEb) m =
        some (m', s) ∧
    compress (roundedOps (fl nearest 24) (fl nearest 53) (Real.logb 2)) parOnline 5 6
      (fun req _ => req) (boundAbsR (fl nearest 24) (fl nearest 24) (fl nearest 53) 5 6 maxEb)
        (m.flip true false) = some (m'.flip true false, s') ∧ s'.eb = s.eb := by
  have h24 := (fl_isFloat (p := 24) nearest_rounding (by norm_num)).toIsRounding
  have h53 := (fl_isFloat (p := 53) nearest_rounding (by norm_num)).toIsRounding
  obtain ⟨m', s, h⟩ := Rounded.compress_defined2 (roundedOps (fl nearest 24) (fl nearest 53)
    (Real.logb 2)) parOnline 5 6 (fun req _ => req) (boundAbsR (fl nearest 24) (fl nearest 24)
    (fl nearest 53) 5 6 maxEb) m (fun f p hp => by
      unfold boundAbsR
      split
      · rfl
      · obtain ⟨E, hE⟩ := Option.isSome_iff_exists.1 (VMode.bound_defined (some maxEb)
          minfX (fun _ => deriveAbsR (fl nearest 24) (fl nearest 24) (fl nearest 53)) f hp)
        rw [hE]; rfl)
  obtain ⟨s', h1, h2, -⟩ := C76_absolute h24 h53 true false 5 6 maxEb m m' s h
  exact ⟨m', s, s', h, h1, h2⟩

end Online2D
end CpSZ
