import Verif.Props.IeeeRel
import Verif.Props.IeeeCP
import Verif.Props.IeeeLog3Z
import Verif.Props.IeeeUnstr
/-
Property C99: the signs of the components in the modes with a relative bound, in IEEE-754
arithmetic, and the cells in which a component does not change its sign.
-/

namespace CpSZ.Ieee
open CpSZ.Online2D CpSZ.VMode CpSZ.ThreeD CpSZ.Mesh3D

/-! ### Specification -/

/-- Both patterns stand for positive numbers, or both for negative ones, or both for zero. -/
def SameSgn (F : Fmt) (x c : Pat F) : Prop :=
  ∃ X C : ℚ, dec F x = .fin X ∧ dec F c = .fin C ∧ (0 < X ↔ 0 < C) ∧ (X < 0 ↔ C < 0)

/-- The numbers at the given places have one strict sign. -/
def OneSign (F : Fmt) (f : Nat → Pat F) (S : List Nat) : Prop :=
  (∀ q ∈ S, ∃ X : ℚ, dec F (f q) = .fin X ∧ 0 < X) ∨
    ∀ q ∈ S, ∃ X : ℚ, dec F (f q) = .fin X ∧ X < 0

/-- The weighted mean of the numbers at the given places vanishes for some weights: the linear
interpolant of this component has a zero in the cell. -/
def MeanZero (F : Fmt) (f : Nat → Pat F) (S : List Nat) : Prop :=
  ∃ w : List ℝ, w.length = S.length ∧ (∀ x ∈ w, 0 ≤ x) ∧ w.sum = 1 ∧
    (List.zipWith (fun x q => x * valR (dec F (f q))) w S).sum = 0

/-- What the property says of one component of the decompressed field. -/
def SignsKept (F : Fmt) (n : Nat) (d f : Nat → Pat F) : Prop :=
  (∀ q, q < n → SameSgn F (d q) (f q)) ∧
    ∀ S : List Nat, (∀ q ∈ S, q < n) → OneSign F f S → ¬ MeanZero F f S ∧ ¬ MeanZero F d S

/-! ### Lemmas -/

theorem sameSgn_rel {F : Fmt} {e : ℚ} (he : e < 1) {x c : Pat F} (h : WithinRel F e x c) :
    SameSgn F x c := by
  obtain ⟨X, C, h1, h2, h3⟩ := h
  refine ⟨X, C, h1, h2, ?_⟩
  rcases lt_trichotomy C 0 with hC | rfl | hC
  · rw [abs_of_neg hC] at h3
    have : X < 0 := by have := (abs_le.1 h3).2; nlinarith
    constructor <;> constructor <;> intro <;> linarith
  · rw [abs_zero, mul_zero] at h3
    have : X = 0 := by have := abs_nonpos_iff.1 h3; linarith
    rw [this]; exact ⟨Iff.rfl, Iff.rfl⟩
  · rw [abs_of_pos hC] at h3
    have : 0 < X := by have := (abs_le.1 h3).1; nlinarith
    constructor <;> constructor <;> intro <;> linarith

theorem sameSgn_log {F : Fmt} {e : ℚ} {x c : Pat F} (h : LogClose F e x c) : SameSgn F x c := by
  obtain ⟨X, C, h1, h2, -, h4, h5⟩ := h
  refine ⟨X, C, h1, h2, ?_⟩
  by_cases hC : C = 0
  · rw [h5 hC, h2] at h1
    simp only [Fp.fin.injEq] at h1
    rw [h1]; exact ⟨Iff.rfl, Iff.rfl⟩
  · have h6 := h4 hC
    rcases lt_or_gt_of_ne hC with h | h
    · have : X < 0 := by nlinarith
      constructor <;> constructor <;> intro <;> linarith
    · have : 0 < X := by nlinarith
      constructor <;> constructor <;> intro <;> linarith

theorem sum_pos_of {g : Nat → ℝ} : ∀ {w : List ℝ} {S : List Nat}, w.length = S.length →
    (∀ x ∈ w, 0 ≤ x) → (∀ q ∈ S, 0 < g q) → 0 ≤ (List.zipWith (fun x q => x * g q) w S).sum ∧
      ((List.zipWith (fun x q => x * g q) w S).sum = 0 → w.sum = 0)
  | [], [], _, _, _ => by simp
  | [], _ :: _, h, _, _ => by simp at h
  | _ :: _, [], h, _, _ => by simp at h
  | x :: w, a :: S, h, hw, hg => by
    obtain ⟨i1, i2⟩ := sum_pos_of (g := g) (w := w) (S := S) (by simpa using h)
      (fun x hx => hw x (List.mem_cons_of_mem _ hx)) (fun q hq => hg q (List.mem_cons_of_mem _ hq))
    have a1 := hw x List.mem_cons_self
    have a2 := hg a List.mem_cons_self
    have a3 := mul_nonneg a1 a2.le
    simp only [List.zipWith_cons_cons, List.sum_cons]
    refine ⟨by linarith, fun h => ?_⟩
    have h1 : x * g a = 0 := by linarith
    rw [i2 (by linarith)]
    rcases mul_eq_zero.1 h1 with h | h <;> linarith

theorem sum_neg_zip (g : Nat → ℝ) : ∀ (w : List ℝ) (S : List Nat),
    (List.zipWith (fun x q => x * -g q) w S).sum = -(List.zipWith (fun x q => x * g q) w S).sum
  | [], _ => by simp
  | _ :: _, [] => by simp
  | x :: w, a :: S => by
    simp only [List.zipWith_cons_cons, List.sum_cons, sum_neg_zip g w S]; ring

theorem not_meanZero {F : Fmt} {f : Nat → Pat F} {S : List Nat} (h : OneSign F f S) :
    ¬ MeanZero F f S := by
  rintro ⟨w, h0, h1, h2, h3⟩
  have key : ∀ X : ℚ, valR (.fin X) = (X : ℝ) := fun _ => rfl
  rcases h with h | h
  · have := (sum_pos_of (g := fun q => valR (dec F (f q))) h0 h1 (fun q hq => by
      obtain ⟨X, x1, x2⟩ := h q hq
      rw [x1, key]; exact_mod_cast x2)).2 h3
    linarith
  · have := (sum_pos_of (g := fun q => -valR (dec F (f q))) h0 h1 (fun q hq => by
      obtain ⟨X, x1, x2⟩ := h q hq
      rw [x1, key]
      have : (X : ℝ) < 0 := by exact_mod_cast x2
      linarith)).2 (by rw [sum_neg_zip, h3, neg_zero])
    linarith

/-- Indices of the vertices of a mesh triangle. -/
def triIdx (r2 : Nat) (t : Tri) : List Nat := t.verts.map fun P => P.1 * r2 + P.2

theorem cp_meanZero {F : Fmt} {r2 : Nat} {f : Online2D.Field (Pat F)} {t : Tri}
    (h : t.hasCP r2 (realField (dec F) f)) :
    MeanZero F f.u (triIdx r2 t) ∧ MeanZero F f.v (triIdx r2 t) := by
  obtain ⟨a, b, c, ha, hb, hc, hs, e1, e2⟩ := h
  have hw : ∀ x ∈ [a, b, c], 0 ≤ x := by simp [ha, hb, hc]
  have hsum : [a, b, c].sum = 1 := by simp only [List.sum_cons, List.sum_nil]; linarith
  obtain ⟨ta, tb, up⟩ := t
  cases up <;>
  · simp only [Tri.vec, Tri.verts, gridVal, realField, List.getD_cons_zero, List.getD_cons_succ,
      if_true, if_false, Bool.false_eq_true] at e1 e2
    refine ⟨⟨[a, b, c], by simp [triIdx, Tri.verts], hw, hsum, ?_⟩,
      ⟨[a, b, c], by simp [triIdx, Tri.verts], hw, hsum, ?_⟩⟩ <;>
    · simp only [triIdx, Tri.verts, if_true, if_false, Bool.false_eq_true, List.map_cons,
        List.map_nil, List.zipWith_cons_cons, List.zipWith_nil_left, List.sum_cons, List.sum_nil]
      linarith

theorem signsKept_of {F : Fmt} {n : Nat} {d f : Nat → Pat F}
    (h : ∀ q, q < n → SameSgn F (d q) (f q)) : SignsKept F n d f := by
  refine ⟨h, fun S hS ho => ⟨not_meanZero ho, not_meanZero ?_⟩⟩
  rcases ho with ho | ho
  · refine Or.inl fun q hq => ?_
    obtain ⟨X, x1, x2⟩ := ho q hq
    obtain ⟨Y, C, y1, y2, y3, -⟩ := h q (hS q hq)
    rw [x1] at y2
    simp only [Fp.fin.injEq] at y2
    exact ⟨Y, y1, y3.2 (by rw [← y2]; exact x2)⟩
  · refine Or.inr fun q hq => ?_
    obtain ⟨X, x1, x2⟩ := ho q hq
    obtain ⟨Y, C, y1, y2, -, y3⟩ := h q (hS q hq)
    rw [x1] at y2
    simp only [Fp.fin.injEq] at y2
    exact ⟨Y, y1, y3.2 (by rw [← y2]; exact x2)⟩

/-! ### C99 -/

/-- What `SignsKept` means for the mesh of the 2D modes: a triangle on which one component has one
strict sign has no critical point, before and after. -/
theorem C99_triangle {F : Fmt} {r1 r2 : Nat} {d m : Online2D.Field (Pat F)}
    (hu : SignsKept F (r1 * r2) d.u m.u) (hv : SignsKept F (r1 * r2) d.v m.v) (t : Tri)
    (ht : t.inGrid r1 r2) (h : OneSign F m.u (triIdx r2 t) ∨ OneSign F m.v (triIdx r2 t)) :
    ¬ t.hasCP r2 (realField (dec F) m) ∧ ¬ t.hasCP r2 (realField (dec F) d) := by
  have hS : ∀ q ∈ triIdx r2 t, q < r1 * r2 := by
    have key : ∀ i j, i < r1 → j < r2 → i * r2 + j < r1 * r2 := fun i j hi hj => by
      calc i * r2 + j < i * r2 + r2 := by omega
        _ = (i + 1) * r2 := by ring
        _ ≤ r1 * r2 := Nat.mul_le_mul_right _ hi
    obtain ⟨h1, h2⟩ := ht
    intro q hq
    unfold triIdx Tri.verts at hq
    split at hq <;>
    · simp only [List.map_cons, List.map_nil, List.mem_cons, List.not_mem_nil, or_false] at hq
      rcases hq with rfl | rfl | rfl <;> exact key _ _ (by omega) (by omega)
  rcases h with h | h
  · exact ⟨fun hc => (hu.2 _ hS h).1 (cp_meanZero hc).1, fun hc => (hu.2 _ hS h).2 (cp_meanZero hc).1⟩
  · exact ⟨fun hc => (hv.2 _ hS h).1 (cp_meanZero hc).2, fun hc => (hv.2 _ hS h).2 (cp_meanZero hc).2⟩

/-- The hypotheses of `C99_triangle` are met by the upper triangle of `mild`, all of whose numbers are
positive. -/
example : ∃ d : Online2D.Field (Pat binary32), d.u 0 ≠ mild.u 0 ∧
    SignsKept binary32 (2 * 2) d.u mild.u ∧ SignsKept binary32 (2 * 2) d.v mild.v ∧
    OneSign binary32 mild.u (triIdx 2 ⟨0, 0, true⟩) := by
  have hp : ∀ q ∈ [0, 1, 2, 3], (dec binary32 (mild.u q) = .fin (num binary32 (mild.u q)) ∧
      0 < num binary32 (mild.u q)) ∧ dec binary32 (mild.v q) = .fin (num binary32 (mild.v q)) ∧
      0 < num binary32 (mild.v q) := by decide +kernel
  have h100 : dec binary32 (f32 100) = .fin 100 := by decide +kernel
  refine ⟨⟨fun _ => f32 100, mild.v⟩, by decide +kernel, signsKept_of fun q hq => ?_,
    signsKept_of fun q hq => ?_, Or.inl fun q hq => ?_⟩
  · obtain ⟨⟨a, b⟩, -⟩ := hp q (by simp; omega)
    exact ⟨100, _, h100, a, ⟨fun _ => b, fun _ => by norm_num⟩, ⟨fun h => by norm_num at h,
      fun h => absurd b (not_lt.2 h.le)⟩⟩
  · obtain ⟨-, a, b⟩ := hp q (by simp; omega)
    exact ⟨_, _, a, a, Iff.rfl, Iff.rfl⟩
  · simp only [triIdx, Tri.verts, if_true, List.map_cons, List.map_nil, List.mem_cons,
      List.not_mem_nil, or_false] at hq
    exact ⟨_, (hp q (by simp; omega)).1⟩

/-- C99, 2D mode with a relative bound below 1, `float` data of magnitude up to `2^58`: from the bytes
every component comes back with its sign, so in a cell where one component has one strict sign
there is no critical point, neither in the input nor in the result. -/
theorem C99_rel_float (tr : Pat binary64 → Int) (lg sq : Pat binary64 → Pat binary64) (eps : ℚ)
    (hlg : LogOk lg eps) (hsq : SqrtOk sq)
    (hlb : dec binary64 (lg (enc binary64 false (.fin 4))) = .fin 2)
    (he0 : 0 ≤ eps) (he1 : eps ≤ p2 (-30)) (ov : Bool) (E1 E2 : Env) (r1 r2 : Nat)
    (hn : 0 < r1 * r2) (hn2 : r1 * r2 < 2 ^ 59)
    (maxEb : Pat binary64) (e : ℚ) (hm : dec binary64 maxEb = .fin e) (hep : 0 ≤ e)
    (her : e < 1) (m : Online2D.Field (Pat binary32))
    (hf : ∀ q, q < r1 * r2 → Size binary32 (p2 58) (m.u q) ∧ Size binary32 (p2 58) (m.v q)) :
    ∃ m' s, runRel binary32 tr lg sq ov r1 r2 maxEb m = some (m', s) ∧
      (Shallow E2 (2 * 65536) s.dq →
        ∃ bs, compressBytes (bitsOps binary32 tr lg) (wordCodec 4) (wordCodec 8) E1 E2 (parBits lg)
            r1 r2 (relEbT (bitsOps binary32 tr lg))
            (boundRelT (bitsOps binary32 tr lg) (bitsR binary32 tr lg sq ov) r1 r2 maxEb) m =
              some (m', bs) ∧
          ∀ rest m0, ∃ d, decompressBytes (bitsOps binary32 tr lg) (wordCodec 4) (wordCodec 8)
              (parBits lg).logBase r1 r2 m0 (bs ++ rest) = some d ∧
            SignsKept binary32 (r1 * r2) d.u m.u ∧ SignsKept binary32 (r1 * r2) d.v m.v) := by
  obtain ⟨m', s, h, hc⟩ := C85_float tr lg sq eps hlg hsq hlb he0 he1 ov E1 E2 r1 r2 hn hn2 maxEb e
    hm hep her.le m hf
  refine ⟨m', s, h, fun h2 => ?_⟩
  obtain ⟨bs, b1, b2⟩ := hc h2
  refine ⟨bs, b1, fun rest m0 => ?_⟩
  obtain ⟨d, d1, d2⟩ := b2 rest m0
  exact ⟨d, d1, signsKept_of fun q hq => sameSgn_rel her (d2 q hq).1,
    signsKept_of fun q hq => sameSgn_rel her (d2 q hq).2⟩

/-- The hypotheses of `C99_rel_float` are met by `mild` with the relative bound 1/100, where every
vertex is coded; both components have one sign on all vertices. -/
example (ov : Bool) (E1 E2 : Env) : OneSign binary32 mild.u [0, 1, 2, 3] ∧ ∃ m' s bs,
    runRel binary32 (fun _ => 0) floorLog2 bsqrt ov 2 2 eb100 mild = some (m', s) ∧ s.un = [] ∧
    ∀ m0, ∃ d, decompressBytes (bitsOps binary32 (fun _ => 0) floorLog2) (wordCodec 4)
        (wordCodec 8) (parBits floorLog2).logBase 2 2 m0 bs = some d ∧
      ¬ MeanZero binary32 d.u [0, 1, 2, 3] := by
  have hm : dec binary64 eb100 = .fin (num binary64 eb100) := by decide +kernel
  have hos : OneSign binary32 mild.u [0, 1, 2, 3] := by
    refine Or.inl fun q hq => ⟨num binary32 (mild.u q), ?_⟩
    have : ∀ q ∈ [0, 1, 2, 3], dec binary32 (mild.u q) = .fin (num binary32 (mild.u q)) ∧
        0 < num binary32 (mild.u q) := by decide +kernel
    exact this q hq
  obtain ⟨m', s, h, hc⟩ := C99_rel_float (fun _ => 0) floorLog2 bsqrt 0 (floorLog2_ok (le_refl 0))
    bsqrt_ok floorLog2_four (le_refl 0) (p2_pos _).le ov E1 E2 2 2 (by norm_num)
    (by norm_num) eb100 _ hm (by decide +kernel)
    (by decide +kernel) mild (by
      intro q hq
      have : ∀ q ∈ [0, 1, 2, 3], sizeB binary32 (p2 58) (mild.u q) = true ∧
        sizeB binary32 (p2 58) (mild.v q) = true := by decide +kernel
      obtain ⟨a, b⟩ := this q (by simp; omega)
      exact ⟨size_of a, size_of b⟩)
  obtain ⟨f, t, h1, h2, h3, h4, h5⟩ := seen_some (mild_seen_rel ov)
  rw [h1] at h
  simp only [Option.some.injEq, Prod.mk.injEq] at h
  obtain ⟨rfl, rfl⟩ := h
  obtain ⟨bs, b1, b2⟩ := hc
    (shallow_of_short (by rw [h4]; simp) (by rw [h4]; simp) (by norm_num) (by rw [h4]; simp))
  refine ⟨hos, f, t, bs, h1, List.length_eq_zero_iff.1 h2, fun m0 => ?_⟩
  obtain ⟨d, d1, d2, -⟩ := b2 [] m0
  rw [List.append_nil] at d1
  exact ⟨d, d1, (d2.2 [0, 1, 2, 3] (by simp) hos).2⟩

/-- C99, 2D mode with a relative bound, `double` data of magnitude up to `2^248`. -/
theorem C99_rel_double (tr : Pat binary64 → Int) (lg sq : Pat binary64 → Pat binary64) (eps : ℚ)
    (hlg : LogOk lg eps) (hsq : SqrtOk sq)
    (hlb : dec binary64 (lg (enc binary64 false (.fin 4))) = .fin 2)
    (he0 : 0 ≤ eps) (he1 : eps ≤ p2 (-30)) (ov : Bool) (E1 E2 : Env) (r1 r2 : Nat)
    (hn : 0 < r1 * r2) (hn2 : r1 * r2 < 2 ^ 59)
    (maxEb : Pat binary64) (e : ℚ) (hm : dec binary64 maxEb = .fin e) (hep : 0 ≤ e)
    (her : e ≤ 1 - p2 (-29)) (m : Online2D.Field (Pat binary64))
    (hf : ∀ q, q < r1 * r2 → Size binary64 (p2 248) (m.u q) ∧ Size binary64 (p2 248) (m.v q)) :
    ∃ m' s, runRel binary64 tr lg sq ov r1 r2 maxEb m = some (m', s) ∧
      (Shallow E1 (2 * 1024) s.eb → Shallow E2 (2 * 65536) s.dq →
        ∃ bs, compressBytes (bitsOps binary64 tr lg) (wordCodec 8) (wordCodec 8) E1 E2 (parBits lg)
            r1 r2 (relEbT (bitsOps binary64 tr lg))
            (boundRelT (bitsOps binary64 tr lg) (bitsR binary64 tr lg sq ov) r1 r2 maxEb) m =
              some (m', bs) ∧
          ∀ rest m0, ∃ d, decompressBytes (bitsOps binary64 tr lg) (wordCodec 8) (wordCodec 8)
              (parBits lg).logBase r1 r2 m0 (bs ++ rest) = some d ∧
            SignsKept binary64 (r1 * r2) d.u m.u ∧ SignsKept binary64 (r1 * r2) d.v m.v) := by
  have h29 := p2_pos (-29)
  obtain ⟨m', s, h, hc⟩ := C85_double tr lg sq eps hlg hsq hlb he0 he1 ov E1 E2 r1 r2 hn hn2 maxEb e
    hm hep (by linarith) m hf
  have hk : (1 + eps + p2 (-52)) * e < 1 := by
    have e1 : p2 (-29) = 2 * p2 (-30) := by decide +kernel
    have e2 : p2 (-52) < p2 (-30) := by decide +kernel
    have h30 := p2_pos (-30)
    have h52 := p2_pos (-52)
    nlinarith
  refine ⟨m', s, h, fun h1 h2 => ?_⟩
  obtain ⟨bs, b1, b2⟩ := hc h1 h2
  refine ⟨bs, b1, fun rest m0 => ?_⟩
  obtain ⟨d, d1, d2⟩ := b2 rest m0
  exact ⟨d, d1, signsKept_of fun q hq => sameSgn_rel hk (d2 q hq).1,
    signsKept_of fun q hq => sameSgn_rel hk (d2 q hq).2⟩

/-- The hypotheses of `C99_rel_double` are met by the same numbers. -/
example (ov : Bool) (E1 E2 : Env) : ∃ m' s,
    runRel binary64 (fun _ => 0) floorLog2 bsqrt ov 2 2 eb100
      ⟨fun q => enc binary64 false (dec binary32 (mild.u q)),
       fun q => enc binary64 false (dec binary32 (mild.v q))⟩ = some (m', s) := by
  have hm : dec binary64 eb100 = .fin (num binary64 eb100) := by decide +kernel
  obtain ⟨m', s, h, -⟩ := C99_rel_double (fun _ => 0) floorLog2 bsqrt 0 (floorLog2_ok (le_refl 0))
    bsqrt_ok floorLog2_four (le_refl 0) (p2_pos _).le ov E1 E2 2 2 (by norm_num)
    (by norm_num) eb100 _ hm (by decide +kernel)
    (by decide +kernel) ⟨fun q => enc binary64 false (dec binary32 (mild.u q)),
       fun q => enc binary64 false (dec binary32 (mild.v q))⟩ (by
      intro q hq
      have : ∀ q ∈ [0, 1, 2, 3],
        sizeB binary64 (p2 248) (enc binary64 false (dec binary32 (mild.u q))) = true ∧
        sizeB binary64 (p2 248) (enc binary64 false (dec binary32 (mild.v q))) = true := by
          decide +kernel
      obtain ⟨a, b⟩ := this q (by simp; omega)
      exact ⟨size_of a, size_of b⟩)
  exact ⟨m', s, h⟩

/-- C99, 2D log mode: here the relative bound may be 1. -/
theorem C99_log (F : Fmt) (r : Int)
    (hFr : (F = binary32 ∧ r = 58) ∨ (F = binary64 ∧ r = 124)) (tr : Pat binary64 → Int)
    (lg sq : Pat binary64 → Pat binary64) (lgT exT : Pat F → Pat F) (eps : ℚ)
    (hlg : LogOk lg eps) (hup : LogUp lg) (hsq : SqrtOk sq) (H : ExpLogOk F lgT exT)
    (hlb : dec binary64 (lg (enc binary64 false (.fin 2))) = .fin 1)
    (he0 : 0 ≤ eps) (he1 : eps ≤ p2 (-31)) (ov : Bool) (cT : Codec (Pat F)) (E1 E2 : Env)
    (r1 r2 : Nat) (hn : 0 < r1 * r2) (hn2 : r1 * r2 < 2 ^ 59)
    (maxEb : Pat binary64) (e : ℚ) (hm : dec binary64 maxEb = .fin e) (hep : 0 ≤ e)
    (her : e ≤ 1) (m : Online2D.Field (Pat F))
    (hf : ∀ q, q < r1 * r2 → LogSize F r (m.u q) ∧ LogSize F r (m.v q)) :
    ∃ s' str, runLog F tr lg sq lgT exT ov r1 r2 maxEb m = some (s', str) ∧
      (Shallow E2 (2 * 65536) str.dq →
        ∃ bs, VMode.compressBytes (bitsL F tr lg lgT exT) cT E1 E2 (2 * 1024) false
            (logMode F tr lg lgT exT r2) 2 32768 (logPlan F tr lg sq lgT exT ov r1 r2 maxEb)
            (r1 * r2) (arr2 m) = some (s'.val, bs) ∧
          ∀ rest m0, ∃ d, VMode.decompressBytes (bitsL F tr lg lgT exT) cT (2 * 1024) false 2
              (logMode F tr lg lgT exT r2) (r1 * r2) m0 (bs ++ rest) = some d ∧
            SignsKept F (r1 * r2) (d 0) m.u ∧ SignsKept F (r1 * r2) (d 1) m.v) := by
  obtain ⟨s', str, h, hc⟩ := C93_log F r hFr tr lg sq lgT exT eps hlg hup hsq H hlb he0 he1 ov cT E1
    E2 r1 r2 hn hn2 maxEb e hm hep her m hf
  refine ⟨s', str, h, fun h2 => ?_⟩
  obtain ⟨bs, b1, b2⟩ := hc h2
  refine ⟨bs, b1, fun rest m0 => ?_⟩
  obtain ⟨d, d1, d2⟩ := b2 rest m0
  exact ⟨d, d1, signsKept_of fun q hq => sameSgn_log (d2 q hq).1,
    signsKept_of fun q hq => sameSgn_log (d2 q hq).2⟩

/-- The hypotheses of `C99_log` are met by `smallField` with the relative bound 1, three of whose
vertices are coded; `v` has one sign. -/
example (ov : Bool) (E1 E2 : Env) : OneSign binary32 smallField.v [0, 1, 2, 3] ∧ ∃ s' str bs,
    runLog binary32 (fun _ => 0) fineLog2 bsqrt (libLog binary32) (libExp binary32) ov 2 2 ebUnit
      smallField = some (s', str) ∧ str.eb = [23, 23, 22, 0] ∧
    ∀ m0, ∃ d, VMode.decompressBytes
        (bitsL binary32 (fun _ => 0) fineLog2 (libLog binary32) (libExp binary32)) (wordCodec 4)
        (2 * 1024) false 2
        (logMode binary32 (fun _ => 0) fineLog2 (libLog binary32) (libExp binary32) 2) (2 * 2) m0 bs =
          some d ∧ ¬ MeanZero binary32 (d 1) [0, 1, 2, 3] := by
  have hm : dec binary64 ebUnit = .fin 1 := by decide +kernel
  have hos : OneSign binary32 smallField.v [0, 1, 2, 3] := by
    refine Or.inl fun q hq => ⟨num binary32 (smallField.v q), ?_⟩
    have : ∀ q ∈ [0, 1, 2, 3],
        dec binary32 (smallField.v q) = .fin (num binary32 (smallField.v q)) ∧
        0 < num binary32 (smallField.v q) := by decide +kernel
    exact this q hq
  obtain ⟨s', str, h, hc⟩ := C99_log binary32 58 (Or.inl ⟨rfl, rfl⟩) (fun _ => 0) fineLog2 bsqrt
    (libLog binary32) (libExp binary32) 0 fineLog2_ok fineLog2_up bsqrt_ok
    (lib_ok ok32 (by decide) (by decide) (by decide)) fineLog2_two (le_refl 0) (p2_pos _).le ov
    (wordCodec 4) E1 E2 2 2 (by norm_num) (by norm_num) ebUnit _ hm (by norm_num) (by norm_num)
    smallField (by
      intro q hq
      have : ∀ q ∈ [0, 1, 2, 3], logSizeB binary32 58 (smallField.u q) = true ∧
        logSizeB binary32 58 (smallField.v q) = true := by decide +kernel
      obtain ⟨a, b⟩ := this q (by simp; omega)
      exact ⟨logSize_of a, logSize_of b⟩)
  obtain ⟨f, t, h1, h2, h3, h4, h5⟩ := seenL_some (small_seen_log ov)
  rw [h1] at h
  simp only [Option.some.injEq, Prod.mk.injEq] at h
  obtain ⟨rfl, rfl⟩ := h
  obtain ⟨bs, b1, b2⟩ := hc
    (shallow_of_short (by rw [h4]; simp) (by rw [h4]; simp) (by norm_num) (by rw [h4]; simp))
  refine ⟨hos, f, t, bs, h1, h3, fun m0 => ?_⟩
  obtain ⟨d, d1, -, d2⟩ := b2 [] m0
  rw [List.append_nil] at d1
  exact ⟨d, d1, (d2.2 [0, 1, 2, 3] (by simp) hos).2⟩

/-- C99, structured 3D log mode, zeros included. -/
theorem C99_log3 (F : Fmt) (r : Int)
    (hFr : (F = binary32 ∧ r = 38) ∨ (F = binary64 ∧ r = 124)) (tr : Pat binary64 → Int)
    (lg : Pat binary64 → Pat binary64) (lgT exT : Pat F → Pat F) (eps : ℚ)
    (hlg : LogOk lg eps) (hup : LogUp lg) (H : ExpLogOk F lgT exT)
    (hlb : dec binary64 (lg (enc binary64 false (.fin 2))) = .fin 1)
    (h23 : ∀ a, dec binary64 a = .fin (p2 23) → dec binary64 (lg a) = .fin 23)
    (he0 : 0 ≤ eps) (he1 : eps ≤ p2 (-31)) (cT : Codec (Pat F)) (E1 E2 : Env)
    (r1 r2 r3 : Nat) (hn : 0 < r1 * r2 * r3) (hn2 : r1 * r2 * r3 < 2 ^ 58)
    (maxEb : Pat binary64) (e : ℚ) (hm : dec binary64 maxEb = .fin e) (hep : 0 ≤ e)
    (her : e ≤ 1) (data : Arr (Pat F))
    (hf : ∀ c q, c < 3 → q < r1 * r2 * r3 → LogSize F r (data c q)) :
    ∃ s' str, runLog3 F tr lg lgT exT r1 r2 r3 maxEb data = some (s', str) ∧
      (str.dq ≠ [] → Shallow E2 (2 * 65536) str.dq →
        ∃ bs, VMode.compressBytes (bitsL F tr lg lgT exT) cT E1 E2 (2 * 256) true
            (log3Mode F tr lg lgT exT r2 r3) 2 32768 (log3Plan F tr lg lgT exT r1 r2 r3 maxEb)
            (r1 * r2 * r3) data = some (s'.val, bs) ∧
          ∀ rest m0, ∃ d, VMode.decompressBytes (bitsL F tr lg lgT exT) cT (2 * 256) true 3
              (log3Mode F tr lg lgT exT r2 r3) (r1 * r2 * r3) m0 (bs ++ rest) = some d ∧
            ∀ c, c < 3 → SignsKept F (r1 * r2 * r3) (d c) (data c)) := by
  obtain ⟨s', str, h, hc⟩ := C98_log3_zeros F r hFr tr lg lgT exT eps hlg hup H hlb h23 he0 he1 cT E1
    E2 r1 r2 r3 hn hn2 maxEb e hm hep her data hf
  refine ⟨s', str, h, fun h1 h2 => ?_⟩
  obtain ⟨bs, b1, b2⟩ := hc h1 h2
  refine ⟨bs, b1, fun rest m0 => ?_⟩
  obtain ⟨d, d1, d2⟩ := b2 rest m0
  refine ⟨d, d1, fun c hc => signsKept_of fun q hq => ?_⟩
  by_cases hz : dec F (data c q) = .fin 0
  · exact ⟨0, 0, (d2 c q hc hq).2 hz, hz, Iff.rfl, Iff.rfl⟩
  · exact sameSgn_log ((d2 c q hc hq).1 hz)

/-- The hypotheses of `C99_log3` are met by the vertex with a zero component that is coded. -/
example (E1 E2 : Env) : ∃ s' str bs,
    runLog3 binary32 (fun _ => 0) fineLog2 (libLog binary32) (libExp binary32) 1 1 1 ebUnit
      zeroVertexL = some (s', str) ∧ str.eb = [23] ∧
    ∀ m0, ∃ d, VMode.decompressBytes
        (bitsL binary32 (fun _ => 0) fineLog2 (libLog binary32) (libExp binary32)) (wordCodec 4)
        (2 * 256) true 3
        (log3Mode binary32 (fun _ => 0) fineLog2 (libLog binary32) (libExp binary32) 1 1) (1 * 1 * 1)
        m0 bs = some d ∧ ∀ c, c < 3 → SignsKept binary32 (1 * 1 * 1) (d c) (zeroVertexL c) := by
  have hm : dec binary64 ebUnit = .fin 1 := by decide +kernel
  obtain ⟨s', str, h, hc⟩ := C99_log3 binary32 38 (Or.inl ⟨rfl, rfl⟩) (fun _ => 0) fineLog2
    (libLog binary32) (libExp binary32) 0 fineLog2_ok fineLog2_up
    (lib_ok ok32 (by decide) (by decide) (by decide)) fineLog2_two fineLog2_23 (le_refl 0)
    (p2_pos _).le (wordCodec 4) E1 E2 1 1 1 (by norm_num) (by norm_num) ebUnit _ hm (by norm_num)
    (by norm_num) zeroVertexL (by
      intro c q hc hq
      have hq0 : q = 0 := by omega
      have hc3 : c = 0 ∨ c = 1 ∨ c = 2 := by omega
      rw [hq0]
      rcases hc3 with h1 | h1 | h1 <;> rw [h1]
      · obtain ⟨X, x1, x2, x3⟩ := logNz_of (F := binary32) (r := 38) (a := zeroVertexL 0 0)
          (by decide +kernel)
        exact ⟨X, x1, Or.inr x2, x3⟩
      · refine ⟨0, by decide +kernel, Or.inl rfl, ?_⟩
        rw [abs_zero]; exact (p2_pos _).le
      · obtain ⟨X, x1, x2, x3⟩ := logNz_of (F := binary32) (r := 38) (a := zeroVertexL 2 0)
          (by decide +kernel)
        exact ⟨X, x1, Or.inr x2, x3⟩)
  obtain ⟨f, t, h1, h2, h3, h4, h5⟩ := seenL3_some zeroVertexL_seen
  rw [h1] at h
  simp only [Option.some.injEq, Prod.mk.injEq] at h
  obtain ⟨rfl, rfl⟩ := h
  obtain ⟨bs, b1, b2⟩ := hc (by rw [h4]; simp)
    (shallow_of_short (by rw [h4]; simp) (by rw [h4]; simp) (by norm_num) (by rw [h4]; simp))
  refine ⟨f, t, bs, h1, h3, fun m0 => ?_⟩
  obtain ⟨d, d1, d2⟩ := b2 [] m0
  rw [List.append_nil] at d1
  exact ⟨d, d1, d2⟩

/-- C99, unstructured log mode, data without zeros. -/
theorem C99_unstructured (F : Fmt) (r : Int)
    (hFr : (F = binary32 ∧ r = 38) ∨ (F = binary64 ∧ r = 124)) (tr : Pat binary64 → Int)
    (lg : Pat binary64 → Pat binary64) (lgT exT : Pat F → Pat F) (eps : ℚ)
    (hlg : LogOk lg eps) (hup : LogUp lg) (H : ExpLogOk F lgT exT)
    (hlb : dec binary64 (lg (enc binary64 false (.fin 2))) = .fin 1)
    (h23 : ∀ a, dec binary64 a = .fin (p2 23) → dec binary64 (lg a) = .fin 23)
    (he0 : 0 ≤ eps) (he1 : eps ≤ p2 (-31)) (cT : Codec (Pat F)) (E1 E2 : Env)
    (n m : Nat) (inds : Nat → Int) (hind : ∀ k, k < 4 * m → 0 ≤ inds k ∧ inds k < n)
    (hn : 0 < n) (hn2 : 3 * n < 2 ^ 31)
    (maxEb : Pat binary64) (e : ℚ) (hm : dec binary64 maxEb = .fin e) (hep : 0 ≤ e)
    (her : e ≤ 1) (data : Arr (Pat F)) (hf : ∀ c q, c < 3 → q < n → LogNz F r (data c q)) :
    ∃ adj s' str, pointTets n m inds = some adj ∧
      runUnstr F tr lg lgT exT n inds adj maxEb data = some (s', str) ∧
      (str.dq ≠ [] → Shallow E2 (2 * 65536) str.dq →
        ∃ bs, compressBytesU (bitsL F tr lg lgT exT) cT E1 E2 (unstrMode F tr lg lgT exT) 2 32768
            (unstrPlan F tr lg lgT exT inds adj maxEb) n data = some (s'.val, bs) ∧
          ∀ rest m0, ∃ d, decompressBytesU (bitsL F tr lg lgT exT) cT (unstrMode F tr lg lgT exT) n
              m0 (bs ++ rest) = some d ∧
            ∀ c, c < 3 → SignsKept F n (d c) (data c)) := by
  obtain ⟨adj, s', str, ha, h, hc⟩ := C96_unstructured F r hFr tr lg lgT exT eps hlg hup H hlb h23 he0
    he1 cT E1 E2 n m inds hind hn hn2 maxEb e hm hep her data hf
  refine ⟨adj, s', str, ha, h, fun h1 h2 => ?_⟩
  obtain ⟨bs, b1, b2⟩ := hc h1 h2
  refine ⟨bs, b1, fun rest m0 => ?_⟩
  obtain ⟨d, d1, d2⟩ := b2 rest m0
  exact ⟨d, d1, fun c hc => signsKept_of fun q hq => sameSgn_log (d2 c q hc hq)⟩

/-- The hypotheses of `C99_unstructured` are met by two tetrahedra with a common face and the
relative bound 1, where two of the five vertices are coded. -/
example (E1 E2 : Env) : ∃ adj s' str bs, pointTets 5 2 twoTets = some adj ∧
    runUnstr binary32 (fun _ => 0) fineLog2 (libLog binary32) (libExp binary32) 5 twoTets adj ebUnit
      fiveVectors = some (s', str) ∧ str.eb = [23, 23, 0, 0, 0] ∧
    ∀ m0, ∃ d, decompressBytesU
        (bitsL binary32 (fun _ => 0) fineLog2 (libLog binary32) (libExp binary32)) (wordCodec 4)
        (unstrMode binary32 (fun _ => 0) fineLog2 (libLog binary32) (libExp binary32)) 5 m0 bs =
          some d ∧ ∀ c, c < 3 → SignsKept binary32 5 (d c) (fiveVectors c) := by
  have hm : dec binary64 ebUnit = .fin 1 := by decide +kernel
  obtain ⟨adj, s', str, hadj, h, hc⟩ := C99_unstructured binary32 38 (Or.inl ⟨rfl, rfl⟩) (fun _ => 0)
    fineLog2 (libLog binary32) (libExp binary32) 0 fineLog2_ok fineLog2_up
    (lib_ok ok32 (by decide) (by decide) (by decide)) fineLog2_two fineLog2_23 (le_refl 0)
    (p2_pos _).le (wordCodec 4) E1 E2 5 2 twoTets (by decide +kernel) (by norm_num) (by norm_num)
    ebUnit _ hm (by norm_num) (by norm_num) fiveVectors (by
      intro c q hc hq
      have : ∀ c ∈ List.range 3, ∀ q ∈ List.range 5,
        logSizeB binary32 38 (fiveVectors c q) = true := by decide +kernel
      exact logNz_of (this c (List.mem_range.2 hc) q (List.mem_range.2 hq)))
  obtain ⟨adj', hadj', hs⟩ := five_seen
  rw [hadj] at hadj'
  cases hadj'
  obtain ⟨f, t, h1, h2, h3, h4, h5⟩ := seenL3_some hs
  rw [h1] at h
  simp only [Option.some.injEq, Prod.mk.injEq] at h
  obtain ⟨rfl, rfl⟩ := h
  obtain ⟨bs, b1, b2⟩ := hc (by rw [h4]; simp)
    (shallow_of_short (by rw [h4]; simp) (by rw [h4]; simp) (by norm_num) (by rw [h4]; simp))
  refine ⟨adj, f, t, bs, hadj, h1, h3, fun m0 => ?_⟩
  obtain ⟨d, d1, d2⟩ := b2 [] m0
  rw [List.append_nil] at d1
  exact ⟨d, d1, d2⟩

/-! ### Where the signs do not settle it -/

/-- The relative bound one half. -/
def ebHalf : Pat binary64 := enc binary64 false (.fin (1 / 2))

theorem made_seen_rel (ov : Bool) :
    seenUV (runRel binary32 (fun _ => 0) floorLog2 bsqrt ov 2 2 ebHalf madeField) =
    some (6, [0, 0, 36, 36, 0, 0, 0, 0],
      [32768, 32768, 32758, 32761, 32768, 32768, 32768, 32768],
      [13627137, -7344383, 13627137, 13627136], [9538996, -5141068, 9538996, 9538995]) := by
  cases ov <;> decide +kernel

/-- In a triangle where both components change their sign, a critical point can be created in the
mode with a relative bound, with data below `2^24` and the bound one half: the upper triangle has
none, and what comes back from the bytes has one in it. -/
theorem C99_created (ov : Bool) (E1 E2 : Env) :
    (∀ q, q < 4 → Size binary32 (p2 24) (madeField.u q) ∧ Size binary32 (p2 24) (madeField.v q)) ∧
    dec binary64 ebHalf = .fin (1 / 2) ∧
    ¬ Tri.hasCP 2 (realField (dec binary32) madeField) ⟨0, 0, true⟩ ∧
    ∃ m' bs, compressBytes (bitsOps binary32 (fun _ => 0) floorLog2) (wordCodec 4) (wordCodec 8)
        E1 E2 (parBits floorLog2) 2 2 (relEbT (bitsOps binary32 (fun _ => 0) floorLog2))
        (boundRelT (bitsOps binary32 (fun _ => 0) floorLog2)
          (bitsR binary32 (fun _ => 0) floorLog2 bsqrt ov) 2 2 ebHalf) madeField = some (m', bs) ∧
      ∀ m0, ∃ d, decompressBytes (bitsOps binary32 (fun _ => 0) floorLog2) (wordCodec 4)
          (wordCodec 8) (parBits floorLog2).logBase 2 2 m0 bs = some d ∧
        Tri.hasCP 2 (realField (dec binary32) d) ⟨0, 0, true⟩ := by
  refine ⟨(C88_created ov E1 E2).1, by decide +kernel, (C88_created ov E1 E2).2.1, ?_⟩
  obtain ⟨f, t, h1, h2, h3, h4, h5, h6⟩ := seenUV_some (made_seen_rel ov)
  have f1 : Fits E1 (2 * 1024) t.eb :=
    fits_of_short _ _ _ (by rw [h3]; simp) (by rw [h3]; simp) (by norm_num) (by rw [h3]; simp)
  have f2 : Fits E2 (2 * 65536) t.dq :=
    fits_of_short _ _ _ (by rw [h4]; simp) (by rw [h4]; simp) (by norm_num) (by rw [h4]; simp)
  obtain ⟨bs, hbs, hd⟩ := rel_bytes (wordCodec 4) E1 E2 ov 2 2 ebHalf madeField f t rfl h1 f1 f2
  refine ⟨f, bs, hbs, fun m0 => ?_⟩
  obtain ⟨d, d1, d2⟩ := hd [] m0
  rw [List.append_nil] at d1
  refine ⟨d, d1, ?_⟩
  simp only [List.map_cons, List.map_nil, List.cons.injEq] at h5 h6
  have e0 := d2 0 (by norm_num)
  have e1 := d2 1 (by norm_num)
  have e3 := d2 3 (by norm_num)
  rw [← e0.1, ← e1.1, ← e3.1] at h5
  rw [← e0.2, ← e1.2, ← e3.2] at h6
  rw [hasCP_up (num_fin h5.1 (by norm_num)) (num_fin h6.1 (by norm_num))
    (num_fin h5.2.1 (by norm_num)) (num_fin h6.2.1 (by norm_num))
    (num_fin h5.2.2.2.1 (by norm_num)) (num_fin h6.2.2.2.1 (by norm_num))]
  push_cast
  refine cp_of_minors rfl ?_ ?_ ?_ ?_ <;> norm_num

end CpSZ.Ieee
