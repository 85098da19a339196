import Verif.Props.Choice
/-
C64: precision of the regression coefficients, and blocks on which the data are affine.
-/

namespace CpSZ.Block

open Finset

/-! ### The coefficients -/

theorem quantize_near (a c p : ℝ) (hp : 0 ≤ p) (cap R : Int) :
    |(quantize realB.C a c p cap R).2.1 - c| ≤ p := by
  unfold quantize
  split
  · dsimp only
    split
    · rename_i h
      simpa [realB, roundedB, roundedQ, roundedOps] using h
    · simpa using hp
  · simpa using hp

/-- A value closer to its prediction than the precision gets the middle code and is replaced by
the prediction. -/
theorem quantize_mid (pred cur p : ℝ) (R : Int) (hR : 1 ≤ R) (h : |cur - pred| < p) :
    quantize realB.O pred cur p (2 * R) R = (R, pred, []) := by
  have hp : 0 < p := lt_of_le_of_lt (abs_nonneg _) h
  have hy : |cur - pred| / p < 1 := by rw [div_lt_one hp]; exact h
  have hy0 : 0 ≤ |cur - pred| / p := by positivity
  have hR' : (1 : ℝ) ≤ R := by exact_mod_cast hR
  have ht : truncR ((|cur - pred| / p + 1) / 2) = 0 := by
    rw [truncR_nonneg (by linarith), Int.floor_eq_zero_iff]
    constructor <;> linarith
  have hq : linQuant realB.O.toDOps (realB.O.diff cur pred) p (2 * R) R = some R := by
    unfold linQuant
    simp only [realB, roundedB, roundedQ, roundedOps, id, decide_eq_true_eq]
    rw [if_pos (by push_cast; linarith)]
    congr 1
    split
    · push_cast; rw [ht]; ring
    · push_cast
      rw [neg_div, truncR_neg, ht]; ring
  unfold quantize
  rw [hq]
  have ho : realB.O.addTo pred (linOffset realB.O.toDOps p R R) = pred := by
    simp [linOffset, realB, roundedB, roundedQ, roundedOps]
  dsimp only
  rw [ho]
  rw [if_pos]
  simp only [realB, roundedB, roundedQ, roundedOps, id, decide_eq_true_eq, abs_sub_comm pred cur]
  exact h.le

/-- Storing the coefficients of a plane moves the plane by at most a tenth of the precision
anywhere in the block, whatever the previous coefficients were. -/
theorem C64_coefficients_2d (prec : ℝ) (hp : 0 ≤ prec) (bs : Nat) (hb : 0 < bs) (prev : List ℝ)
    (hl : prev.length = 3) (a b c : ℝ) :
    ∃ a' b' c', (quantCoefs realB.C 32768 (regPrecs realB 3 prec bs) prev [a, b, c]).2.2 =
        [a', b', c'] ∧
      ∀ x ≤ bs, ∀ y ≤ bs, |(a' * x + b' * y + c') - (a * x + b * y + c)| ≤ prec / 10 := by
  obtain ⟨u, v, w, rfl⟩ : ∃ u v w, prev = [u, v, w] := by
    match prev, hl with
    | [u, v, w], _ => exact ⟨u, v, w, rfl⟩
  obtain ⟨r, hr⟩ : ∃ r, r = prec / 10 / 3 := ⟨_, rfl⟩
  have hbr : (0 : ℝ) < bs := by exact_mod_cast hb
  have hps : regPrecs realB 3 prec bs = [r / bs, r / bs, r] := by
    simp only [regPrecs, realB, roundedB, id, hr, List.replicate]
    norm_num
    ring_nf
    trivial
  have hr0 : 0 ≤ r := by rw [hr]; positivity
  rw [hps]
  refine ⟨_, _, _, rfl, fun x hx y hy => ?_⟩
  have e1 := quantize_near u a (r / bs) (by positivity) (2 * 32768) 32768
  have e2 := quantize_near v b (r / bs) (by positivity) (2 * 32768) 32768
  have e3 := quantize_near w c r hr0 (2 * 32768) 32768
  generalize (quantize realB.C u a (r / bs) (2 * 32768) 32768).2.1 = a' at e1 ⊢
  generalize (quantize realB.C v b (r / bs) (2 * 32768) 32768).2.1 = b' at e2 ⊢
  generalize (quantize realB.C w c r (2 * 32768) 32768).2.1 = c' at e3 ⊢
  have hx' : (x : ℝ) ≤ bs := by exact_mod_cast hx
  have hy' : (y : ℝ) ≤ bs := by exact_mod_cast hy
  have m1 : |(a' - a) * x| ≤ r := by
    rw [abs_mul, abs_of_nonneg (Nat.cast_nonneg x : (0 : ℝ) ≤ (x : ℝ))]
    calc |a' - a| * x ≤ r / bs * bs := by gcongr
      _ = r := by field_simp
  have m2 : |(b' - b) * y| ≤ r := by
    rw [abs_mul, abs_of_nonneg (Nat.cast_nonneg y : (0 : ℝ) ≤ (y : ℝ))]
    calc |b' - b| * y ≤ r / bs * bs := by gcongr
      _ = r := by field_simp
  have e : (a' * x + b' * y + c') - (a * x + b * y + c) =
      (a' - a) * x + (b' - b) * y + (c' - c) := by ring
  rw [e]
  have h1 := abs_add_le ((a' - a) * x + (b' - b) * y) (c' - c)
  have h2 := abs_add_le ((a' - a) * x) ((b' - b) * y)
  have h3 : 3 * r = prec / 10 := by rw [hr]; ring
  linarith

example := C64_coefficients_2d (1 / 10) (by norm_num) 16 (by norm_num) [0, 1, 2] rfl 3 (-4) 1000

/-- The same for the four coefficients in 3D. -/
theorem C64_coefficients_3d (prec : ℝ) (hp : 0 ≤ prec) (bs : Nat) (hb : 0 < bs) (prev : List ℝ)
    (hl : prev.length = 4) (a b c d : ℝ) :
    ∃ a' b' c' d', (quantCoefs realB.C 32768 (regPrecs realB 4 prec bs) prev [a, b, c, d]).2.2 =
        [a', b', c', d'] ∧
      ∀ x ≤ bs, ∀ y ≤ bs, ∀ z ≤ bs,
        |(a' * x + b' * y + c' * z + d') - (a * x + b * y + c * z + d)| ≤ prec / 10 := by
  obtain ⟨u, v, w, t, rfl⟩ : ∃ u v w t, prev = [u, v, w, t] := by
    match prev, hl with
    | [u, v, w, t], _ => exact ⟨u, v, w, t, rfl⟩
  obtain ⟨r, hr⟩ : ∃ r, r = prec / 10 / 4 := ⟨_, rfl⟩
  have hbr : (0 : ℝ) < bs := by exact_mod_cast hb
  have hps : regPrecs realB 4 prec bs = [r / bs, r / bs, r / bs, r] := by
    simp only [regPrecs, realB, roundedB, id, hr, List.replicate]
    norm_num
    ring_nf
    trivial
  have hr0 : 0 ≤ r := by rw [hr]; positivity
  rw [hps]
  refine ⟨_, _, _, _, rfl, fun x hx y hy z hz => ?_⟩
  have e1 := quantize_near u a (r / bs) (by positivity) (2 * 32768) 32768
  have e2 := quantize_near v b (r / bs) (by positivity) (2 * 32768) 32768
  have e3 := quantize_near w c (r / bs) (by positivity) (2 * 32768) 32768
  have e4 := quantize_near t d r hr0 (2 * 32768) 32768
  generalize (quantize realB.C u a (r / bs) (2 * 32768) 32768).2.1 = a' at e1 ⊢
  generalize (quantize realB.C v b (r / bs) (2 * 32768) 32768).2.1 = b' at e2 ⊢
  generalize (quantize realB.C w c (r / bs) (2 * 32768) 32768).2.1 = c' at e3 ⊢
  generalize (quantize realB.C t d r (2 * 32768) 32768).2.1 = d' at e4 ⊢
  have key : ∀ (f g : ℝ) (n : Nat), n ≤ bs → |f - g| ≤ r / bs → |(f - g) * n| ≤ r := by
    intro f g n hn h
    have hn' : (n : ℝ) ≤ bs := by exact_mod_cast hn
    rw [abs_mul, abs_of_nonneg (Nat.cast_nonneg n : (0 : ℝ) ≤ (n : ℝ))]
    calc |f - g| * n ≤ r / bs * bs := by gcongr
      _ = r := by field_simp
  have m1 := key a' a x hx e1
  have m2 := key b' b y hy e2
  have m3 := key c' c z hz e3
  have e : (a' * x + b' * y + c' * z + d') - (a * x + b * y + c * z + d) =
      (a' - a) * x + (b' - b) * y + (c' - c) * z + (d' - d) := by ring
  rw [e]
  have h1 := abs_add_le ((a' - a) * x + (b' - b) * y + (c' - c) * z) (d' - d)
  have h2 := abs_add_le ((a' - a) * x + (b' - b) * y) ((c' - c) * z)
  have h3 := abs_add_le ((a' - a) * x) ((b' - b) * y)
  have h4 : 4 * r = prec / 10 := by rw [hr]; ring
  linarith

example := C64_coefficients_3d (1 / 10) (by norm_num) 6 (by norm_num) [0, 1, 2, 3] rfl 3 (-4) 5 1000

/-! ### Points belong to the block that was started last -/

/-- Every point lies in the block started last, and its position is the one the block and its
coordinates say (`e0`, `e1` are the strides). -/
def InBlk (e0 e1 : Nat) : Option (Nat × Nat × Nat × Nat) → List Ev → Prop
  | _, [] => True
  | _, .start o sx sy sz :: es => InBlk e0 e1 (some (o, sx, sy, sz)) es
  | b, .copy _ _ :: es => InBlk e0 e1 b es
  | b, .pt p :: es =>
    (∃ o sx sy sz, b = some (o, sx, sy, sz) ∧ p.x < sx ∧ p.y < sy ∧ p.z < sz ∧
      p.pos = o + p.x * e0 + p.y * e1 + p.z) ∧ InBlk e0 e1 b es

theorem inBlk_append (e0 e1 : Nat) (es es' : List Ev) (h' : ∀ b, InBlk e0 e1 b es') :
    ∀ b, InBlk e0 e1 b es → InBlk e0 e1 b (es ++ es') := by
  induction es with
  | nil => intro b _; exact h' b
  | cons e es ih =>
    intro b h
    cases e with
    | start o sx sy sz => exact ih _ h
    | copy s l => exact ih _ h
    | pt p => exact ⟨h.1, ih _ h.2⟩

theorem inBlk_flatMap {α : Type} (e0 e1 : Nat) (l : List α) (f : α → List Ev)
    (h : ∀ a ∈ l, ∀ b, InBlk e0 e1 b (f a)) : ∀ b, InBlk e0 e1 b (l.flatMap f) := by
  induction l with
  | nil => intro b; trivial
  | cons a l ih =>
    intro b
    rw [List.flatMap_cons]
    exact inBlk_append _ _ _ _ (ih fun a' ha' => h a' (List.mem_cons_of_mem _ ha')) b
      (h a (by simp) b)

theorem inBlk_pts (e0 e1 o sx sy sz : Nat) (es : List Ev)
    (h : ∀ e ∈ es, ∃ p, e = .pt p ∧ p.x < sx ∧ p.y < sy ∧ p.z < sz ∧
      p.pos = o + p.x * e0 + p.y * e1 + p.z) : InBlk e0 e1 (some (o, sx, sy, sz)) es := by
  induction es with
  | nil => trivial
  | cons e es ih =>
    obtain ⟨p, rfl, hp⟩ := h e (by simp)
    exact ⟨⟨o, sx, sy, sz, rfl, hp⟩, ih fun e' he' => h e' (List.mem_cons_of_mem _ he')⟩

theorem inBlk_2d (d1 d2 bs : Nat) (b) : InBlk d2 1 b (planC2 d1 d2 bs) := by
  rw [planC2_closed]
  refine inBlk_flatMap _ _ _ _ (fun i _ => fun b => ?_) b
  refine inBlk_append _ _ _ [Ev.copy _ _] (fun _ => trivial) _ ?_
  refine inBlk_flatMap _ _ _ _ (fun j _ => fun b => ?_) b
  refine inBlk_pts _ _ _ _ _ _ _ fun e he => ?_
  simp only [List.mem_flatMap, List.mem_range, List.mem_singleton] at he
  obtain ⟨x, hx, y, hy, rfl⟩ := he
  exact ⟨_, rfl, hx, hy, Nat.one_pos, by simp⟩

theorem inBlk_blk3 (d1 d2 d3 bs off0 off1 base i j k : Nat) (b) :
    InBlk (d2 * d3) d3 b (blk3 d1 d2 d3 bs off0 off1 base i j k) := by
  refine inBlk_pts _ _ _ _ _ _ _ fun e he => ?_
  simp only [List.mem_flatMap, List.mem_range, List.mem_singleton] at he
  obtain ⟨x, hx, y, hy, z, hz, rfl⟩ := he
  exact ⟨_, rfl, hx, hy, hz, rfl⟩

theorem inBlk_3d (indep : Bool) (d1 d2 d3 bs : Nat) (hd : 0 < d3) (hb : 0 < bs) (b) :
    InBlk (d2 * d3) d3 b (plan3d indep d1 d2 d3 bs) := by
  cases indep
  · show InBlk _ _ b (plan3 d1 d2 d3 bs)
    rw [plan3_closed _ _ _ _ hd hb]
    refine inBlk_flatMap _ _ _ _ (fun i _ => fun b => ?_) b
    refine inBlk_append _ _ _ [Ev.copy _ _] (fun _ => trivial) _ ?_
    exact inBlk_flatMap _ _ _ _ (fun j _ => fun b => inBlk_flatMap _ _ _ _ (fun k _ => fun b =>
      inBlk_blk3 _ _ _ _ _ _ _ _ _ _ b) b) b
  · show InBlk _ _ b (plan3i d1 d2 d3 bs)
    rw [plan3i_closed _ _ _ _ hd hb]
    exact inBlk_flatMap _ _ _ _ (fun i _ => fun b => inBlk_flatMap _ _ _ _ (fun j _ => fun b =>
      inBlk_flatMap _ _ _ _ (fun k _ => fun b => inBlk_blk3 _ _ _ _ _ _ _ _ _ _ b) b) b) b

/-- Where the blocks start and how large they are. -/
theorem start_2d (d1 d2 bs o sx sy sz : Nat) (h : Ev.start o sx sy sz ∈ planC2 d1 d2 bs) :
    ∃ i j, i < numBlk d1 bs ∧ j < numBlk d2 bs ∧ o = i * (bs * d2) + j * bs ∧
      sx = blkSize d1 bs i ∧ sy = blkSize d2 bs j ∧ sz = 1 := by
  rw [planC2_closed] at h
  simp only [blk2, List.mem_flatMap, List.mem_append, List.mem_cons, List.mem_range,
    Ev.start.injEq, reduceCtorEq, or_false, and_false, exists_false,
    List.not_mem_nil] at h
  obtain ⟨i, hi, j, hj, h1, h2, h3, h4⟩ := h
  exact ⟨i, j, hi, hj, h1, h2, h3, h4⟩

theorem start_3d (indep : Bool) (d1 d2 d3 bs o sx sy sz : Nat) (hd : 0 < d3) (hb : 0 < bs)
    (h : Ev.start o sx sy sz ∈ plan3d indep d1 d2 d3 bs) :
    ∃ i j k, i < numBlk d1 bs ∧ j < numBlk d2 bs ∧ k < numBlk d3 bs ∧
      o = i * (bs * (d2 * d3)) + j * (bs * d3) + k * bs ∧
      sx = blkSize d1 bs i ∧ sy = blkSize d2 bs j ∧ sz = blkSize d3 bs k := by
  cases indep
  · have h : Ev.start o sx sy sz ∈ plan3 d1 d2 d3 bs := h
    rw [plan3_closed _ _ _ _ hd hb] at h
    simp only [blk3, List.mem_flatMap, List.mem_append, List.mem_cons, List.mem_range,
      Ev.start.injEq, reduceCtorEq, or_false, and_false, exists_false,
      List.not_mem_nil] at h
    obtain ⟨i, hi, j, hj, k, hk, h1, h2, h3, h4⟩ := h
    exact ⟨i, j, k, hi, hj, hk, h1, h2, h3, h4⟩
  · have h : Ev.start o sx sy sz ∈ plan3i d1 d2 d3 bs := h
    rw [plan3i_closed _ _ _ _ hd hb] at h
    simp only [blk3, List.mem_flatMap, List.mem_cons, List.mem_range,
      Ev.start.injEq, reduceCtorEq, or_false, and_false, exists_false,
      List.not_mem_nil] at h
    obtain ⟨i, hi, j, hj, k, hk, h1, h2, h3, h4⟩ := h
    exact ⟨i, j, k, hi, hj, hk, h1, h2, h3, h4⟩

/-! ### A run in which every block is predicted well -/

/-- If every block is a regression block whose stored coefficients predict each of its points
to within `ε`, below the precision, then every code is the middle one, nothing is stored
verbatim, and every value is reproduced to within `ε`. -/
theorem run_flat (G : Cfg ℝ ℝ ℝ) (data : Nat → ℝ) (e0 e1 n : Nat) (p ε : ℝ)
    (hO : G.O = realB.O) (hz : G.zeroCheck = false) (hp : ∀ q, G.prec q = p)
    (hcap : G.cap = 2 * G.radius) (hR : 1 ≤ G.radius) (hε : ε < p) (es : List Ev)
    (hsel : ∀ o sx sy sz, Ev.start o sx sy sz ∈ es → ∃ c, G.sel o sx sy sz = some c ∧
      ∀ prev : List ℝ, prev.length = n →
        (quantCoefs G.C G.regRadius G.regPrecs prev c).2.2.length = n ∧
        ∀ q : Pt, q.x < sx → q.y < sy → q.z < sz → q.pos = o + q.x * e0 + q.y * e1 + q.z →
          |G.reg (quantCoefs G.C G.regRadius G.regPrecs prev c).2.2 q - data q.pos| ≤ ε) :
    ∀ (b : Option (Nat × Nat × Nat × Nat)) (s : St ℝ ℝ), InBlk e0 e1 b es → s.prev.length = n →
      (∀ o sx sy sz, b = some (o, sx, sy, sz) → ∃ c, s.mode = some c ∧
        ∀ q : Pt, q.x < sx → q.y < sy → q.z < sz → q.pos = o + q.x * e0 + q.y * e1 + q.z →
          |G.reg c q - data q.pos| ≤ ε) →
      (runEnc G data es s).ty = List.replicate (positions es).length G.radius ∧
      (runEnc G data es s).un = [] ∧
      (∀ f ∈ (runEnc G data es s).ind, f = true) ∧
      ∀ w ∈ (runEnc G data es s).recon, |w.2 - data w.1| ≤ ε := by
  induction es with
  | nil => intro b s _ _ _; simp [runEnc, Out.nil, positions]
  | cons e es ih =>
    intro b s hb hl hm
    have ih' := ih fun o sx sy sz h => hsel o sx sy sz (List.mem_cons_of_mem _ h)
    cases e with
    | start o sx sy sz =>
      obtain ⟨c, hc, hq⟩ := hsel o sx sy sz (by simp)
      obtain ⟨hq1, hq2⟩ := hq s.prev hl
      have := ih' (some (o, sx, sy, sz)) { s with
        mode := some (quantCoefs G.C G.regRadius G.regPrecs s.prev c).2.2
        prev := (quantCoefs G.C G.regRadius G.regPrecs s.prev c).2.2 } hb hq1
        (fun o' sx' sy' sz' he => by
          injection he with he
          injection he with he1 he2
          injection he2 with he2 he3
          injection he3 with he3 he4
          subst he1 he2 he3 he4
          exact ⟨_, rfl, hq2⟩)
      obtain ⟨h1, h2, h3, h4⟩ := this
      simp only [runEnc, encEv, hc, Out.app, Out.nil, List.nil_append, positions]
      refine ⟨h1, h2, ?_, h4⟩
      intro f hf
      rcases List.mem_append.1 hf with hf | hf
      · simpa using hf
      · exact h3 f hf
    | copy src len =>
      have := ih' b { s with buf := copyBuf s.buf src len } hb hl hm
      simpa only [runEnc, encEv, Out.app, Out.nil, List.nil_append, positions] using this
    | pt q =>
      obtain ⟨⟨o, sx, sy, sz, rfl, h1, h2, h3, h4⟩, hb'⟩ := hb
      obtain ⟨c, hc, hpr⟩ := hm o sx sy sz rfl
      have hd := hpr q h1 h2 h3 h4
      have he : encPt G data s q = (G.radius, [], G.reg c q) := by
        have := quantize_mid (G.reg c q) (data q.pos) p G.radius hR
          (by rw [abs_sub_comm]; exact lt_of_le_of_lt hd hε)
        simp only [encPt, hz, hp, hc, hcap, hO, this, Bool.false_and, Bool.false_eq_true, if_false]
      have := ih' (some (o, sx, sy, sz))
        { s with buf := if G.stores s.mode then upd s.buf q.buf (G.reg c q) else s.buf } hb' hl hm
      obtain ⟨k1, k2, k3, k4⟩ := this
      simp only [runEnc, encEv, he, Out.app, Out.nil, List.nil_append, positions]
      refine ⟨?_, k2, k3, ?_⟩
      · rw [k1]; rfl
      · intro w hw
        rcases List.mem_append.1 hw with hw | hw
        · rw [List.mem_singleton] at hw; subst hw; exact hd
        · exact k4 w hw

/-! ### Affine blocks -/

theorem fit2_affine (data : Nat → ℝ) (o sx sy off : Nat) (hx : 2 ≤ sx) (hy : 2 ≤ sy)
    (hoff : sy ≤ off) (a b c : ℝ)
    (h : ∀ x < sx, ∀ y < sy, data (o + x * off + y) = a * x + b * y + c) :
    fit2 realFit data o sx sy off = [a, b, c] := by
  obtain ⟨a', b', c', hf, hm⟩ := C61_least_squares_2d data o sx sy off hx hy hoff
  have h0 : sq2 (fun i j => data (o + i * off + j)) sx sy a b c = 0 := by
    unfold sq2
    refine Finset.sum_eq_zero fun i hi => Finset.sum_eq_zero fun j hj => ?_
    beta_reduce
    rw [h i (Finset.mem_range.1 hi) j (Finset.mem_range.1 hj)]
    ring
  have h1 : 0 ≤ sq2 (fun i j => data (o + i * off + j)) sx sy a' b' c' := by
    unfold sq2
    exact Finset.sum_nonneg fun i _ => Finset.sum_nonneg fun j _ => sq_nonneg _
  obtain ⟨rfl, rfl, rfl⟩ := (hm a b c).2 (by rw [h0]; exact h1)
  exact hf

theorem fit3_affine (data : Nat → ℝ) (o sx sy sz off0 off1 : Nat) (hx : 2 ≤ sx) (hy : 2 ≤ sy)
    (hz : 2 ≤ sz) (h1 : sz ≤ off1) (h0 : sy * off1 ≤ off0) (a b c e : ℝ)
    (h : ∀ x < sx, ∀ y < sy, ∀ z < sz,
      data (o + x * off0 + y * off1 + z) = a * x + b * y + c * z + e) :
    fit3 realFit data o sx sy sz off0 off1 = [a, b, c, e] := by
  obtain ⟨a', b', c', e', hf, hm⟩ := C61_least_squares_3d data o sx sy sz off0 off1 hx hy hz h1 h0
  have k0 : sq3 (fun i j k => data (o + i * off0 + j * off1 + k)) sx sy sz a b c e = 0 := by
    unfold sq3
    refine Finset.sum_eq_zero fun i hi => Finset.sum_eq_zero fun j hj =>
      Finset.sum_eq_zero fun k hk => ?_
    beta_reduce
    rw [h i (Finset.mem_range.1 hi) j (Finset.mem_range.1 hj) k (Finset.mem_range.1 hk)]
    ring
  have k1 : 0 ≤ sq3 (fun i j k => data (o + i * off0 + j * off1 + k)) sx sy sz a' b' c' e' := by
    unfold sq3
    exact Finset.sum_nonneg fun i _ => Finset.sum_nonneg fun j _ =>
      Finset.sum_nonneg fun k _ => sq_nonneg _
  obtain ⟨rfl, rfl, rfl, rfl⟩ := (hm a b c e).2 (by rw [k0]; exact k1)
  exact hf

theorem choose2_affine (data : Nat → ℝ) (d2 : Nat) (prec m : ℝ) (hp : 0 < prec)
    (o sx sy sz : Nat) (hx : 8 ≤ sx) (hy : 8 ≤ sy) (hoff : sy ≤ d2) (a b c : ℝ)
    (h : ∀ x < sx, ∀ y < sy, data (o + x * d2 + y) = a * x + b * y + c) :
    choose2 realFit data d2 (false, m) prec o sx sy sz = some [a, b, c] := by
  refine (C62_choice_2d data d2 (false, m) prec o sx sy sz [a, b, c]).2
    ⟨hx, hy, (fit2_affine data o sx sy d2 (by omega) (by omega) hoff a b c h).symm, a, b, c, rfl, ?_⟩
  unfold diag2
  refine Finset.sum_lt_sum_of_nonempty ⟨1, by simp only [Finset.mem_Ico]; omega⟩ fun i hi => ?_
  rw [Finset.mem_Ico] at hi
  beta_reduce
  rw [h i (by omega) i (by omega), h i (by omega) (min sx sy - i) (by omega), sub_self, sub_self,
    abs_zero]
  simp only [lorCost, Bool.false_eq_true, if_false, add_zero]
  positivity

theorem choose3_affine (data : Nat → ℝ) (d2 d3 : Nat) (prec m : ℝ) (hp : 0 < prec)
    (o sx sy sz : Nat) (hx : 4 ≤ sx) (hy : 4 ≤ sy) (hz : 4 ≤ sz) (h2 : sy ≤ d2) (h3 : sz ≤ d3)
    (a b c e : ℝ)
    (h : ∀ x < sx, ∀ y < sy, ∀ z < sz,
      data (o + x * (d2 * d3) + y * d3 + z) = a * x + b * y + c * z + e) :
    choose3 realFit data d2 d3 (false, m) prec o sx sy sz = some [a, b, c, e] := by
  refine (C62_choice_3d data d2 d3 (false, m) prec o sx sy sz [a, b, c, e]).2
    ⟨hx, hy, hz, (fit3_affine data o sx sy sz (d2 * d3) d3 (by omega) (by omega) (by omega) h3
      (Nat.mul_le_mul_right _ h2) a b c e h).symm, a, b, c, e, rfl, ?_⟩
  unfold diag3
  refine Finset.sum_lt_sum_of_nonempty ⟨1, by simp only [Finset.mem_Ico]; omega⟩ fun i hi => ?_
  rw [Finset.mem_Ico] at hi
  obtain ⟨m, hm⟩ : ∃ m, m = min (min sx sy) sz := ⟨_, rfl⟩
  rw [← hm] at hi ⊢
  beta_reduce
  rw [h i (by omega) i (by omega) i (by omega), h i (by omega) i (by omega) (m - i) (by omega),
    h i (by omega) (m - i) (by omega) i (by omega),
    h i (by omega) (m - i) (by omega) (m - i) (by omega), sub_self, sub_self, sub_self, sub_self,
    abs_zero]
  simp only [lorCost, Bool.false_eq_true, if_false, add_zero]
  positivity

-- `C62_choice_2d`: on a ramp regression is chosen, with the ramp itself as the plane.
example : choose2 realFit (fun p => (p : ℝ)) 20 (false, 0) (1 / 10) 5 8 9 1 = some [20, 1, 5] :=
  choose2_affine _ 20 _ _ (by norm_num) 5 8 9 1 (by norm_num) (by norm_num) (by norm_num) 20 1 5
    (fun x _ y _ => by push_cast; ring)

-- ... and a block with seven rows is always a Lorenzo block.
example (data : Nat → ℝ) : choose2 realFit data 20 (false, 0) (1 / 10) 5 7 9 1 = none := by
  rw [Option.eq_none_iff_forall_ne_some]
  intro c h
  have := ((C62_choice_2d data 20 (false, 0) (1 / 10) 5 7 9 1 c).1 h).1
  omega

/-- 2D, exact arithmetic, default codec with the choices it makes itself: if the data are affine
on every block and every block has at least eight rows and columns, then every block is a
regression block, every code is the middle one, nothing is stored verbatim, and every value
comes back within a tenth of the requested precision. -/
theorem C64_affine_2d (data : Nat → ℝ) (prec : ℝ) (hp : 0 < prec) (r1 r2 bs : Nat) (h1 : 0 < r1)
    (h2 : 0 < r2) (hb : 8 ≤ bs) (hs1 : ∀ i, i * bs < r1 → i * bs + 8 ≤ r1)
    (hs2 : ∀ j, j * bs < r2 → j * bs + 8 ≤ r2)
    (haff : ∀ i j, i * bs < r1 → j * bs < r2 → ∃ a b c : ℝ,
      ∀ x < bs, ∀ y < bs, i * bs + x < r1 → j * bs + y < r2 →
        data ((i * bs + x) * r2 + (j * bs + y)) = a * x + b * y + c) :
    let o := out2 realB data prec r1 r2 bs (choose2 realFit data r2 (false, 0) prec)
    (∀ f ∈ o.ind, f = true) ∧ o.ty = List.replicate (r1 * r2) 16384 ∧ o.un = [] ∧
      ∀ w ∈ o.recon, |w.2 - data w.1| ≤ prec / 10 := by
  intro o
  obtain ⟨G, hG⟩ : ∃ G, G = cfg2 realB r2 bs (false, 0) 16384 (fun _ => prec) false prec
    (choose2 realFit data r2 (false, 0) prec) := ⟨_, rfl⟩
  have key := run_flat G data r2 1 3 prec (prec / 10) (by rw [hG]; rfl) (by rw [hG]; rfl)
    (by rw [hG]; intro q; rfl) (by rw [hG]; rfl) (by rw [hG]; show (1 : Int) ≤ ((16384 : Nat) : Int); decide) (by linarith)
    (planC2 r1 r2 bs) (fun p sx sy sz hst => by
      obtain ⟨i, j, hi, hj, rfl, rfl, rfl, rfl⟩ := start_2d _ _ _ _ _ _ _ hst
      have hi' := (lt_numBlk (by omega) (by omega)).1 hi
      have hj' := (lt_numBlk (by omega) (by omega)).1 hj
      have := hs1 i hi'
      have := hs2 j hj'
      rw [blkSize_eq, blkSize_eq]
      obtain ⟨a, b, c, hpl⟩ := haff i j hi' hj'
      have hpl' : ∀ x < min bs (r1 - i * bs), ∀ y < min bs (r2 - j * bs),
          data (i * (bs * r2) + j * bs + x * r2 + y) = a * x + b * y + c := by
        intro x hx y hy
        rw [← hpl x (by omega) y (by omega) (by omega) (by omega)]
        congr 1; ring
      refine ⟨[a, b, c], ?_, fun prev hl => ?_⟩
      · rw [hG]
        exact choose2_affine data r2 prec 0 hp _ _ _ 1 (by omega) (by omega) (by omega) a b c hpl'
      · obtain ⟨a', b', c', he, hn⟩ := C64_coefficients_2d prec hp.le bs (by omega) prev hl a b c
        have he' : (quantCoefs G.C G.regRadius G.regPrecs prev [a, b, c]).2.2 = [a', b', c'] := by
          rw [hG]; exact he
        rw [he']
        refine ⟨rfl, fun q hx hy hz hq => ?_⟩
        have hz0 : q.z = 0 := by omega
        rw [hq, hz0, Nat.add_zero, Nat.mul_one, hpl' _ hx _ hy]
        have := hn q.x (by omega) q.y (by omega)
        rw [hG]
        simpa [cfg2, regAt2, realB, roundedB] using this)
    none (initSt realB 3) (inBlk_2d _ _ _ _) (by simp [initSt]) (by intro _ _ _ _ h; cases h)
  have ho : o = runEnc G data (planC2 r1 r2 bs) (initSt realB 3) := by rw [hG]; rfl
  rw [← ho] at key
  obtain ⟨k1, k2, k3, k4⟩ := key
  refine ⟨k3, ?_, k2, k4⟩
  have hlen := (tiling2 r1 r2 bs h1 h2 (by omega)).length_eq
  rw [List.length_range] at hlen
  rw [k1, hlen, hG]; rfl

example := C64_affine_2d (fun p => (p : ℝ)) (1 / 100) (by norm_num) 16 16 8 (by norm_num)
  (by norm_num) (by norm_num) (by omega) (by omega)
  (fun i j _ _ => ⟨16, 1, (i * 8) * 16 + j * 8, fun x _ y _ _ _ => by push_cast; ring⟩)

/-- The same in 3D, for both traversals, for every quantisation capacity the sampling may
choose, when the sampling does not choose to use the mean. -/
theorem C64_affine_3d (data : Nat → ℝ) (prec : ℝ) (hp : 0 < prec) (r1 r2 r3 bs : Nat)
    (indep : Bool) (radius : Nat) (m : ℝ) (hR : 1 ≤ radius) (h1 : 0 < r1)
    (h2 : 0 < r2) (h3 : 0 < r3) (hb : 4 ≤ bs) (hs1 : ∀ i, i * bs < r1 → i * bs + 4 ≤ r1)
    (hs2 : ∀ j, j * bs < r2 → j * bs + 4 ≤ r2) (hs3 : ∀ k, k * bs < r3 → k * bs + 4 ≤ r3)
    (haff : ∀ i j k, i * bs < r1 → j * bs < r2 → k * bs < r3 → ∃ a b c e : ℝ,
      ∀ x < bs, ∀ y < bs, ∀ z < bs, i * bs + x < r1 → j * bs + y < r2 → k * bs + z < r3 →
        data (((i * bs + x) * r2 + (j * bs + y)) * r3 + (k * bs + z)) =
          a * x + b * y + c * z + e) :
    let o := out3 realB data prec r1 r2 r3 bs indep radius (false, m)
      (choose3 realFit data r2 r3 (false, m) prec)
    (∀ f ∈ o.ind, f = true) ∧ o.ty = List.replicate (r1 * r2 * r3) (radius : Int) ∧ o.un = [] ∧
      ∀ w ∈ o.recon, |w.2 - data w.1| ≤ prec / 10 := by
  intro o
  obtain ⟨G, hG⟩ : ∃ G, G = cfg3 realB r2 r3 bs indep (false, m) radius (fun _ => prec) prec
    (choose3 realFit data r2 r3 (false, m) prec) := ⟨_, rfl⟩
  have key := run_flat G data (r2 * r3) r3 4 prec (prec / 10) (by rw [hG]; rfl) (by rw [hG]; rfl)
    (by rw [hG]; intro q; rfl) (by rw [hG]; rfl)
    (by rw [hG]; show (1 : Int) ≤ (radius : Int); exact_mod_cast hR) (by linarith)
    (plan3d indep r1 r2 r3 bs) (fun p sx sy sz hst => by
      obtain ⟨i, j, k, hi, hj, hk, rfl, rfl, rfl, rfl⟩ :=
        start_3d _ _ _ _ _ _ _ _ _ h3 (by omega) hst
      have hi' := (lt_numBlk (by omega) (by omega)).1 hi
      have hj' := (lt_numBlk (by omega) (by omega)).1 hj
      have hk' := (lt_numBlk (by omega) (by omega)).1 hk
      have := hs1 i hi'
      have := hs2 j hj'
      have := hs3 k hk'
      rw [blkSize_eq, blkSize_eq, blkSize_eq]
      obtain ⟨a, b, c, e, hpl⟩ := haff i j k hi' hj' hk'
      have hpl' : ∀ x < min bs (r1 - i * bs), ∀ y < min bs (r2 - j * bs),
          ∀ z < min bs (r3 - k * bs),
          data (i * (bs * (r2 * r3)) + j * (bs * r3) + k * bs + x * (r2 * r3) + y * r3 + z) =
            a * x + b * y + c * z + e := by
        intro x hx y hy z hz
        rw [← hpl x (by omega) y (by omega) z (by omega) (by omega) (by omega) (by omega)]
        congr 1; ring
      refine ⟨[a, b, c, e], ?_, fun prev hl => ?_⟩
      · rw [hG]
        exact choose3_affine data r2 r3 prec m hp _ _ _ _ (by omega) (by omega) (by omega)
          (by omega) (by omega) a b c e hpl'
      · obtain ⟨a', b', c', d', he, hn⟩ :=
          C64_coefficients_3d prec hp.le bs (by omega) prev hl a b c e
        have he' : (quantCoefs G.C G.regRadius G.regPrecs prev [a, b, c, e]).2.2 =
            [a', b', c', d'] := by
          rw [hG]; exact he
        rw [he']
        refine ⟨rfl, fun q hx hy hz hq => ?_⟩
        rw [hq, hpl' _ hx _ hy _ hz]
        have := hn q.x (by omega) q.y (by omega) q.z (by omega)
        rw [hG]
        simpa [cfg3, regAt3, realB, roundedB] using this)
    none (initSt realB 4) (inBlk_3d _ _ _ _ _ h3 (by omega) _) (by simp [initSt])
    (by intro _ _ _ _ h; cases h)
  have ho : o = runEnc G data (plan3d indep r1 r2 r3 bs) (initSt realB 4) := by rw [hG]; rfl
  rw [← ho] at key
  obtain ⟨k1, k2, k3, k4⟩ := key
  refine ⟨k3, ?_, k2, k4⟩
  have hlen : (positions (plan3d indep r1 r2 r3 bs)).length = r1 * r2 * r3 := by
    have : (positions (plan3d indep r1 r2 r3 bs)).Perm (List.range (r1 * r2 * r3)) := by
      unfold plan3d
      cases indep
      · exact tiling3 _ _ _ _ h1 h2 h3 (by omega)
      · exact tiling3i _ _ _ _ h1 h2 h3 (by omega)
    rw [this.length_eq, List.length_range]
  rw [k1, hlen, hG]; rfl

example (indep : Bool) := C64_affine_3d (fun p => (p : ℝ)) (1 / 100) (by norm_num) 10 10 10 6 indep
  32768 0 (by norm_num) (by norm_num) (by norm_num) (by norm_num) (by norm_num) (by omega)
  (by omega) (by omega)
  (fun i j k _ _ _ => ⟨100, 10, 1, ((i * 6) * 10 + j * 6) * 10 + k * 6,
    fun x _ y _ z _ _ _ _ => by push_cast; ring⟩)

end CpSZ.Block
