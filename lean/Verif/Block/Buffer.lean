import Verif.Block.Full
/-
The rolling prediction buffer of the 2D block codecs holds exactly the reconstructed
neighbours: predictions through the buffer equal Lorenzo predictions on the whole
reconstructed grid, padded with zeros.
-/

namespace CpSZ.Block

variable {T F D : Type}

/-- Specification: the Lorenzo prediction at `(X, Y)` from a row-major grid with `d2` columns,
where everything outside the grid counts as zero. -/
def lorGrid2 (B : BOps T F D) (d2 : Nat) (R : Nat → T) (X Y : Nat) : F :=
  B.lor2 (if Y = 0 then B.zeroT else R (X * d2 + (Y - 1)))
    (if X = 0 then B.zeroT else R ((X - 1) * d2 + Y))
    (if X = 0 ∨ Y = 0 then B.zeroT else R ((X - 1) * d2 + (Y - 1)))

/-- What a traversal may do, and what holds after it (`post`): `i` is the current block row
and `done` the set of visited points. -/
def Valid (d2 bs : Nat) : Nat → (Nat → Nat → Prop) → List Ev →
    (Nat → (Nat → Nat → Prop) → Prop) → Prop
  | i, done, [], post => post i done
  | i, done, .start .. :: es, post => Valid d2 bs i done es post
  | i, done, .pt p :: es, post => ∃ X Y, p.pos = X * d2 + Y ∧ Y < d2 ∧ i * bs ≤ X ∧
      X < i * bs + bs ∧ p.buf = (X + 1 - i * bs) * (d2 + 1) + (Y + 1) ∧
      (0 < Y → done X (Y - 1)) ∧ (0 < X → done (X - 1) Y) ∧
      (0 < X → 0 < Y → done (X - 1) (Y - 1)) ∧ ¬ done X Y ∧
      Valid d2 bs i (fun X' Y' => done X' Y' ∨ (X' = X ∧ Y' = Y)) es post
  | i, done, .copy src len :: es, post => src = bs * (d2 + 1) ∧ len = d2 + 1 ∧
      Valid d2 bs (i + 1) done es post

theorem Valid_append (d2 bs : Nat) (l1 l2 : List Ev) (i : Nat) (done : Nat → Nat → Prop)
    (post : Nat → (Nat → Nat → Prop) → Prop) :
    Valid d2 bs i done (l1 ++ l2) post ↔
      Valid d2 bs i done l1 (fun i d => Valid d2 bs i d l2 post) := by
  induction l1 generalizing i done with
  | nil => exact Iff.rfl
  | cons e l1 ih =>
    cases e with
    | start => exact ih _ _
    | copy =>
      simp only [List.cons_append, Valid, ih]
    | pt p =>
      simp only [List.cons_append, Valid, ih]

theorem Valid_mono (d2 bs : Nat) (l : List Ev) (i : Nat) (done : Nat → Nat → Prop)
    (post post' : Nat → (Nat → Nat → Prop) → Prop) (h : ∀ i d, post i d → post' i d)
    (hv : Valid d2 bs i done l post) : Valid d2 bs i done l post' := by
  induction l generalizing i done with
  | nil => exact h _ _ hv
  | cons e l ih =>
    cases e with
    | start => exact ih _ _ hv
    | copy => exact ⟨hv.1, hv.2.1, ih _ _ hv.2.2⟩
    | pt p =>
      obtain ⟨X, Y, a, b, c, d, e, f, g, k, l, m⟩ := hv
      exact ⟨X, Y, a, b, c, d, e, f, g, k, l, ih _ _ m⟩

theorem Valid_flatMap (d2 bs : Nat) (n : Nat) (g : Nat → List Ev)
    (I : Nat → Nat → (Nat → Nat → Prop) → Prop)
    (h : ∀ k < n, ∀ i d, I k i d → Valid d2 bs i d (g k) (I (k + 1)))
    (i : Nat) (d : Nat → Nat → Prop) (h0 : I 0 i d) :
    Valid d2 bs i d ((List.range n).flatMap g) (I n) := by
  induction n with
  | zero => exact h0
  | succ n ih =>
    rw [List.range_succ, List.flatMap_append, Valid_append]
    refine Valid_mono _ _ _ _ _ _ _ (fun i' d' h' => ?_) (ih (fun k hk => h k (by omega)))
    simp only [List.flatMap_cons, List.flatMap_nil, List.append_nil]
    exact h n (by omega) i' d' h'

/-- The visited points when the traversal is at `(x, y)` inside the block with corner
`(a, b)`. -/
def Done (d1 d2 bs a b x y X Y : Nat) : Prop :=
  X < d1 ∧ Y < d2 ∧ (X < a ∨ (X < a + bs ∧ (Y < b ∨ (Y < b + bs ∧
    (X < a + x ∨ (X = a + x ∧ Y < b + y))))))

theorem plan_valid (d1 d2 bs : Nat) (h1 : 0 < d1) (h2 : 0 < d2) (hb : 0 < bs) :
    Valid d2 bs 0 (fun _ _ => False) (planC2 d1 d2 bs)
      (fun _ d => ∀ X Y, d X Y ↔ (X < d1 ∧ Y < d2)) := by
  rw [planC2_closed]
  refine Valid_mono _ _ _ _ _ _ _ ?_ (Valid_flatMap d2 bs (numBlk d1 bs) _
    (fun i i' d => i = i' ∧ ∀ X Y, d X Y ↔ Done d1 d2 bs (i * bs) 0 0 0 X Y) ?_ 0 _ ?_)
  · rintro i d ⟨-, h⟩ X Y
    rw [h]
    unfold Done
    have : d1 ≤ numBlk d1 bs * bs := by
      by_contra hc
      have := (lt_numBlk (i := numBlk d1 bs) h1 hb).2 (by omega)
      omega
    constructor
    · rintro ⟨a, b, -⟩; exact ⟨a, b⟩
    · rintro ⟨a, b⟩; exact ⟨a, b, Or.inl (by omega)⟩
  · rintro i hi i' d ⟨rfl, hd⟩
    rw [lt_numBlk h1 hb] at hi
    rw [Valid_append]
    refine Valid_mono _ _ _ _ _ _ _ ?_ (Valid_flatMap d2 bs (numBlk d2 bs) _
      (fun j i' d => i = i' ∧ ∀ X Y, d X Y ↔ Done d1 d2 bs (i * bs) (j * bs) 0 0 X Y) ?_ i _ ?_)
    · rintro i' d ⟨rfl, h⟩
      refine ⟨rfl, rfl, rfl, fun X Y => ?_⟩
      rw [h]
      unfold Done
      have : d2 ≤ numBlk d2 bs * bs := by
        by_contra hc
        have := (lt_numBlk (i := numBlk d2 bs) h2 hb).2 (by omega)
        omega
      rw [Nat.add_mul, Nat.one_mul]
      omega
    · rintro j hj i' d ⟨rfl, hd⟩
      rw [lt_numBlk h2 hb] at hj
      unfold blk2
      simp only [Valid, blkSize_eq]
      refine Valid_mono _ _ _ _ _ _ _ ?_ (Valid_flatMap d2 bs (min bs (d1 - i * bs)) _
        (fun x i' d => i = i' ∧ ∀ X Y, d X Y ↔ Done d1 d2 bs (i * bs) (j * bs) x 0 X Y) ?_ i _
        ⟨rfl, hd⟩)
      · rintro i' d ⟨rfl, h⟩
        refine ⟨rfl, fun X Y => ?_⟩
        rw [h, Nat.add_mul, Nat.one_mul]
        unfold Done
        omega
      · rintro x hx i' d ⟨rfl, hd⟩
        refine Valid_mono _ _ _ _ _ _ _ ?_ (Valid_flatMap d2 bs (min bs (d2 - j * bs)) _
          (fun y i' d => i = i' ∧ ∀ X Y, d X Y ↔ Done d1 d2 bs (i * bs) (j * bs) x y X Y) ?_ i _
          ⟨rfl, hd⟩)
        · rintro i' d ⟨rfl, h⟩
          refine ⟨rfl, fun X Y => ?_⟩
          rw [h]
          unfold Done
          omega
        · rintro y hy i' d ⟨rfl, hd⟩
          refine ⟨i * bs + x, j * bs + y, ?_, by omega, by omega, by omega, ?_, ?_, ?_, ?_, ?_,
            rfl, fun X Y => ?_⟩
          · simp only
            ring
          · simp only
            rw [show i * bs + x + 1 - i * bs = x + 1 by omega]
            omega
          · intro h0
            rw [hd]; unfold Done; omega
          · intro h0
            rw [hd]; unfold Done; omega
          · intro h0 h0'
            rw [hd]; unfold Done; omega
          · rw [hd]; unfold Done; omega
          · simp only [hd]; unfold Done; omega
    · exact ⟨rfl, by simpa using hd⟩
  · refine ⟨rfl, fun X Y => ?_⟩
    unfold Done
    simp only [Nat.zero_mul, false_iff]
    omega

/-! ### The buffer -/

theorem idx_inj {n r c r' c' : Nat} (h : r * n + c = r' * n + c') (hc : c < n) (hc' : c' < n) :
    r = r' ∧ c = c' := by
  have hn : 0 < n := by omega
  have e1 : (r * n + c) / n = r := by
    rw [Nat.mul_comm, Nat.mul_add_div hn, Nat.div_eq_of_lt hc, Nat.add_zero]
  have e2 : (r' * n + c') / n = r' := by
    rw [Nat.mul_comm, Nat.mul_add_div hn, Nat.div_eq_of_lt hc', Nat.add_zero]
  have : r = r' := by rw [← e1, ← e2, h]
  subst this
  exact ⟨rfl, by omega⟩

/-- Rows 1 to `bs` of the buffer are the current block row, row 0 the last row of the block
row before, column 0 is zero. -/
structure Inv (zero : T) (d2 bs i : Nat) (done : Nat → Nat → Prop) (buf R : Nat → T) : Prop where
  dom : ∀ X Y, done X Y → X < i * bs + bs ∧ Y < d2
  col : ∀ r ≤ bs, buf (r * (d2 + 1)) = zero
  top : i = 0 → ∀ c ≤ d2, buf c = zero
  val : ∀ X Y, done X Y → i * bs ≤ X + 1 →
    buf ((X + 1 - i * bs) * (d2 + 1) + (Y + 1)) = R (X * d2 + Y)

theorem Inv.lor {B : BOps T F D} {d2 bs i : Nat} {done : Nat → Nat → Prop} {buf R : Nat → T}
    (h : Inv B.zeroT d2 bs i done buf R) (hb : 0 < bs) (X Y : Nat) (hY : Y < d2)
    (hX : i * bs ≤ X) (hX' : X < i * bs + bs)
    (n1 : 0 < Y → done X (Y - 1)) (n2 : 0 < X → done (X - 1) Y)
    (n3 : 0 < X → 0 < Y → done (X - 1) (Y - 1)) :
    lorAt2 B (d2 + 1) buf ((X + 1 - i * bs) * (d2 + 1) + (Y + 1)) = lorGrid2 B d2 R X Y := by
  obtain ⟨r, rfl⟩ : ∃ r, X = i * bs + r := ⟨X - i * bs, by omega⟩
  have hi0 : i * bs + r = 0 → i = 0 ∧ r = 0 := by
    intro h0
    have : i * bs = 0 := by omega
    rcases Nat.mul_eq_zero.1 this with h | h
    · exact ⟨h, by omega⟩
    · omega
  rw [show i * bs + r + 1 - i * bs = r + 1 by omega]
  have e1 : (r + 1) * (d2 + 1) + (Y + 1) - 1 = (r + 1) * (d2 + 1) + Y := by omega
  have e2 : (r + 1) * (d2 + 1) + (Y + 1) - (d2 + 1) = r * (d2 + 1) + (Y + 1) := by
    rw [Nat.add_mul r]; omega
  have e3 : r * (d2 + 1) + (Y + 1) - 1 = r * (d2 + 1) + Y := by omega
  unfold lorAt2 lorGrid2
  rw [e1, e2, e3]
  congr 1
  · by_cases hY0 : Y = 0
    · rw [if_pos hY0, hY0]
      exact h.col (r + 1) (by omega)
    · rw [if_neg hY0]
      have := h.val _ _ (n1 (by omega)) (by omega)
      rw [show i * bs + r + 1 - i * bs = r + 1 by omega, show Y - 1 + 1 = Y by omega] at this
      exact this
  · by_cases hX0 : i * bs + r = 0
    · rw [if_pos hX0]
      obtain ⟨h1, rfl⟩ := hi0 hX0
      have := h.top h1 (Y + 1) (by omega)
      simpa using this
    · rw [if_neg hX0]
      have := h.val _ _ (n2 (by omega)) (by omega)
      rw [show i * bs + r - 1 + 1 - i * bs = r by omega] at this
      exact this
  · by_cases hY0 : Y = 0
    · rw [if_pos (Or.inr hY0), hY0]
      exact h.col r (by omega)
    · by_cases hX0 : i * bs + r = 0
      · rw [if_pos (Or.inl hX0)]
        obtain ⟨h1, rfl⟩ := hi0 hX0
        have := h.top h1 Y (by omega)
        simpa using this
      · rw [if_neg (by omega)]
        have := h.val _ _ (n3 (by omega) (by omega)) (by omega)
        rw [show i * bs + r - 1 + 1 - i * bs = r by omega, show Y - 1 + 1 = Y by omega] at this
        exact this

theorem Inv.step {zero : T} {d2 bs i : Nat} {done : Nat → Nat → Prop} {buf R : Nat → T}
    (h : Inv zero d2 bs i done buf R) (X Y : Nat) (hY : Y < d2)
    (hX : i * bs ≤ X) (hX' : X < i * bs + bs) (v : T) :
    Inv zero d2 bs i (fun X' Y' => done X' Y' ∨ (X' = X ∧ Y' = Y))
      (upd buf ((X + 1 - i * bs) * (d2 + 1) + (Y + 1)) v) (upd R (X * d2 + Y) v) := by
  refine ⟨?_, ?_, ?_, ?_⟩
  · rintro X' Y' (hd | ⟨rfl, rfl⟩)
    · exact h.dom _ _ hd
    · exact ⟨hX', hY⟩
  · intro r hr
    unfold upd
    rw [if_neg]
    · exact h.col r hr
    · intro he
      have := idx_inj (r := r) (c := 0) (n := d2 + 1) he (by omega) (by omega)
      omega
  · intro hi c hc
    unfold upd
    rw [if_neg]
    · exact h.top hi c hc
    · intro he
      have := idx_inj (n := d2 + 1) (r := 0) (c := c) (r' := X + 1 - i * bs) (c' := Y + 1)
        (by rw [Nat.zero_mul, Nat.zero_add]; exact he) (by omega) (by omega)
      omega
  · intro X' Y' hd hge
    by_cases he : X' = X ∧ Y' = Y
    · obtain ⟨rfl, rfl⟩ := he
      simp [upd]
    · have hd' : done X' Y' := by
        rcases hd with hd | hd
        · exact hd
        · exact absurd hd he
      have hdom := h.dom _ _ hd'
      unfold upd
      rw [if_neg, if_neg]
      · exact h.val _ _ hd' hge
      · intro hq
        exact he (idx_inj hq hdom.2 hY)
      · intro hq
        have := idx_inj hq (by omega) (by omega)
        exact he (by omega)

theorem Inv.copy {zero : T} {d2 bs i : Nat} {done : Nat → Nat → Prop} {buf R : Nat → T}
    (h : Inv zero d2 bs i done buf R) (hb : 0 < bs) :
    Inv zero d2 bs (i + 1) done (copyBuf buf (bs * (d2 + 1)) (d2 + 1)) R := by
  have hm : (i + 1) * bs = i * bs + bs := by rw [Nat.add_mul, Nat.one_mul]
  refine ⟨?_, ?_, ?_, ?_⟩
  · intro X Y hd
    have := h.dom X Y hd
    rw [hm]
    omega
  · intro r hr
    unfold copyBuf
    rcases Nat.eq_zero_or_pos r with rfl | hr0
    · rw [if_pos (by omega)]
      simpa using h.col bs (le_refl _)
    · have : 1 * (d2 + 1) ≤ r * (d2 + 1) := Nat.mul_le_mul_right _ hr0
      rw [if_neg (by omega)]
      exact h.col r hr
  · intro h0
    omega
  · intro X Y hd hge
    rw [hm] at hge ⊢
    have hdom := h.dom X Y hd
    have hX : X + 1 = i * bs + bs := by omega
    have := h.val X Y hd (by omega)
    rw [show X + 1 - i * bs = bs by omega] at this
    rw [show X + 1 - (i * bs + bs) = 0 by omega, Nat.zero_mul, Nat.zero_add]
    unfold copyBuf
    rw [if_pos (by omega)]
    exact this

/-! ### Refinement -/

/-- The events with the buffer replaced by the grid itself. -/
def gridEvs : List Ev → List Ev
  | [] => []
  | .pt p :: es => .pt { p with buf := p.pos } :: gridEvs es
  | .copy .. :: es => gridEvs es
  | e :: es => e :: gridEvs es

/-- Configuration that predicts on the grid. -/
def gridCfg (B : BOps T F D) (d2 : Nat) (G : Cfg T F D) : Cfg T F D :=
  { G with lor := fun R q => lorGrid2 B d2 R (q / d2) (q % d2) }

theorem grid_refines (B : BOps T F D) (d2 bs : Nat) (hb : 0 < bs) (G : Cfg T F D)
    (hlor : G.lor = lorAt2 B (d2 + 1)) (hreg : ∀ c p b, G.reg c { p with buf := b } = G.reg c p)
    (hw : G.writeReg = true) (data : Nat → T) (es : List Ev) (i : Nat)
    (done : Nat → Nat → Prop) (post) (hv : Valid d2 bs i done es post) (s : St T F)
    (R : Nat → T) (hI : Inv B.zeroT d2 bs i done s.buf R) :
    runEnc G data es s = runEnc (gridCfg B d2 G) data (gridEvs es) { s with buf := R } := by
  induction es generalizing i done s R with
  | nil => rfl
  | cons e es ih =>
    cases e with
    | start o sx sy sz =>
      simp only [runEnc, gridEvs, encEv, gridCfg]
      cases hs : G.sel o sx sy sz with
      | none =>
        simp only
        rw [ih i done hv { s with mode := none } R hI]
        rfl
      | some c =>
        simp only
        rw [ih i done hv { s with
          mode := some (quantCoefs G.C G.regRadius G.regPrecs s.prev c).2.2
          prev := (quantCoefs G.C G.regRadius G.regPrecs s.prev c).2.2 } R hI]
        rfl
    | copy src len =>
      obtain ⟨rfl, rfl, hv⟩ := hv
      simp only [runEnc, gridEvs, encEv]
      rw [ih (i + 1) done hv _ R (hI.copy hb)]
      simp [Out.app, Out.nil]
    | pt p =>
      obtain ⟨X, Y, hpos, hY, hX, hX', hbuf, n1, n2, n3, -, hv⟩ := hv
      have hpt : encPt G data s p =
          encPt (gridCfg B d2 G) data { s with buf := R } { p with buf := p.pos } := by
        have hl : G.lor s.buf p.buf = (gridCfg B d2 G).lor R p.pos := by
          rw [hlor, hbuf, hI.lor hb X Y hY hX hX' n1 n2 n3, hpos]
          simp only [gridCfg]
          have hd2 : 0 < d2 := by omega
          have : (X * d2 + Y) / d2 = X := by
            rw [Nat.mul_comm, Nat.mul_add_div hd2, Nat.div_eq_of_lt hY, Nat.add_zero]
          have : (X * d2 + Y) % d2 = Y := by
            rw [Nat.mul_comm, Nat.mul_add_mod, Nat.mod_eq_of_lt hY]
          simp [*]
        unfold encPt
        simp only [hl]
        simp only [gridCfg, hreg]
        rfl
      simp only [runEnc, gridEvs, encEv]
      have hst : G.stores s.mode = true := by simp [Cfg.stores, hw]
      have hst' : (gridCfg B d2 G).stores s.mode = true := hst
      rw [← hpt]
      simp only [hst, hst', if_true]
      rw [ih i _ hv _ _ (by
        have := hI.step X Y hY hX hX' (encPt G data s p).2.2
        rw [← hbuf, ← hpos] at this
        exact this)]

/-! ### Codecs without regression: a recursive description of the reconstruction -/

/-- One point of a Lorenzo block from its prediction. -/
def lorStep (G : Cfg T F D) (pred : F) (cur : T) (prec : D) : Int × List T × T :=
  if G.zeroCheck && G.isZero prec then (0, [cur], cur)
  else
    match G.mean with
    | some m =>
      if G.O.lt (G.O.dist cur m) prec then (1, [], m)
      else
        let r := quantize G.O pred cur prec G.capL G.radius
        (r.1, r.2.2, r.2.1)
    | none =>
      let r := quantize G.O pred cur prec G.capL G.radius
      (r.1, r.2.2, r.2.1)

theorem encPt_none (G : Cfg T F D) (data : Nat → T) (s : St T F) (p : Pt) (h : s.mode = none) :
    encPt G data s p = lorStep G (G.lor s.buf p.buf) (data p.pos) (G.prec p.pos) := by
  unfold encPt lorStep
  rw [h]
  rfl

theorem grid_div {d2 X Y : Nat} (hY : Y < d2) :
    (X * d2 + Y) / d2 = X ∧ (X * d2 + Y) % d2 = Y := by
  have hd2 : 0 < d2 := by omega
  constructor
  · rw [Nat.mul_comm, Nat.mul_add_div hd2, Nat.div_eq_of_lt hY, Nat.add_zero]
  · rw [Nat.mul_comm, Nat.mul_add_mod, Nat.mod_eq_of_lt hY]

theorem lorGrid2_congr (B : BOps T F D) (d2 : Nat) (R R' : Nat → T) (X Y : Nat)
    (n1 : 0 < Y → R (X * d2 + (Y - 1)) = R' (X * d2 + (Y - 1)))
    (n2 : 0 < X → R ((X - 1) * d2 + Y) = R' ((X - 1) * d2 + Y))
    (n3 : 0 < X → 0 < Y → R ((X - 1) * d2 + (Y - 1)) = R' ((X - 1) * d2 + (Y - 1))) :
    lorGrid2 B d2 R X Y = lorGrid2 B d2 R' X Y := by
  unfold lorGrid2
  congr 1
  · split
    · rfl
    · exact n1 (by omega)
  · split
    · rfl
    · exact n2 (by omega)
  · split
    · rfl
    · exact n3 (by omega) (by omega)

theorem grid_fix (B : BOps T F D) (d2 bs : Nat) (G : Cfg T F D)
    (hsel : ∀ o sx sy sz, G.sel o sx sy sz = none) (data : Nat → T) (es : List Ev) (i : Nat)
    (done : Nat → Nat → Prop) (post) (hv : Valid d2 bs i done es post) (s : St T F)
    (hm : s.mode = none) (hdom : ∀ X Y, done X Y → Y < d2) :
    (∀ X Y, done X Y → writes s.buf (runEnc (gridCfg B d2 G) data (gridEvs es) s).recon
      (X * d2 + Y) = s.buf (X * d2 + Y)) ∧
    List.Forall₂ (fun (w : Nat × T) t => ∃ un, lorStep G
      (lorGrid2 B d2 (writes s.buf (runEnc (gridCfg B d2 G) data (gridEvs es) s).recon)
        (w.1 / d2) (w.1 % d2)) (data w.1) (G.prec w.1) = (t, un, w.2))
      (runEnc (gridCfg B d2 G) data (gridEvs es) s).recon
      (runEnc (gridCfg B d2 G) data (gridEvs es) s).ty := by
  induction es generalizing i done s with
  | nil => exact ⟨fun _ _ _ => rfl, List.Forall₂.nil⟩
  | cons e es ih =>
    cases e with
    | start o sx sy sz =>
      have := ih i done hv { s with mode := none } rfl hdom
      simp only [gridEvs, runEnc, encEv, gridCfg, hsel, Out.app, Out.nil, List.nil_append]
      exact this
    | copy src len =>
      obtain ⟨-, -, hv⟩ := hv
      exact ih (i + 1) done hv s hm hdom
    | pt p =>
      obtain ⟨X, Y, hpos, hY, hX, hX', hbuf, n1, n2, n3, hnd, hv⟩ := hv
      have hst : (gridCfg B d2 G).stores s.mode = true := by simp [Cfg.stores, hm]
      simp only [gridEvs, runEnc, encEv, Out.app, Out.nil, List.nil_append, List.cons_append,
        hst, if_true]
      generalize hv2 : (encPt (gridCfg B d2 G) data s { p with buf := p.pos }) = r
      obtain ⟨ih1, ih2⟩ := ih i _ hv { s with buf := upd s.buf p.pos r.2.2 } hm (by
        rintro X' Y' (h | ⟨rfl, rfl⟩)
        · exact hdom _ _ h
        · exact hY)
      have hw : ∀ l : List (Nat × T), writes s.buf ((p.pos, r.2.2) :: l) =
          writes (upd s.buf p.pos r.2.2) l := fun _ => rfl
      rw [hw]
      have hag : ∀ X' Y', done X' Y' → writes (upd s.buf p.pos r.2.2)
          (runEnc (gridCfg B d2 G) data (gridEvs es)
            { s with buf := upd s.buf p.pos r.2.2 }).recon (X' * d2 + Y') =
          s.buf (X' * d2 + Y') := by
        intro X' Y' hd
        rw [ih1 X' Y' (Or.inl hd)]
        simp only [upd]
        rw [if_neg]
        intro he
        rw [hpos] at he
        obtain ⟨rfl, rfl⟩ := idx_inj he (hdom _ _ hd) hY
        exact hnd hd
      refine ⟨hag, List.Forall₂.cons ⟨r.2.1, ?_⟩ ih2⟩
      rw [encPt_none _ _ _ _ hm] at hv2
      simp only [gridCfg] at hv2
      simp only [hpos, (grid_div (X := X) hY).1, (grid_div (X := X) hY).2] at hv2 ⊢
      rw [lorGrid2_congr B d2 _ s.buf X Y
        (fun h => by rw [← hpos]; exact hag _ _ (n1 h))
        (fun h => by rw [← hpos]; exact hag _ _ (n2 h))
        (fun h h' => by rw [← hpos]; exact hag _ _ (n3 h h'))]
      exact hv2

/-- The recursive description: every value is what one step makes of the prediction from the
values of the neighbours. -/
def IsRecon (B : BOps T F D) (G : Cfg T F D) (d2 n : Nat) (data R : Nat → T) : Prop :=
  ∀ p < n, R p = (lorStep G (lorGrid2 B d2 R (p / d2) (p % d2)) (data p) (G.prec p)).2.2

theorem isRecon_unique (B : BOps T F D) (G : Cfg T F D) (d2 n : Nat) (h2 : 0 < d2)
    (data R R' : Nat → T) (h : IsRecon B G d2 n data R) (h' : IsRecon B G d2 n data R') :
    ∀ p < n, R p = R' p := by
  intro p
  induction p using Nat.strong_induction_on with
  | _ p ih =>
    intro hp
    rw [h p hp, h' p hp]
    have hdm : p = (p / d2) * d2 + p % d2 := by
      rw [Nat.mul_comm]; exact (Nat.div_add_mod p d2).symm
    have hlt := Nat.mod_lt p h2
    generalize p / d2 = X at *
    generalize p % d2 = Y at *
    have key : ∀ q, q < p → R q = R' q := fun q hq => ih q hq (by omega)
    rw [lorGrid2_congr B d2 R R' X Y (fun h => key _ (by omega)) (fun h => key _ ?_)
      (fun h h' => key _ ?_)]
    · obtain ⟨X, rfl⟩ : ∃ k, X = k + 1 := ⟨X - 1, by omega⟩
      rw [Nat.add_sub_cancel, hdm, Nat.add_mul]
      omega
    · obtain ⟨X, rfl⟩ : ∃ k, X = k + 1 := ⟨X - 1, by omega⟩
      rw [Nat.add_sub_cancel, hdm, Nat.add_mul]
      omega

/-- Codes and reconstruction of a 2D codec without regression. -/
theorem plan_recon (B : BOps T F D) (r1 r2 bs : Nat) (h1 : 0 < r1) (h2 : 0 < r2) (hb : 0 < bs)
    (G : Cfg T F D) (hlor : G.lor = lorAt2 B (r2 + 1)) (hw : G.writeReg = true)
    (hreg : ∀ c p b, G.reg c { p with buf := b } = G.reg c p)
    (hsel : ∀ o sx sy sz, G.sel o sx sy sz = none) (data : Nat → T) (prev : List F)
    (out0 : Nat → T) :
    IsRecon B G r2 (r1 * r2) data
      (writes out0 (runEnc G data (planC2 r1 r2 bs) ⟨fun _ => B.zeroT, none, prev⟩).recon) ∧
    List.Forall₂ (fun (w : Nat × T) t => ∃ un, lorStep G (lorGrid2 B r2
      (writes out0 (runEnc G data (planC2 r1 r2 bs) ⟨fun _ => B.zeroT, none, prev⟩).recon)
        (w.1 / r2) (w.1 % r2)) (data w.1) (G.prec w.1) = (t, un, w.2))
      (runEnc G data (planC2 r1 r2 bs) ⟨fun _ => B.zeroT, none, prev⟩).recon
      (runEnc G data (planC2 r1 r2 bs) ⟨fun _ => B.zeroT, none, prev⟩).ty := by
  have hval := plan_valid r1 r2 bs h1 h2 hb
  have hperm := tiling2 r1 r2 bs h1 h2 hb
  have href := grid_refines B r2 bs hb G hlor hreg hw data (planC2 r1 r2 bs) 0
    (fun _ _ => False) _ hval ⟨fun _ => B.zeroT, none, prev⟩ (fun _ => B.zeroT)
    ⟨fun _ _ h => h.elim, fun _ _ => rfl, fun _ _ _ => rfl, fun _ _ h => h.elim⟩
  simp only at href
  obtain ⟨-, hfix⟩ := grid_fix B r2 bs G hsel data (planC2 r1 r2 bs) 0 (fun _ _ => False) _ hval
    ⟨fun _ => B.zeroT, none, prev⟩ rfl (fun _ _ h => h.elim)
  rw [← href] at hfix
  simp only at hfix
  have hnd : ((runEnc G data (planC2 r1 r2 bs) ⟨fun _ => B.zeroT, none, prev⟩).recon.map
      Prod.fst).Nodup := by
    rw [runEnc_recon_pos]
    exact hperm.nodup_iff.2 List.nodup_range
  have hmem : ∀ p < r1 * r2, ∃ w ∈ (runEnc G data (planC2 r1 r2 bs)
      ⟨fun _ => B.zeroT, none, prev⟩).recon, w.1 = p := by
    intro p hp
    have : p ∈ (runEnc G data (planC2 r1 r2 bs) ⟨fun _ => B.zeroT, none, prev⟩).recon.map
        Prod.fst := by
      rw [runEnc_recon_pos]
      exact hperm.mem_iff.2 (List.mem_range.2 hp)
    obtain ⟨w, hw, e⟩ := List.mem_map.1 this
    exact ⟨w, hw, e⟩
  have hlt : ∀ w ∈ (runEnc G data (planC2 r1 r2 bs)
      ⟨fun _ => B.zeroT, none, prev⟩).recon, w.1 < r1 * r2 := by
    intro w hw
    have : w.1 ∈ (runEnc G data (planC2 r1 r2 bs) ⟨fun _ => B.zeroT, none, prev⟩).recon.map
        Prod.fst := List.mem_map_of_mem hw
    rw [runEnc_recon_pos] at this
    exact List.mem_range.1 (hperm.mem_iff.1 this)
  generalize runEnc G data (planC2 r1 r2 bs) ⟨fun _ => B.zeroT, none, prev⟩ = o at *
  have hsame : ∀ p < r1 * r2, writes (fun _ => B.zeroT) o.recon p = writes out0 o.recon p := by
    intro p hp
    obtain ⟨w, hw, rfl⟩ := hmem p hp
    rw [writes_mem _ _ hnd w hw, writes_mem _ _ hnd w hw]
  have hpred : ∀ p < r1 * r2,
      lorGrid2 B r2 (writes (fun _ => B.zeroT) o.recon) (p / r2) (p % r2) =
      lorGrid2 B r2 (writes out0 o.recon) (p / r2) (p % r2) := by
    intro p hp
    have hdm : p = (p / r2) * r2 + p % r2 := by
      rw [Nat.mul_comm]; exact (Nat.div_add_mod p r2).symm
    have hm := Nat.mod_lt p h2
    generalize p / r2 = X at *
    generalize p % r2 = Y at *
    refine lorGrid2_congr B r2 _ _ X Y (fun h => hsame _ (by omega)) (fun h => hsame _ ?_)
      (fun h h' => hsame _ ?_)
    · obtain ⟨X, rfl⟩ : ∃ k, X = k + 1 := ⟨X - 1, by omega⟩
      rw [Nat.add_mul] at hdm
      rw [Nat.add_sub_cancel]
      omega
    · obtain ⟨X, rfl⟩ : ∃ k, X = k + 1 := ⟨X - 1, by omega⟩
      rw [Nat.add_mul] at hdm
      rw [Nat.add_sub_cancel]
      omega
  have hfix' : List.Forall₂ (fun (w : Nat × T) t => ∃ un, lorStep G (lorGrid2 B r2
      (writes out0 o.recon) (w.1 / r2) (w.1 % r2)) (data w.1) (G.prec w.1) = (t, un, w.2))
      o.recon o.ty := by
    have hall : ∀ w ∈ o.recon, w.1 < r1 * r2 := hlt
    generalize o.recon = rec at hfix hall hpred ⊢
    generalize o.ty = tys at hfix ⊢
    generalize hR : writes (fun _ => B.zeroT) rec = R at hfix hpred
    generalize writes out0 rec = R' at hpred ⊢
    clear hR
    induction hfix with
    | nil => exact List.Forall₂.nil
    | cons h _ ih =>
      refine List.Forall₂.cons ?_ (ih (fun w hw => hall w (by simp [hw])))
      obtain ⟨un, h⟩ := h
      exact ⟨un, by rw [← hpred _ (hall _ (by simp))]; exact h⟩
  refine ⟨fun p hp => ?_, hfix'⟩
  obtain ⟨w, hw, rfl⟩ := hmem p hp
  have h2w : ∀ (l : List (Nat × T)) (t : List Int) (P : Nat × T → Int → Prop),
      List.Forall₂ P l t → ∀ w ∈ l, ∃ c, P w c := by
    intro l t P h
    induction h with
    | nil => intro w hw; cases hw
    | cons h _ ih =>
      intro w hw
      rcases List.mem_cons.1 hw with rfl | hw
      · exact ⟨_, h⟩
      · exact ih w hw
  obtain ⟨c, un, hc⟩ := h2w _ _ _ hfix' w hw
  rw [hc, writes_mem _ _ hnd w hw]

end CpSZ.Block
