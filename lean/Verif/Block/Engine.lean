import Verif.Quant
import Verif.Block.Plan
/-
The block codecs: encoder and decoder run over the events of a traversal (`Plan`).

Sources: the block functions of include/sz_compress_block_processing.hpp and
include/sz_decompress_block_processing.hpp, the block loops of src/sz_compress_3d.cpp and
src/sz_decompress_3d.cpp, `compress_regression_coefficient_2d/3d`
(include/sz_compression_utils.hpp L83-99), `decode_regression_coefficients(_2d)`
(src/sz_decompression_utils.cpp L3-57).
-/

namespace CpSZ.Block

variable {T F D : Type}

/-- Everything that stays fixed during one run of a block codec.

* `lor` is `(float) lorenzo_predict_2d/3d` at a position of the buffer,
* `reg` is `(float) regression_predict_2d/3d` from the coefficients and the position in the
  block (include/sz_prediction.hpp),
* `mean = some m` iff `mean_info.use_mean`,
* `zeroCheck` says that the functions `..._with_eb` are used, which test `precision == 0`,
* `writeReg` says that regression blocks update the buffer (all but the 3D codec with
  independent blocks),
* `sel` is the outcome of `compute_regression_coeffcients_*` and `sz_blockwise_selection_*` for
  a block: `none` for Lorenzo, `some c` for regression with coefficients `c`.  Both only read
  the input data; nothing is assumed about the choice.  (src/sz_compress_3d.cpp L13-36;
include/sz_compress_block_processing.hpp L26-137.) -/
structure Cfg (T F D : Type) where
  O : QOps T F D
  C : QOps F F D
  isZero : D → Bool
  lor : (Nat → T) → Nat → F
  reg : List F → Pt → F
  mean : Option T
  capL : Int
  cap : Int
  radius : Int
  prec : Nat → D
  zeroCheck : Bool
  writeReg : Bool
  sel : Nat → Nat → Nat → Nat → Option (List F)
  regPrecs : List D
  regRadius : Int

/-- What the encoder has produced: indicators, codes and unpredictable values of the
regression coefficients, codes and unpredictable values of the data.  `coefs` and `recon` are
not written to the stream: the coefficients after quantisation and the reconstructed value of
each visited point.  (src/sz_compress_3d.cpp L88-95.) -/
structure Out (T F : Type) where
  ind : List Bool
  rty : List Int
  run : List F
  coefs : List (List F)
  ty : List Int
  un : List T
  recon : List (Nat × T)

/-- Empty arrays (src/sz_compress_3d.cpp L88-95). -/
def Out.nil : Out T F := ⟨[], [], [], [], [], [], []⟩

/-- Appending at the write positions (src/sz_compress_3d.cpp L88-95). -/
def Out.app (a b : Out T F) : Out T F :=
  ⟨a.ind ++ b.ind, a.rty ++ b.rty, a.run ++ b.run, a.coefs ++ b.coefs, a.ty ++ b.ty,
    a.un ++ b.un, a.recon ++ b.recon⟩

/-- Buffer, the coefficients of the current block if it is a regression block, and the
coefficients of the last regression block.  (src/sz_compress_3d.cpp L19-32.) -/
structure St (T F : Type) where
  buf : Nat → T
  mode : Option (List F)
  prev : List F

/-- Assignment to one element (include/sz_compress_block_processing.hpp L26-137). -/
def upd (m : Nat → T) (p : Nat) (v : T) : Nat → T := fun q => if q = p then v else m q

/-- `memcpy(pred_buffer, pred_buffer + src, len)`.  (src/sz_compress_3d.cpp L69-70.) -/
def copyBuf (m : Nat → T) (src len : Nat) : Nat → T :=
  fun q => if q < len then m (src + q) else m q

/-- `compress_regression_coefficient_2d/3d`: codes, unpredictable values and quantised
coefficients (which replace the coefficients).  (include/sz_compression_utils.hpp L83-99.) -/
def quantCoefs (C : QOps F F D) (radius : Int) :
    List D → List F → List F → List Int × List F × List F
  | p :: ps, a :: as, c :: cs =>
    let r := quantize C a c p (2 * radius) radius
    let q := quantCoefs C radius ps as cs
    (r.1 :: q.1, r.2.2 ++ q.2.1, r.2.1 :: q.2.2)
  | _, _, _ => ([], [], [])

/-- One point of a block: code, unpredictable values, value written to the buffer.
Lorenzo: include/sz_compress_block_processing.hpp L89-96, L115-131, L221-228, L252-267;
regression: L37-38, L58-68, L173-177, L195-200. -/
def encPt (G : Cfg T F D) (data : Nat → T) (s : St T F) (p : Pt) : Int × List T × T :=
  let cur := data p.pos
  let prec := G.prec p.pos
  if G.zeroCheck && G.isZero prec then (0, [cur], cur)
  else
    match s.mode with
    | some c =>
      let r := quantize G.O (G.reg c p) cur prec G.cap G.radius
      (r.1, r.2.2, r.2.1)
    | none =>
      match G.mean with
      | some m =>
        if G.O.lt (G.O.dist cur m) prec then (1, [], m)
        else
          let r := quantize G.O (G.lor s.buf p.buf) cur prec G.capL G.radius
          (r.1, r.2.2, r.2.1)
      | none =>
        let r := quantize G.O (G.lor s.buf p.buf) cur prec G.capL G.radius
        (r.1, r.2.2, r.2.1)

/-- Whether the current point is stored in the buffer. -/
def Cfg.stores (G : Cfg T F D) (mode : Option (List F)) : Bool := mode.isNone || G.writeReg

/-- One event of the encoder.  (src/sz_compress_3d.cpp L36-72;
include/sz_compress_block_processing.hpp L26-137.) -/
def encEv (G : Cfg T F D) (data : Nat → T) (s : St T F) : Ev → Out T F × St T F
  | .start o sx sy sz =>
    match G.sel o sx sy sz with
    | none => ({ (Out.nil : Out T F) with ind := [false] }, { s with mode := none })
    | some c =>
      let r := quantCoefs G.C G.regRadius G.regPrecs s.prev c
      ({ (Out.nil : Out T F) with ind := [true], rty := r.1, run := r.2.1, coefs := [r.2.2] },
        { s with mode := some r.2.2, prev := r.2.2 })
  | .pt p =>
    let r := encPt G data s p
    ({ (Out.nil : Out T F) with ty := [r.1], un := r.2.1, recon := [(p.pos, r.2.2)] },
      { s with buf := if G.stores s.mode then upd s.buf p.buf r.2.2 else s.buf })
  | .copy src len => (Out.nil, { s with buf := copyBuf s.buf src len })

/-- All events in order (src/sz_compress_3d.cpp L36-72). -/
def runEnc (G : Cfg T F D) (data : Nat → T) : List Ev → St T F → Out T F
  | [], _ => Out.nil
  | e :: es, s =>
    let r := encEv G data s e
    r.1.app (runEnc G data es r.2)

/-- Decoder: the streams still to be read and the output array.  (src/sz_decompress_3d.cpp L5-43.)
-/
structure DSt (T F : Type) where
  buf : Nat → T
  mode : Option (List F)
  ind : List Bool
  coefs : List (List F)
  ty : List Int
  un : List T
  out : Nat → T

/-- One event of the decoder: include/sz_decompress_block_processing.hpp L4-155,
src/sz_decompress_3d.cpp L23-36, L102-115, L185-197, L229-242.  Reading past the end of a
stream is `none`. -/
def decEv (G : Cfg T F D) (s : DSt T F) : Ev → Option (DSt T F)
  | .start .. =>
    match s.ind with
    | [] => none
    | false :: is => some { s with mode := none, ind := is }
    | true :: is =>
      match s.coefs with
      | [] => none
      | c :: cs => some { s with mode := some c, ind := is, coefs := cs }
  | .pt p =>
    match s.ty with
    | [] => none
    | t :: ts =>
      match (match s.mode with
        | some c => recover G.O (G.reg c p) (G.prec p.pos) t G.radius s.un
        | none => recoverMean G.O G.mean (G.lor s.buf p.buf) (G.prec p.pos) t G.radius s.un) with
      | none => none
      | some (v, un) => some { s with
          ty := ts
          un := un
          out := upd s.out p.pos v
          buf := if G.stores s.mode then upd s.buf p.buf v else s.buf }
  | .copy src len => some { s with buf := copyBuf s.buf src len }

/-- All events in order (src/sz_decompress_3d.cpp L5-43). -/
def runDec (G : Cfg T F D) : List Ev → DSt T F → Option (DSt T F)
  | [], s => some s
  | e :: es, s =>
    match decEv G s e with
    | none => none
    | some s' => runDec G es s'

/-- `reg_params` decoded from codes and unpredictable values
(src/sz_decompression_utils.cpp L18-26, L46-54): one group of coefficients. -/
def decCoefs1 (C : QOps F F D) (radius : Int) :
    List D → List F → List Int → List F → Option (List F × List Int × List F)
  | p :: ps, a :: as, t :: ts, un =>
    match recover C a p t radius un with
    | none => none
    | some (v, un) =>
      match decCoefs1 C radius ps as ts un with
      | none => none
      | some (vs, ts, un) => some (v :: vs, ts, un)
  | [], _, ts, un => some ([], ts, un)
  | _ :: _, [], _, _ => none
  | _ :: _, _ :: _, [], _ => none

/-- All groups; each group is predicted from the one before. 
(src/sz_decompression_utils.cpp L3-57.) -/
def decCoefs (C : QOps F F D) (radius : Int) (ps : List D) :
    Nat → List F → List Int → List F → Option (List (List F))
  | 0, _, _, _ => some []
  | n + 1, prev, ts, un =>
    match decCoefs1 C radius ps prev ts un with
    | none => none
    | some (c, ts, un) =>
      match decCoefs C radius ps n c ts un with
      | none => none
      | some cs => some (c :: cs)

/-- Writes in the order of the list. -/
def writes (m : Nat → T) (l : List (Nat × T)) : Nat → T :=
  l.foldl (fun m w => upd m w.1 w.2) m

/-- The conditions on the arithmetic: codes of accepted values lie strictly between 0 and
`2 * radius`; with a mean in use, code 1 does not occur for Lorenzo blocks; the same for
coefficients.  They only concern the precisions in use. -/
structure Good (G : Cfg T F D) (pos : Nat → Prop) : Prop where
  lor : ∀ p, pos p → (G.zeroCheck && G.isZero (G.prec p)) = false → ∀ diff q,
    linQuant G.O.toDOps diff (G.prec p) G.capL G.radius = some q →
      0 < q ∧ q < 2 * G.radius ∧ (G.mean.isSome → 1 < q)
  reg : ∀ p, pos p → (G.zeroCheck && G.isZero (G.prec p)) = false → ∀ diff q,
    linQuant G.O.toDOps diff (G.prec p) G.cap G.radius = some q → 0 < q ∧ q < 2 * G.radius
  radius : 1 < 2 * G.radius
  coef : (∃ o sx sy sz c, G.sel o sx sy sz = some c) → ∀ p ∈ G.regPrecs, ∀ diff q,
    linQuant G.C.toDOps diff p (2 * G.regRadius) G.regRadius = some q →
      0 < q ∧ q < 2 * G.regRadius
  regRadius : 0 < 2 * G.regRadius
  len : ∀ o sx sy sz c, G.sel o sx sy sz = some c → c.length = G.regPrecs.length

/-! ### One value -/

theorem recover_quantize (O : QOps T F D) (pred : F) (cur : T) (prec : D) (cap radius : Int)
    (rest : List T)
    (hnz : ∀ q, linQuant O.toDOps (O.diff cur pred) prec cap radius = some q → q ≠ 0) :
    recover O pred prec (quantize O pred cur prec cap radius).1 radius
      ((quantize O pred cur prec cap radius).2.2 ++ rest) =
      some ((quantize O pred cur prec cap radius).2.1, rest) := by
  unfold quantize
  cases hq : linQuant O.toDOps (O.diff cur pred) prec cap radius with
  | none => simp [recover]
  | some q =>
    have := hnz q hq
    dsimp only
    split
    · simp [recover, this]
    · simp [recover]

theorem recoverMean_quantize (O : QOps T F D) (mean : Option T) (pred : F) (cur : T) (prec : D)
    (cap radius : Int) (rest : List T)
    (hnz : ∀ q, linQuant O.toDOps (O.diff cur pred) prec cap radius = some q →
      q ≠ 0 ∧ (mean.isSome → q ≠ 1)) :
    recoverMean O mean pred prec (quantize O pred cur prec cap radius).1 radius
      ((quantize O pred cur prec cap radius).2.2 ++ rest) =
      some ((quantize O pred cur prec cap radius).2.1, rest) := by
  unfold quantize
  cases hq : linQuant O.toDOps (O.diff cur pred) prec cap radius with
  | none => simp [recoverMean]
  | some q =>
    obtain ⟨h0, h1⟩ := hnz q hq
    dsimp only
    split
    · cases mean with
      | none => simp [recoverMean, h0]
      | some m => simp [recoverMean, h0, h1 rfl]
    · simp [recoverMean]

theorem quantize_value (O : QOps T F D) (pred : F) (cur : T) (prec : D) (cap radius : Int) :
    ((quantize O pred cur prec cap radius).2.1 = cur ∧
      (quantize O pred cur prec cap radius).1 = 0 ∧
      (quantize O pred cur prec cap radius).2.2 = [cur]) ∨
    (O.le (O.dist (quantize O pred cur prec cap radius).2.1 cur) prec = true ∧
      (∃ diff, linQuant O.toDOps diff prec cap radius =
        some (quantize O pred cur prec cap radius).1) ∧
      (quantize O pred cur prec cap radius).2.2 = []) := by
  unfold quantize
  cases hq : linQuant O.toDOps (O.diff cur pred) prec cap radius with
  | none => simp
  | some q =>
    dsimp only
    split
    · rename_i h
      exact Or.inr ⟨h, ⟨_, hq⟩, rfl⟩
    · exact Or.inl ⟨rfl, rfl, rfl⟩

/-! ### Lockstep -/

theorem encPt_cases (G : Cfg T F D) (data : Nat → T) (s : St T F) (p : Pt) :
    ((G.zeroCheck && G.isZero (G.prec p.pos)) = true ∧
      encPt G data s p = (0, [data p.pos], data p.pos)) ∨
    ((G.zeroCheck && G.isZero (G.prec p.pos)) = false ∧
      ((∃ c, s.mode = some c ∧ encPt G data s p =
          let r := quantize G.O (G.reg c p) (data p.pos) (G.prec p.pos) G.cap G.radius
          (r.1, r.2.2, r.2.1)) ∨
       (s.mode = none ∧ ∃ m, G.mean = some m ∧
          G.O.lt (G.O.dist (data p.pos) m) (G.prec p.pos) = true ∧
          encPt G data s p = (1, [], m)) ∨
       (s.mode = none ∧ encPt G data s p =
          let r := quantize G.O (G.lor s.buf p.buf) (data p.pos) (G.prec p.pos) G.capL G.radius
          (r.1, r.2.2, r.2.1)))) := by
  by_cases hz : (G.zeroCheck && G.isZero (G.prec p.pos)) = true
  · exact Or.inl ⟨hz, if_pos hz⟩
  · refine Or.inr ⟨Bool.eq_false_iff.2 hz, ?_⟩
    have h0 : encPt G data s p = (match s.mode with
      | some c =>
        let r := quantize G.O (G.reg c p) (data p.pos) (G.prec p.pos) G.cap G.radius
        (r.1, r.2.2, r.2.1)
      | none =>
        match G.mean with
        | some m =>
          if G.O.lt (G.O.dist (data p.pos) m) (G.prec p.pos) then (1, [], m)
          else
            let r := quantize G.O (G.lor s.buf p.buf) (data p.pos) (G.prec p.pos) G.capL G.radius
            (r.1, r.2.2, r.2.1)
        | none =>
          let r := quantize G.O (G.lor s.buf p.buf) (data p.pos) (G.prec p.pos) G.capL G.radius
          (r.1, r.2.2, r.2.1)) := if_neg hz
    cases hm : s.mode with
    | some c =>
      rw [hm] at h0
      exact Or.inl ⟨c, rfl, h0⟩
    | none =>
      rw [hm] at h0
      cases hme : G.mean with
      | none =>
        rw [hme] at h0
        exact Or.inr (Or.inr ⟨rfl, h0⟩)
      | some m =>
        rw [hme] at h0
        by_cases hlt : G.O.lt (G.O.dist (data p.pos) m) (G.prec p.pos) = true
        · exact Or.inr (Or.inl ⟨rfl, m, rfl, hlt, h0.trans (if_pos hlt)⟩)
        · exact Or.inr (Or.inr ⟨rfl, h0.trans (if_neg hlt)⟩)

/-- The decoder recovers the value of one point. -/
theorem decPt (G : Cfg T F D) (pos : Nat → Prop) (hG : Good G pos) (data : Nat → T)
    (s : St T F) (p : Pt) (hp : pos p.pos) (rest : List T) :
    (match s.mode with
      | some c => recover G.O (G.reg c p) (G.prec p.pos) (encPt G data s p).1 G.radius
          ((encPt G data s p).2.1 ++ rest)
      | none => recoverMean G.O G.mean (G.lor s.buf p.buf) (G.prec p.pos) (encPt G data s p).1
          G.radius ((encPt G data s p).2.1 ++ rest)) = some ((encPt G data s p).2.2, rest) := by
  rcases encPt_cases G data s p with ⟨_, h⟩ | ⟨hz, ⟨c, hm, h⟩ | ⟨hm, m, hme, hlt, h⟩ | ⟨hm, h⟩⟩
  · rw [h]
    cases s.mode <;> simp [recover, recoverMean]
  · rw [h, hm]
    exact recover_quantize G.O _ _ _ _ _ rest
      (fun q hq => by have := (hG.reg p.pos hp hz _ q hq).1; omega)
  · rw [h, hm]
    simp [recoverMean, hme]
  · rw [h, hm]
    exact recoverMean_quantize G.O G.mean _ _ _ _ _ rest
      (fun q hq => by
        have := hG.lor p.pos hp hz _ q hq
        exact ⟨by omega, fun hs => by have := this.2.2 hs; omega⟩)

/-- The property of a reconstructed value that a user asks for. -/
def Accept (G : Cfg T F D) (data : Nat → T) (p : Nat) (v : T) : Prop :=
  v = data p ∨ ((G.zeroCheck && G.isZero (G.prec p)) = false ∧
    (G.O.le (G.O.dist v (data p)) (G.prec p) = true ∨
      (G.mean = some v ∧ G.O.lt (G.O.dist (data p) v) (G.prec p) = true)))

theorem encPt_accept (G : Cfg T F D) (data : Nat → T) (s : St T F) (p : Pt) :
    Accept G data p.pos (encPt G data s p).2.2 := by
  unfold Accept
  rcases encPt_cases G data s p with ⟨_, h⟩ | ⟨hz, ⟨c, hm, h⟩ | ⟨hm, m, hme, hlt, h⟩ | ⟨hm, h⟩⟩
  · rw [h]; exact Or.inl rfl
  · rw [h]
    rcases quantize_value G.O (G.reg c p) (data p.pos) (G.prec p.pos) G.cap G.radius with h | h
    · exact Or.inl h.1
    · exact Or.inr ⟨hz, Or.inl h.1⟩
  · rw [h]; exact Or.inr ⟨hz, Or.inr ⟨hme, hlt⟩⟩
  · rw [h]
    rcases quantize_value G.O (G.lor s.buf p.buf) (data p.pos) (G.prec p.pos) G.capL G.radius
      with h | h
    · exact Or.inl h.1
    · exact Or.inr ⟨hz, Or.inl h.1⟩

theorem quantize_code (O : QOps T F D) (pred : F) (cur : T) (prec : D) (cap radius : Int)
    (hr : 1 < 2 * radius)
    (h : ∀ diff q, linQuant O.toDOps diff prec cap radius = some q → 0 < q ∧ q < 2 * radius) :
    0 ≤ (quantize O pred cur prec cap radius).1 ∧
    (quantize O pred cur prec cap radius).1 < 2 * radius ∧
    (quantize O pred cur prec cap radius).2.2.length ≤ 1 := by
  rcases quantize_value O pred cur prec cap radius with ⟨_, h1, h2⟩ | ⟨_, ⟨diff, h1⟩, h2⟩
  · rw [h1, h2]; simp; omega
  · have := h diff _ h1
    rw [h2]
    simp only [List.length_nil]
    omega

theorem encPt_code (G : Cfg T F D) (pos : Nat → Prop) (hG : Good G pos) (data : Nat → T)
    (s : St T F) (p : Pt) (hp : pos p.pos) :
    0 ≤ (encPt G data s p).1 ∧ (encPt G data s p).1 < 2 * G.radius ∧
      (encPt G data s p).2.1.length ≤ 1 := by
  have hr := hG.radius
  rcases encPt_cases G data s p with ⟨_, h⟩ | ⟨hz, ⟨c, hm, h⟩ | ⟨hm, m, hme, hlt, h⟩ | ⟨hm, h⟩⟩
  · rw [h]; simp; omega
  · rw [h]
    exact quantize_code G.O _ _ _ _ _ hr (fun d q h => hG.reg p.pos hp hz d q h)
  · rw [h]; simp; omega
  · rw [h]
    exact quantize_code G.O _ _ _ _ _ hr (fun d q h =>
      ⟨(hG.lor p.pos hp hz d q h).1, (hG.lor p.pos hp hz d q h).2.1⟩)

theorem lockstep (G : Cfg T F D) (pos : Nat → Prop) (hG : Good G pos) (data : Nat → T)
    (es : List Ev) (hpos : ∀ p ∈ positions es, pos p) (s : St T F) (ri : List Bool)
    (rc : List (List F)) (rt : List Int) (ru : List T) (out : Nat → T) :
    ∃ d, runDec G es ⟨s.buf, s.mode, (runEnc G data es s).ind ++ ri,
        (runEnc G data es s).coefs ++ rc, (runEnc G data es s).ty ++ rt,
        (runEnc G data es s).un ++ ru, out⟩ = some d ∧
      d.ind = ri ∧ d.coefs = rc ∧ d.ty = rt ∧ d.un = ru ∧
      d.out = writes out (runEnc G data es s).recon := by
  induction es generalizing s out with
  | nil => exact ⟨_, rfl, rfl, rfl, rfl, rfl, rfl⟩
  | cons e es ih =>
    cases e with
    | start o sx sy sz =>
      have hpos' : ∀ p ∈ positions es, pos p := hpos
      cases hs : G.sel o sx sy sz with
      | none =>
        obtain ⟨d, h1, h2⟩ := ih hpos' { s with mode := none } out
        refine ⟨d, ?_, ?_⟩
        · simp only [runDec, runEnc, encEv, hs, Out.app, Out.nil, List.cons_append, List.nil_append,
            decEv]
          exact h1
        · simp only [runEnc, encEv, hs, Out.app, Out.nil, List.nil_append]
          exact h2
      | some c =>
        obtain ⟨d, h1, h2⟩ := ih hpos'
          { s with mode := some (quantCoefs G.C G.regRadius G.regPrecs s.prev c).2.2
                   prev := (quantCoefs G.C G.regRadius G.regPrecs s.prev c).2.2 } out
        refine ⟨d, ?_, ?_⟩
        · simp only [runDec, runEnc, encEv, hs, Out.app, Out.nil, List.cons_append, List.nil_append,
            decEv]
          exact h1
        · simp only [runEnc, encEv, hs, Out.app, Out.nil, List.nil_append]
          exact h2
    | copy src len =>
      obtain ⟨d, h1, h2⟩ := ih hpos { s with buf := copyBuf s.buf src len } out
      refine ⟨d, ?_, ?_⟩
      · simp only [runDec, runEnc, encEv, Out.app, Out.nil, List.nil_append, decEv]
        exact h1
      · simp only [runEnc, encEv, Out.app, Out.nil, List.nil_append]
        exact h2
    | pt p =>
      have hp : pos p.pos := hpos p.pos (by simp [positions])
      have hpos' : ∀ p ∈ positions es, pos p := fun q hq => hpos q (by simp [positions, hq])
      obtain ⟨d, h1, h2⟩ := ih hpos'
        { s with buf := if G.stores s.mode then upd s.buf p.buf (encPt G data s p).2.2 else s.buf }
        (upd out p.pos (encPt G data s p).2.2)
      refine ⟨d, ?_, ?_⟩
      · simp only [runDec, runEnc, encEv, Out.app, Out.nil, List.cons_append, List.nil_append,
          decEv, List.append_assoc]
        rw [decPt G pos hG data s p hp]
        exact h1
      · simp only [runEnc, encEv, Out.app, Out.nil, List.nil_append, List.cons_append]
        exact h2

/-! ### What the encoder produces -/

theorem runEnc_recon_pos (G : Cfg T F D) (data : Nat → T) (es : List Ev) (s : St T F) :
    (runEnc G data es s).recon.map Prod.fst = positions es := by
  induction es generalizing s with
  | nil => rfl
  | cons e es ih =>
    cases e with
    | start o sx sy sz =>
      cases hs : G.sel o sx sy sz <;>
        simp [runEnc, encEv, hs, Out.app, Out.nil, positions, ih]
    | copy src len => simp [runEnc, encEv, Out.app, Out.nil, positions, ih]
    | pt p => simp [runEnc, encEv, Out.app, Out.nil, positions, ih]

theorem runEnc_accept (G : Cfg T F D) (data : Nat → T) (es : List Ev) (s : St T F) :
    ∀ w ∈ (runEnc G data es s).recon, Accept G data w.1 w.2 := by
  induction es generalizing s with
  | nil => simp [runEnc, Out.nil]
  | cons e es ih =>
    cases e with
    | start o sx sy sz =>
      cases hs : G.sel o sx sy sz <;>
        (simp only [runEnc, encEv, hs, Out.app, Out.nil, List.nil_append]; exact ih _)
    | copy src len =>
      simp only [runEnc, encEv, Out.app, Out.nil, List.nil_append]; exact ih _
    | pt p =>
      simp only [runEnc, encEv, Out.app, Out.nil, List.cons_append, List.nil_append,
        List.mem_cons]
      rintro w (rfl | hw)
      · exact encPt_accept G data s p
      · exact ih _ w hw

theorem runEnc_codes (G : Cfg T F D) (pos : Nat → Prop) (hG : Good G pos) (data : Nat → T)
    (es : List Ev) (hpos : ∀ p ∈ positions es, pos p) (s : St T F) :
    (∀ t ∈ (runEnc G data es s).ty, 0 ≤ t ∧ t < 2 * G.radius) ∧
    (runEnc G data es s).ty.length = (positions es).length ∧
    (runEnc G data es s).un.length ≤ (positions es).length ∧
    (runEnc G data es s).ind.length = starts es ∧
    (runEnc G data es s).coefs.length = (runEnc G data es s).ind.count true := by
  induction es generalizing s with
  | nil => simp [runEnc, Out.nil, positions, starts]
  | cons e es ih =>
    cases e with
    | start o sx sy sz =>
      have hpos' : ∀ p ∈ positions es, pos p := hpos
      cases hs : G.sel o sx sy sz with
      | none =>
        obtain ⟨a, b, c, d, e⟩ := ih hpos' { s with mode := none }
        simp only [runEnc, encEv, hs, Out.app, Out.nil, List.nil_append, positions, starts,
          List.cons_append, List.length_cons]
        refine ⟨a, b, c, by rw [d], by rw [e]; simp⟩
      | some c =>
        obtain ⟨a, b, c', d, e⟩ := ih hpos'
          { s with mode := some (quantCoefs G.C G.regRadius G.regPrecs s.prev c).2.2
                   prev := (quantCoefs G.C G.regRadius G.regPrecs s.prev c).2.2 }
        simp only [runEnc, encEv, hs, Out.app, Out.nil, List.nil_append, positions, starts,
          List.cons_append, List.length_cons]
        refine ⟨a, b, c', by rw [d], by rw [e]; simp⟩
    | copy src len =>
      simp only [runEnc, encEv, Out.app, Out.nil, List.nil_append, positions, starts]
      exact ih hpos _
    | pt p =>
      have hp : pos p.pos := hpos p.pos (by simp [positions])
      have hpos' : ∀ p ∈ positions es, pos p := fun q hq => hpos q (by simp [positions, hq])
      obtain ⟨a, b, c, d, e⟩ := ih hpos'
        { s with buf := if G.stores s.mode then upd s.buf p.buf (encPt G data s p).2.2 else s.buf }
      obtain ⟨h1, h2, h3⟩ := encPt_code G pos hG data s p hp
      simp only [runEnc, encEv, Out.app, Out.nil, List.nil_append, positions, starts,
        List.cons_append, List.length_cons, List.length_append, List.mem_cons]
      refine ⟨?_, by omega, by omega, d, e⟩
      rintro t (rfl | ht)
      · exact ⟨h1, h2⟩
      · exact a t ht

/-- The last write to a position decides; with distinct positions every write survives. -/
theorem writes_not_mem (m : Nat → T) (l : List (Nat × T)) (p : Nat)
    (h : p ∉ l.map Prod.fst) : writes m l p = m p := by
  induction l generalizing m with
  | nil => rfl
  | cons w l ih =>
    simp only [List.map_cons, List.mem_cons, not_or] at h
    show writes (upd m w.1 w.2) l p = m p
    rw [ih _ h.2]
    simp [upd, h.1]

theorem writes_mem (m : Nat → T) (l : List (Nat × T)) (hn : (l.map Prod.fst).Nodup)
    (w : Nat × T) (hw : w ∈ l) : writes m l w.1 = w.2 := by
  induction l generalizing m with
  | nil => cases hw
  | cons x l ih =>
    simp only [List.map_cons, List.nodup_cons] at hn
    show writes (upd m x.1 x.2) l w.1 = w.2
    rcases List.mem_cons.1 hw with rfl | hw
    · rw [writes_not_mem _ _ _ hn.1]
      simp [upd]
    · exact ih _ hn.2 hw

/-! ### Regression coefficients -/

theorem quantCoefs_length (C : QOps F F D) (radius : Int) (ps : List D) (as cs : List F)
    (h1 : as.length = ps.length) (h2 : cs.length = ps.length) :
    (quantCoefs C radius ps as cs).1.length = ps.length ∧
    (quantCoefs C radius ps as cs).2.2.length = ps.length := by
  induction ps generalizing as cs with
  | nil =>
    cases as with
    | nil => simp [quantCoefs]
    | cons => simp at h1
  | cons p ps ih =>
    cases as with
    | nil => simp at h1
    | cons a as =>
      cases cs with
      | nil => simp at h2
      | cons c cs =>
        have := ih as cs (by simpa using h1) (by simpa using h2)
        simp only [quantCoefs, List.length_cons, this.1, this.2, and_self]

theorem decCoefs1_quantCoefs (C : QOps F F D) (radius : Int) (ps : List D) (as cs : List F)
    (h1 : as.length = ps.length) (h2 : cs.length = ps.length)
    (hc : ∀ p ∈ ps, ∀ diff q, linQuant C.toDOps diff p (2 * radius) radius = some q → q ≠ 0)
    (rt : List Int) (ru : List F) :
    decCoefs1 C radius ps as ((quantCoefs C radius ps as cs).1 ++ rt)
      ((quantCoefs C radius ps as cs).2.1 ++ ru) =
      some ((quantCoefs C radius ps as cs).2.2, rt, ru) := by
  induction ps generalizing as cs with
  | nil =>
    cases as with
    | nil => simp [quantCoefs, decCoefs1]
    | cons => simp at h1
  | cons p ps ih =>
    cases as with
    | nil => simp at h1
    | cons a as =>
      cases cs with
      | nil => simp at h2
      | cons c cs =>
        have := ih as cs (by simpa using h1) (by simpa using h2)
          (fun p hp => hc p (by simp [hp]))
        simp only [quantCoefs, decCoefs1, List.cons_append, List.append_assoc]
        rw [recover_quantize C a c p _ _ _ (fun q hq => hc p (by simp) _ q hq)]
        simp only [this]

theorem coefs_roundtrip (G : Cfg T F D) (pos : Nat → Prop) (hG : Good G pos) (data : Nat → T)
    (es : List Ev) (s : St T F) (hp : s.prev.length = G.regPrecs.length) :
    decCoefs G.C G.regRadius G.regPrecs (runEnc G data es s).coefs.length s.prev
      (runEnc G data es s).rty (runEnc G data es s).run = some (runEnc G data es s).coefs ∧
    (runEnc G data es s).rty.length =
      G.regPrecs.length * (runEnc G data es s).coefs.length ∧
    (∀ t ∈ (runEnc G data es s).rty, 0 ≤ t ∧ t < 2 * G.regRadius) ∧
    (runEnc G data es s).run.length ≤ (runEnc G data es s).rty.length := by
  induction es generalizing s with
  | nil => simp [runEnc, Out.nil, decCoefs]
  | cons e es ih =>
    cases e with
    | pt p =>
      simp only [runEnc, encEv, Out.app, Out.nil, List.nil_append]
      exact ih _ hp
    | copy src len =>
      simp only [runEnc, encEv, Out.app, Out.nil, List.nil_append]
      exact ih _ hp
    | start o sx sy sz =>
      cases hs : G.sel o sx sy sz with
      | none =>
        simp only [runEnc, encEv, hs, Out.app, Out.nil, List.nil_append]
        exact ih _ hp
      | some c =>
        have hc := hG.len o sx sy sz c hs
        have hl := quantCoefs_length G.C G.regRadius G.regPrecs s.prev c hp hc
        obtain ⟨i1, i2, i3, i4⟩ := ih
          { s with mode := some (quantCoefs G.C G.regRadius G.regPrecs s.prev c).2.2
                   prev := (quantCoefs G.C G.regRadius G.regPrecs s.prev c).2.2 } hl.2
        simp only [runEnc, encEv, hs, Out.app, Out.nil, List.cons_append, List.nil_append,
          List.length_cons, decCoefs, List.length_append]
        rw [decCoefs1_quantCoefs G.C G.regRadius G.regPrecs s.prev c hp hc
          (fun p hp d q h => by
            have := (hG.coef ⟨o, sx, sy, sz, c, hs⟩ p hp d q h).1; omega)]
        have hcodes : ∀ ps as cs, (∀ p ∈ ps, p ∈ G.regPrecs) →
            (∀ t ∈ (quantCoefs G.C G.regRadius ps as cs).1, 0 ≤ t ∧ t < 2 * G.regRadius) ∧
            (quantCoefs G.C G.regRadius ps as cs).2.1.length ≤
              (quantCoefs G.C G.regRadius ps as cs).1.length := by
          intro ps
          induction ps with
          | nil => intro as cs _; simp [quantCoefs]
          | cons p ps ihp =>
            intro as cs hsub
            cases as with
            | nil => simp [quantCoefs]
            | cons a as =>
              cases cs with
              | nil => simp [quantCoefs]
              | cons c cs =>
                obtain ⟨j1, j2⟩ := ihp as cs (fun p hp => hsub p (by simp [hp]))
                have hr := hG.regRadius
                rcases quantize_value G.C a c p (2 * G.regRadius) G.regRadius with
                  ⟨_, h1, h2⟩ | ⟨_, ⟨diff, h1⟩, h2⟩
                · simp only [quantCoefs, h1, h2, List.mem_cons, List.length_append,
                    List.length_cons, List.length_nil]
                  refine ⟨?_, by omega⟩
                  rintro t (rfl | ht)
                  · omega
                  · exact j1 t ht
                · have hc := hG.coef ⟨_, _, _, _, _, hs⟩ p (hsub p (by simp)) diff _ h1
                  simp only [quantCoefs, h2, List.mem_cons, List.length_append,
                    List.length_cons, List.length_nil]
                  refine ⟨?_, by omega⟩
                  rintro t (rfl | ht)
                  · omega
                  · exact j1 t ht
        obtain ⟨k1, k2⟩ := hcodes G.regPrecs s.prev c (fun _ h => h)
        simp only at i1 ⊢
        rw [i1]
        refine ⟨rfl, ?_, ?_, by omega⟩
        · rw [i2, hl.1, Nat.mul_add]; omega
        · intro t ht
          rcases List.mem_append.1 ht with ht | ht
          · exact k1 t ht
          · exact i3 t ht

end CpSZ.Block
