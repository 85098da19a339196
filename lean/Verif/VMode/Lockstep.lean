import Verif.VMode.Model
/-
Lockstep of the compressors with one bound code per vertex, for uninterpreted arithmetic.
-/

namespace CpSZ.VMode

variable {T D : Type}

/-- What is required of a mode and of the plan computed by the compressor. -/
structure Good (M : Mode T D) (plan : State T → Nat → Option (Plan D)) (n : Nat) : Prop where
  /-- the predictor only uses earlier entries -/
  pred_local : ∀ f g p, (∀ q, q < p → f q = g q) → M.pred f p = M.pred g p
  /-- compressor and decompressor transform alike -/
  fwd_eq : ∀ x, M.fwd x = M.fwdDec x
  esc_lossless : ∀ s p id, plan s p = some (.lossless id) → M.isEsc id = true
  esc_try : ∀ s p a id, plan s p = some (.try a id) → M.isEsc id = true
  /-- codes of bounds are not taken for escapes -/
  coded : ∀ s p a id, p < n → plan s p = some (.try a id) →
    0 < (ebQuant M.O.toDOps M.base M.logBase M.thr a).2 →
    M.isEsc (ebQuant M.O.toDOps M.base M.logBase M.thr a).2 = false

theorem takeN_append {α : Type} (a b : List α) : takeN a.length (a ++ b) = some (a, b) := by
  induction a with
  | nil => rfl
  | cons x a ih => simp [takeN, ih]

theorem takeN_append' {α : Type} {k : Nat} {a b : List α} (h : a.length = k) :
    takeN k (a ++ b) = some (a, b) := by subst h; exact takeN_append a b

theorem setCol_ne {f : Arr T} {p : Nat} {xs : List T} {c q : Nat} (h : q ≠ p) :
    setCol f p xs c q = f c q := by simp [setCol, h]

theorem setCol_same {f : Arr T} {p : Nat} {xs : List T} {c : Nat} (h : c < xs.length) :
    setCol f p xs c p = xs[c] := by simp [setCol, h]

theorem setCol_congr {f g : Arr T} {p : Nat} {xs : List T} {c q : Nat} (hc : c < xs.length)
    (h : q ≠ p → f c q = g c q) : setCol f p xs c q = setCol g p xs c q := by
  by_cases hq : q = p
  · subst hq; rw [setCol_same hc, setCol_same hc]
  · rw [setCol_ne hq, setCol_ne hq, h hq]

theorem col_length (K : Nat) (f : Arr T) (p : Nat) : (col K f p).length = K := by simp [col]

theorem col_get (K : Nat) (f : Arr T) (p c : Nat) (h : c < (col K f p).length) :
    (col K f p)[c] = f c p := by simp [col]

theorem encComps_spec (M : Mode T D) (cod : Arr T) (p : Nat) (eb : D) (cs : List Nat)
    (rs : List (Int × T)) (h : encComps M cod p eb cs = some rs) :
    rs.length = cs.length ∧ ∀ i (h1 : i < cs.length) (h2 : i < rs.length),
      encComp M (cod cs[i]) p eb = some rs[i] := by
  induction cs generalizing rs with
  | nil =>
    simp only [encComps, Option.some.injEq] at h
    subst h
    exact ⟨rfl, fun i h1 => by simp at h1⟩
  | cons c cs ih =>
    simp only [encComps] at h
    split at h
    · cases h
    · rename_i r hr
      split at h
      · cases h
      · rename_i rs' hrs
        simp only [Option.some.injEq] at h
        subst h
        obtain ⟨l1, l2⟩ := ih rs' hrs
        refine ⟨by simp [l1], fun i h1 h2 => ?_⟩
        cases i with
        | zero => simpa using hr
        | succ i =>
          simp only [List.getElem_cons_succ]
          exact l2 i (by simpa using h1) (by simpa using h2)

/-- One vertex that was coded. -/
structure Coded (M : Mode T D) (plan : State T → Nat → Option (Plan D)) (s s' : State T)
    (p : Nat) (e : Int) (qs : List Int) : Prop where
  ex : ∃ a id rs, plan s p = some (.try a id) ∧
    e = (ebQuant M.O.toDOps M.base M.logBase M.thr a).2 ∧ 0 < e ∧
    encComps M s.cod p (ebQuant M.O.toDOps M.base M.logBase M.thr a).1 (List.range M.K) = some rs ∧
    qs = rs.map (·.1) ∧ s'.cod = setCol s.cod p (rs.map (·.2)) ∧
    s'.val = setCol s.val p (List.zipWith M.back (col M.K s.val p) (rs.map (·.2)))

theorem encVertex_cases (M : Mode T D) (plan : State T → Nat → Option (Plan D)) (s s' : State T)
    (p : Nat) (w : VCode T) (h : encVertex M plan s p = some (s', w)) :
    (∃ id, s' = s ∧ w = .esc id (col M.K s.val p) ∧
      (plan s p = some (.lossless id) ∨ ∃ a, plan s p = some (.try a id))) ∨
    ∃ e qs, w = .coded e qs ∧ Coded M plan s s' p e qs := by
  unfold encVertex at h
  split at h
  · cases h
  · rename_i id hp
    simp only [Option.some.injEq, Prod.mk.injEq] at h
    obtain ⟨rfl, rfl⟩ := h
    exact Or.inl ⟨id, rfl, rfl, Or.inl hp⟩
  · rename_i a id hp
    generalize hr : ebQuant M.O.toDOps M.base M.logBase M.thr a = r at h
    obtain ⟨eb, e⟩ := r
    simp only at h
    split at h
    · rename_i he
      split at h
      · simp only [Option.some.injEq, Prod.mk.injEq] at h
        obtain ⟨rfl, rfl⟩ := h
        exact Or.inl ⟨id, rfl, rfl, Or.inr ⟨a, hp⟩⟩
      · rename_i rs hrs
        simp only [Option.some.injEq, Prod.mk.injEq] at h
        obtain ⟨rfl, rfl⟩ := h
        exact Or.inr ⟨e, _, rfl, ⟨a, id, rs, hp, by rw [hr], he, by rw [hr]; exact hrs, rfl, rfl, rfl⟩⟩
    · simp only [Option.some.injEq, Prod.mk.injEq] at h
      obtain ⟨rfl, rfl⟩ := h
      exact Or.inl ⟨id, rfl, rfl, Or.inr ⟨a, hp⟩⟩

theorem step_ne (M : Mode T D) (plan : State T → Nat → Option (Plan D)) (s s' : State T)
    (p : Nat) (w : VCode T) (h : encVertex M plan s p = some (s', w)) (c q : Nat) (hq : q ≠ p) :
    s'.cod c q = s.cod c q ∧ s'.val c q = s.val c q := by
  rcases encVertex_cases M plan s s' p w h with ⟨id, rfl, -, -⟩ | ⟨e, qs, -, ⟨a, id, rs, -, -, -, -, -, h1, h2⟩⟩
  · exact ⟨rfl, rfl⟩
  · rw [h1, h2]; exact ⟨setCol_ne hq, setCol_ne hq⟩

/-- The run of the compressor as a sequence of states. -/
structure Run (M : Mode T D) (plan : State T → Nat → Option (Plan D)) (n : Nat) (data : Arr T)
    (st : Nat → State T) (ws : List (VCode T)) : Prop where
  start : st 0 = initState M data
  len : ws.length = n
  step : ∀ q w, ws[q]? = some w → encVertex M plan (st q) q = some (st (q + 1), w)

theorem compress_run (M : Mode T D) (plan : State T → Nat → Option (Plan D)) (n : Nat)
    (data : Arr T) (s' : State T) (str : Streams T)
    (h : compress M plan n data = some (s', str)) :
    ∃ st ws, Run M plan n data st ws ∧ st n = s' ∧
      str = ⟨ws.flatMap VCode.eb, ws.flatMap (VCode.dq M), ws.flatMap VCode.un⟩ := by
  unfold compress at h
  split at h
  · cases h
  · rename_i s ws hs
    simp only [Option.some.injEq, Prod.mk.injEq] at h
    obtain ⟨rfl, rfl⟩ := h
    obtain ⟨st, e1, e2, e3⟩ := scanEnc_trace _ _ _ _ _ _ hs
    refine ⟨st, ws, ⟨e1, scanEnc_length _ _ _ _ _ _ hs, fun q w hw => ?_⟩, ?_, rfl⟩
    · have hq : q < ws.length := by
        by_contra hc
        rw [List.getElem?_eq_none (by omega)] at hw
        cases hw
      rw [scanEnc_length _ _ _ _ _ _ hs] at hq
      obtain ⟨w', g1, g2⟩ := e3 q (by omega) (by omega)
      simp only [Nat.sub_zero] at g1
      rw [hw] at g1
      cases g1
      exact g2
    · rw [← e2]; congr 1; omega

section run
variable {M : Mode T D} {plan : State T → Nat → Option (Plan D)} {n : Nat} {data : Arr T}
  {st : Nat → State T} {ws : List (VCode T)}

theorem Run.get (R : Run M plan n data st ws) {q : Nat} (hq : q < n) : ∃ w, ws[q]? = some w := by
  have := R.len
  exact ⟨ws[q], by simp⟩

/-- Entries not yet visited are untouched. -/
theorem Run.later (R : Run M plan n data st ws) (q : Nat) (hq : q ≤ n) (c j : Nat) (hj : q ≤ j) :
    (st q).cod c j = M.fwd (data c j) ∧ (st q).val c j = data c j := by
  induction q with
  | zero => rw [R.start]; exact ⟨rfl, rfl⟩
  | succ q ih =>
    obtain ⟨w, hw⟩ := R.get (q := q) (by omega)
    have h1 := step_ne M plan _ _ _ _ (R.step q w hw) c j (by omega)
    have h2 := ih (by omega) (by omega)
    rw [h1.1, h1.2]; exact h2

/-- Visited entries keep their value. -/
theorem Run.keep (R : Run M plan n data st ws) (q k : Nat) (hq : q + k ≤ n) (c j : Nat)
    (hj : j < q) :
    (st (q + k)).cod c j = (st q).cod c j ∧ (st (q + k)).val c j = (st q).val c j := by
  induction k with
  | zero => exact ⟨rfl, rfl⟩
  | succ k ih =>
    obtain ⟨w, hw⟩ := R.get (q := q + k) (by omega)
    have h1 := step_ne M plan _ _ _ _ (R.step (q + k) w hw) c j (by omega)
    have h2 := ih (by omega)
    rw [show q + (k + 1) = q + k + 1 by omega, h1.1, h1.2]; exact h2

theorem Run.final (R : Run M plan n data st ws) (q : Nat) (hq : q ≤ n) (c j : Nat) (hj : j < q) :
    (st n).cod c j = (st q).cod c j ∧ (st n).val c j = (st q).val c j := by
  have := R.keep q (n - q) (by omega) c j hj
  rwa [show q + (n - q) = n by omega] at this

def VCode.isEscCode : VCode T → Bool
  | .esc _ _ => true
  | .coded _ _ => false

/-- Final values of a coded vertex. -/
theorem Run.coded_final (R : Run M plan n data st ws) {q c : Nat} {w : VCode T}
    (hw : ws[q]? = some w) (he : w.isEscCode = false) (hc : c < M.K) (hq : q < n) :
    (st n).val c q = M.back (data c q) ((st n).cod c q) := by
  have hs := R.step q w hw
  have hf := R.final (q + 1) (by omega) c q (by omega)
  have hl := R.later q (by omega) c q (by omega)
  rw [hf.1, hf.2]
  rcases encVertex_cases M plan _ _ _ _ hs with ⟨id, -, rfl, -⟩ | ⟨e, qs, rfl, ⟨a, id, rs, -, -, -, h0, -, h1, h2⟩⟩
  · cases he
  · obtain ⟨l1, -⟩ := encComps_spec M _ _ _ _ _ h0
    rw [List.length_range] at l1
    rw [h1, h2, setCol_same (by simp [l1, col_length, hc]), setCol_same (by simpa [l1] using hc)]
    rw [List.getElem_zipWith, col_get, hl.2]

theorem Run.esc_final (R : Run M plan n data st ws) {q : Nat} {id : Int} {xs : List T}
    (hw : ws[q]? = some (.esc id xs)) (hq : q < n) :
    xs = col M.K data q ∧ ∀ c, (st n).cod c q = M.fwd (data c q) ∧ (st n).val c q = data c q := by
  have hs := R.step q _ hw
  rcases encVertex_cases M plan _ _ _ _ hs with ⟨id', h1, h2, -⟩ | ⟨e, qs, h1, -⟩
  · simp only [VCode.esc.injEq] at h2
    refine ⟨?_, fun c => ?_⟩
    · rw [h2.2]
      unfold col
      apply List.map_congr_left
      intro c _
      exact (R.later q (by omega) c q (by omega)).2
    · have hf := R.final (q + 1) (by omega) c q (by omega)
      rw [hf.1, hf.2, h1]
      exact R.later q (by omega) c q (by omega)
  · cases h1

end run

/-- Prepend the codes of a vertex. -/
def prepend (M : Mode T D) (w : VCode T) (s : Streams T) : Streams T :=
  ⟨w.eb ++ s.eb, w.dq M ++ s.dq, w.un ++ s.un⟩

theorem foldr_prepend (M : Mode T D) (ws : List (VCode T)) (s : Streams T) :
    ws.foldr (prepend M) s = ⟨ws.flatMap VCode.eb ++ s.eb, ws.flatMap (VCode.dq M) ++ s.dq,
      ws.flatMap VCode.un ++ s.un⟩ := by
  induction ws with
  | nil => rfl
  | cons w ws ih => simp [ih, prepend]

/-- State of the decoder's first pass after `p` vertices. -/
def Rel1 (M : Mode T D) (st : Nat → State T) (ws : List (VCode T)) (p : Nat) (d : DState T) :
    Prop :=
  (∀ c q, c < M.K → q < p → d.cod c q = (st p).cod c q) ∧
  ∀ q, d.marks q = if q < p then (match ws[q]? with
    | some w => w.isEscCode
    | none => false) else false

theorem step1 {M : Mode T D} {plan : State T → Nat → Option (Plan D)} {n : Nat} {data : Arr T}
    {st : Nat → State T} {ws : List (VCode T)} (G : Good M plan n) (R : Run M plan n data st ws)
    (q : Nat) (w : VCode T) (d : DState T) (rest : Streams T) (hw : ws[q]? = some w)
    (hd : Rel1 M st ws q d) :
    ∃ d', decVertex M d q (prepend M w rest) = some (d', rest) ∧ Rel1 M st ws (q + 1) d' := by
  have hq : q < n := by
    rw [← R.len]
    by_contra hc
    rw [List.getElem?_eq_none (by omega)] at hw
    cases hw
  have hs := R.step q w hw
  rcases encVertex_cases M plan _ _ _ _ hs with ⟨id, h1, rfl, h2⟩ | ⟨e, qs, rfl, ⟨a, id, rs, h0, he, hpos, hr, hqs, h1, h2⟩⟩
  · have hesc : M.isEsc id = true := by
      rcases h2 with h2 | ⟨a, h2⟩
      · exact G.esc_lossless _ _ _ h2
      · exact G.esc_try _ _ _ _ h2
    refine ⟨⟨setCol d.cod q ((col M.K (st q).val q).map M.fwdDec),
      fun j => if j = q then true else d.marks j⟩, ?_, ?_, ?_⟩
    · unfold decVertex
      simp only [prepend, VCode.eb, List.cons_append, List.nil_append, hesc, if_true, VCode.un]
      rw [takeN_append' (col_length _ _ _)]
      cases hpad : M.pad with
      | false => simp [VCode.dq, hpad]
      | true =>
        simp only [VCode.dq, hpad, if_true]
        rw [takeN_append' (by simp)]
    · intro c j hc hj
      rw [h1]
      simp only
      by_cases hjq : j = q
      · subst hjq
        have hl := R.later j (by omega) c j (by omega)
        rw [setCol_same (by simpa [col_length] using hc), hl.1, List.getElem_map, col_get, hl.2,
          G.fwd_eq]
      · rw [setCol_ne hjq]
        exact hd.1 c j hc (by omega)
    · intro j
      by_cases hjq : j = q
      · subst hjq
        simp [hw, VCode.isEscCode]
      · simp only [hjq, if_false]
        rw [hd.2 j]
        by_cases hlt : j < q
        · rw [if_pos hlt, if_pos (by omega)]
        · rw [if_neg hlt, if_neg (by omega)]
  · obtain ⟨l1, l2⟩ := encComps_spec M _ _ _ _ _ hr
    rw [List.length_range] at l1
    have hne : M.isEsc e = false := by rw [he]; exact G.coded _ _ _ _ hq h0 (by rw [← he]; exact hpos)
    have hxs : (List.range M.K).map (fun c =>
          M.O.ofD (M.O.add (M.O.toD (M.pred (d.cod c) q))
            (linOffset M.O.toDOps (M.O.mul (M.O.pow M.base e) M.thr) M.radius (qs.getD c 0)))) =
        rs.map (·.2) := by
      apply List.ext_getElem
      · simp [l1]
      · intro i hi1 hi2
        simp only [List.length_map, List.length_range] at hi1 hi2
        have hcmp := l2 i (by simpa using hi1) hi2
        simp only [List.getElem_range] at hcmp
        have hpred : M.pred (d.cod i) q = M.pred ((st q).cod i) q :=
          G.pred_local _ _ _ (fun j hj => hd.1 i j hi1 hj)
        have hebq : (ebQuant M.O.toDOps M.base M.logBase M.thr a).1 =
            M.O.mul (M.O.pow M.base e) M.thr := by
          rw [he]
          rw [he] at hpos
          unfold ebQuant at hpos ⊢
          split
          · rename_i hc; simp [hc] at hpos
          · rfl
        simp only [List.getElem_map, List.getElem_range]
        unfold encComp at hcmp
        simp only at hcmp
        split at hcmp
        · cases hcmp
        · split at hcmp
          · cases hcmp
          · simp only [Option.some.injEq] at hcmp
            rw [← hcmp]
            simp only [hqs, hpred, hebq]
            congr 3
            simp [hi2, ← hcmp]
    refine ⟨⟨setCol d.cod q (rs.map (·.2)), d.marks⟩, ?_, ?_, ?_⟩
    · unfold decVertex
      simp only [prepend, VCode.eb, VCode.dq, VCode.un, List.cons_append, List.nil_append, hne,
        Bool.false_eq_true, if_false]
      rw [takeN_append' (by rw [hqs]; simp [l1])]
      simp only [hxs]
    · intro c j hc hj
      rw [h1]
      exact setCol_congr (by simpa [l1] using hc) (fun hne => hd.1 c j hc (by omega))
    · intro j
      rw [hd.2 j]
      by_cases hjq : j = q
      · subst hjq
        simp [hw, VCode.isEscCode]
      · by_cases hlt : j < q
        · rw [if_pos hlt, if_pos (by omega)]
        · rw [if_neg hlt, if_neg (by omega)]

/-- First pass of the decompressor. -/
theorem decompress1_run {M : Mode T D} {plan : State T → Nat → Option (Plan D)} {n : Nat}
    {data : Arr T} {st : Nat → State T} {ws : List (VCode T)} (G : Good M plan n)
    (R : Run M plan n data st ws) (m0 : Arr T) :
    ∃ d, decompress1 M n m0 ⟨ws.flatMap VCode.eb, ws.flatMap (VCode.dq M),
      ws.flatMap VCode.un⟩ = some d ∧ Rel1 M st ws n d := by
  obtain ⟨d, hd, hR⟩ := scanDec_list (decVertex M) (prepend M) (Rel1 M st ws) ws 0
    (fun i w d rest hw hr => by
      rw [Nat.zero_add] at hr ⊢
      exact step1 G R i w d rest hw hr)
    ⟨m0, fun _ => false⟩ ⟨[], [], []⟩ ⟨fun c q _ h => by omega, fun q => by simp⟩
  rw [foldr_prepend] at hd
  simp only [List.append_nil, R.len, Nat.zero_add] at hd hR
  exact ⟨d, by simp only [decompress1, hd, Option.map_some], hR⟩

theorem foldr_un (ws : List (VCode T)) (r : List T) :
    ws.foldr (fun w r => w.un ++ r) r = ws.flatMap VCode.un ++ r := by
  induction ws with
  | nil => rfl
  | cons w ws ih => simp [ih]

def VCode.id : VCode T → Int
  | .esc id _ => id
  | .coded id _ => id

theorem eb_get (ws : List (VCode T)) (q : Nat) :
    (ws.flatMap VCode.eb)[q]? = ws[q]?.map VCode.id := by
  have : ws.flatMap VCode.eb = ws.map VCode.id := by
    induction ws with
    | nil => rfl
    | cons w ws ih => cases w <;> simp [VCode.eb, VCode.id, ih]
  rw [this, List.getElem?_map]

/-- Lockstep.  `fin` only has to invert the transformation at coded vertices. -/
theorem lockstep (M : Mode T D) (plan : State T → Nat → Option (Plan D)) (n : Nat)
    (G : Good M plan n) (fin : Nat → Nat → T → T) (data m0 : Arr T) (s' : State T) (str : Streams T)
    (h : compress M plan n data = some (s', str))
    (hfin : ∀ c q e, c < M.K → q < n → str.eb[q]? = some e → M.isEsc e = false →
      fin c q (s'.cod c q) = M.back (data c q) (s'.cod c q)) :
    ∃ d, decompress M fin n m0 str = some d ∧ ∀ c q, c < M.K → q < n → d c q = s'.val c q := by
  obtain ⟨st, ws, R, rfl, rfl⟩ := compress_run M plan n data s' str h
  obtain ⟨d1, hd1, hc, hm⟩ := decompress1_run G R m0
  have hmark : ∀ q w, ws[q]? = some w → d1.marks q = w.isEscCode := by
    intro q w hw
    have hq : q < n := by
      rw [← R.len]
      by_contra hc
      rw [List.getElem?_eq_none (by omega)] at hw
      cases hw
    rw [hm q, if_pos hq, hw]
  obtain ⟨d2, hd2, h2, -⟩ := scanDec_list (finVertex M.K fin d1.marks)
    (fun (w : VCode T) r => w.un ++ r)
    (fun p f => (∀ c q, c < M.K → q < p → f c q = (st n).val c q) ∧
      ∀ c q, c < M.K → p ≤ q → q < n → f c q = (st n).cod c q) ws 0
    (fun q w f rest hw hf => by
      rw [Nat.zero_add] at hf ⊢
      have hq : q < n := by
        rw [← R.len]
        by_contra hc
        rw [List.getElem?_eq_none (by omega)] at hw
        cases hw
      obtain ⟨hf1, hf2⟩ := hf
      cases w with
      | esc id xs =>
        obtain ⟨e1, e2⟩ := R.esc_final hw hq
        refine ⟨setCol f q xs, ?_, ?_, ?_⟩
        · unfold finVertex
          rw [hmark q _ hw]
          simp only [VCode.isEscCode, if_true, VCode.un]
          rw [takeN_append' (by rw [e1, col_length])]
        · intro c j hcK hj
          by_cases hjq : j = q
          · subst hjq
            rw [setCol_same (by rw [e1, col_length]; exact hcK), (e2 c).2]
            simp only [e1, col_get]
          · rw [setCol_ne hjq]; exact hf1 c j hcK (by omega)
        · intro c j hcK hj hjn
          rw [setCol_ne (by omega)]; exact hf2 c j hcK (by omega) hjn
      | coded e qs =>
        refine ⟨setCol f q ((List.range M.K).map fun c => fin c q (f c q)), ?_, ?_, ?_⟩
        · unfold finVertex
          rw [hmark q _ hw]
          simp [VCode.isEscCode, VCode.un]
        · intro c j hcK hj
          by_cases hjq : j = q
          · subst hjq
            have hv := R.coded_final hw rfl hcK hq
            rw [setCol_same (by simpa using hcK), hv]
            simp only [List.getElem_map, List.getElem_range]
            rw [hf2 c j hcK (by omega) hq]
            have hs := R.step j _ hw
            rcases encVertex_cases M plan _ _ _ _ hs with ⟨id, -, h2, -⟩ |
              ⟨e', qs', h2, ⟨a, id, rs, h0, he, hpos, -, -, -, -⟩⟩
            · cases h2
            · simp only [VCode.coded.injEq] at h2
              refine hfin c j e hcK hq (by simp [eb_get, hw, VCode.id]) ?_
              rw [h2.1, he]
              exact G.coded _ _ _ _ hq h0 (by rw [← he]; exact hpos)
          · rw [setCol_ne hjq]; exact hf1 c j hcK (by omega)
        · intro c j hcK hj hjn
          rw [setCol_ne (by omega)]; exact hf2 c j hcK (by omega) hjn)
    d1.cod [] ⟨fun c q _ h => by omega, fun c q hcK _ hq => hc c q hcK hq⟩
  rw [foldr_un] at hd2
  simp only [List.append_nil, R.len] at hd2
  refine ⟨d2, by simp only [decompress, hd1, hd2, Option.map_some], fun c q hcK hq => ?_⟩
  exact h2 c q hcK (by rw [R.len]; omega)

/-- Without transformation the first pass already returns the reconstruction. -/
theorem lockstep1 (M : Mode T D) (plan : State T → Nat → Option (Plan D)) (n : Nat)
    (G : Good M plan n) (data m0 : Arr T) (s' : State T) (str : Streams T)
    (h : compress M plan n data = some (s', str)) :
    ∃ d, decompress1 M n m0 str = some d ∧
      ∀ c q, c < M.K → q < n → d.cod c q = s'.cod c q := by
  obtain ⟨st, ws, R, rfl, rfl⟩ := compress_run M plan n data s' str h
  obtain ⟨d1, hd1, hc, -⟩ := decompress1_run G R m0
  exact ⟨d1, hd1, hc⟩

/-- Induction principle for the compressor's reconstruction. -/
theorem compress_inv (M : Mode T D) (plan : State T → Nat → Option (Plan D)) (n : Nat)
    (data : Arr T) (s' : State T) (str : Streams T)
    (h : compress M plan n data = some (s', str))
    (I : Nat → State T → Prop) (h0 : I 0 (initState M data))
    (hskip : ∀ p s, p < n → I p s → I (p + 1) s)
    (hstep : ∀ p s s' e qs, p < n → I p s → Coded M plan s s' p e qs →
      (∀ c q, p ≤ q → s.cod c q = M.fwd (data c q) ∧ s.val c q = data c q) → I (p + 1) s') :
    I n s' := by
  obtain ⟨st, ws, R, rfl, -⟩ := compress_run M plan n data s' str h
  have : ∀ p, p ≤ n → I p (st p) := by
    intro p hp
    induction p with
    | zero => rw [R.start]; exact h0
    | succ p ih =>
      obtain ⟨w, hw⟩ := R.get (q := p) (by omega)
      have hI := ih (by omega)
      rcases encVertex_cases M plan _ _ _ _ (R.step p w hw) with ⟨id, h1, -, -⟩ | ⟨e, qs, -, hc⟩
      · rw [h1]; exact hskip p _ (by omega) hI
      · exact hstep p _ _ e qs (by omega) hI hc (fun c q hq => R.later p (by omega) c q hq)
  exact this n (le_refl n)

/-- Lengths of the streams. -/
theorem compress_lengths (M : Mode T D) (plan : State T → Nat → Option (Plan D)) (n : Nat)
    (data : Arr T) (s' : State T) (str : Streams T)
    (h : compress M plan n data = some (s', str)) :
    str.eb.length = n ∧ (M.pad = true → str.dq.length = M.K * n) ∧
      str.dq.length ≤ M.K * n ∧ str.un.length ≤ M.K * n := by
  obtain ⟨st, ws, R, -, rfl⟩ := compress_run M plan n data s' str h
  have hw : ∀ w ∈ ws, w.eb.length = 1 ∧ (M.pad = true → (w.dq M).length = M.K) ∧
      (w.dq M).length ≤ M.K ∧ w.un.length ≤ M.K := by
    intro w hw
    obtain ⟨q, hq, rfl⟩ := List.getElem_of_mem hw
    rcases encVertex_cases M plan _ _ _ _ (R.step q _ (List.getElem?_eq_getElem hq)) with
      ⟨id, -, h2, -⟩ | ⟨e, qs, h2, ⟨a, id, rs, -, -, -, hr, rfl, -, -⟩⟩
    · rw [h2]
      refine ⟨rfl, fun hp => by simp [VCode.dq, hp], ?_, by simp [VCode.un, col]⟩
      cases hp : M.pad <;> simp [VCode.dq, hp]
    · obtain ⟨l1, -⟩ := encComps_spec M _ _ _ _ _ hr
      rw [List.length_range] at l1
      rw [h2]
      exact ⟨rfl, fun _ => by simp [VCode.dq, l1], by simp [VCode.dq, l1], by simp [VCode.un]⟩
  rw [← R.len]
  clear R h
  induction ws with
  | nil => simp
  | cons w ws ih =>
    obtain ⟨a1, a2, a3, a4⟩ := ih (fun w' hw' => hw w' (List.mem_cons_of_mem _ hw'))
    obtain ⟨b1, b2, b3, b4⟩ := hw w (List.mem_cons_self ..)
    simp only [List.flatMap_cons, List.length_append, List.length_cons, Nat.mul_add,
      Nat.mul_one] at a1 a2 a3 a4 ⊢
    exact ⟨by omega, fun hp => by rw [a2 hp, b2 hp]; omega, by omega, by omega⟩

end CpSZ.VMode
