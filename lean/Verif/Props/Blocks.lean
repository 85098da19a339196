import Verif.Huffman.Blocks
import Verif.Props.HuffHeap

/-!
# C106: blocks of memory of the critical-point preserving modes
-/

namespace CpSZ.Huff

/-- What is known of a pointer: nothing to be freed (uninitialised or dangling), null, or the only
pointer to a block. -/
inductive St
  | off | null | held
  deriving DecidableEq

/-- The effect of an operation on that knowledge; `none` where the operation may go wrong or lose a
block. -/
def Op.track : Op → (Var → St) → Option (Var → St)
  | .alloc x, st => if st x = .held then none else some (setVar st x .held)
  | .null x, st => if st x = .held then none else some (setVar st x .null)
  | .free x, st =>
    match st x with
    | .held => some (setVar st x .off)
    | .null => some st
    | .off => none
  | .enc _ _, st => some st
  | .encIf _ _, st => some st
  | .dec x _, st => if st x = .held then none else some (setVar st x .held)

def trackAll : List Op → (Var → St) → Option (Var → St)
  | [], st => some st
  | o :: os, st => (o.track st).bind (trackAll os)

/-- The arrays passed to the entropy coder. -/
def Op.Valid : Op → Prop
  | .enc n s => s ≠ [] ∧ ∀ x ∈ s, x < n
  | .encIf n s => ∀ x ∈ s, x < n
  | _ => True

/-- `h0` are the blocks of the caller's; all others are held by one variable each. -/
structure Holds (h0 : Finset Nat) (st : Var → St) (m : MState) : Prop where
  ok : m.2.Ok
  null : ∀ v, st v = .null → m.1 v = none
  held : ∀ v, st v = .held → ∃ b, m.1 v = some b ∧ b ∉ h0
  inj : ∀ v w b, st v = .held → st w = .held → m.1 v = some b → m.1 w = some b → v = w
  live : ∀ b, b ∈ m.2.live ↔ b ∈ h0 ∨ ∃ v, st v = .held ∧ m.1 v = some b

theorem holds_new {h0 : Finset Nat} {st : Var → St} {e : Var → Option Nat} {h h' : Heap} {b : Nat}
    (H : Holds h0 st (e, h)) (x : Var) (hx : st x ≠ .held) (hb : b ∉ h.live) (ok' : h'.Ok)
    (hl : h'.live = insert b h.live) :
    Holds h0 (setVar st x .held) (setVar e x (some b), h') := by
  have hb0 : b ∉ h0 := fun q => hb ((H.live b).2 (.inl q))
  have hne : ∀ v, st v = .held → e v ≠ some b := fun v q q' => hb ((H.live b).2 (.inr ⟨v, q, q'⟩))
  refine ⟨ok', fun v hv => ?_, fun v hv => ?_, fun v w c hv hw ev ew => ?_, fun c => ?_⟩
  · by_cases q : v = x
    · simp [setVar, q] at hv
    · simp only [setVar, if_neg q] at hv ⊢; exact H.null v hv
  · by_cases q : v = x
    · exact ⟨b, by simp [setVar, q], hb0⟩
    · simp only [setVar, if_neg q] at hv ⊢; exact H.held v hv
  · by_cases q : v = x <;> by_cases q' : w = x
    · rw [q, q']
    · simp only [setVar, q, if_true, if_neg q'] at hv hw ev ew
      exact absurd (ew.trans ev.symm) (hne w hw)
    · simp only [setVar, q', if_true, if_neg q] at hv hw ev ew
      exact absurd (ev.trans ew.symm) (hne v hv)
    · simp only [setVar, if_neg q, if_neg q'] at hv hw ev ew
      exact H.inj v w c hv hw ev ew
  · change c ∈ h'.live ↔ _
    rw [hl, Finset.mem_insert]
    have := H.live c
    simp only at this
    rw [this]
    constructor
    · rintro (q | q | ⟨v, q1, q2⟩)
      · exact .inr ⟨x, by simp [setVar], by simp [setVar, q]⟩
      · exact .inl q
      · have hv : v ≠ x := fun q => hx (q ▸ q1)
        exact .inr ⟨v, by simp [setVar, hv, q1], by simp [setVar, hv, q2]⟩
    · rintro (q | ⟨v, q1, q2⟩)
      · exact .inr (.inl q)
      · by_cases hv : v = x
        · simp only [setVar, hv, if_true, Option.some.injEq] at q2
          exact .inl q2.symm
        · simp only [setVar, if_neg hv] at q1 q2
          exact .inr (.inr ⟨v, q1, q2⟩)

theorem holds_enc {h0 : Finset Nat} {st : Var → St} {e : Var → Option Nat} {h : Heap} {k : Nat}
    (H : Holds h0 st (e, h)) : Holds h0 st (e, ⟨h.next + k, h.live⟩) :=
  ⟨fun b hb => by have := H.ok b hb; change b < h.next + k; change b < h.next at this; omega,
    H.null, H.held, H.inj, H.live⟩

/-- An operation that is found safe is, and the knowledge is right afterwards. -/
theorem track_sound (swap : Nat → Bool) (o : Op) (hv : o.Valid) {h0 : Finset Nat} {st st' : Var → St}
    {m : MState} (H : Holds h0 st m) (ht : o.track st = some st') :
    ∃ m', o.exec swap m = some m' ∧ Holds h0 st' m' := by
  obtain ⟨e, h⟩ := m
  have hok : ∀ b, b ∈ h.live → b < h.next := H.ok
  cases o with
  | alloc x =>
    simp only [Op.track] at ht
    split at ht
    · cases ht
    · rename_i hx
      obtain rfl := Option.some.inj ht
      refine ⟨_, rfl, holds_new H x hx (fun q => by have := hok _ q; omega) (fun b hb => ?_) rfl⟩
      rcases Finset.mem_insert.1 hb with q | q
      · change b < h.next + 1; omega
      · have := hok b q; change b < h.next + 1; omega
  | null x =>
    simp only [Op.track] at ht
    split at ht
    · cases ht
    · rename_i hx
      obtain rfl := Option.some.inj ht
      have hne : ∀ v, setVar st x .null v = .held → v ≠ x ∧ st v = .held := by
        intro v hv
        by_cases q : v = x
        · simp [setVar, q] at hv
        · simp only [setVar, if_neg q] at hv; exact ⟨q, hv⟩
      refine ⟨_, rfl, H.ok, fun v hv => ?_, fun v hv => ?_, fun v w b hv hw ev ew => ?_, fun b => ?_⟩
      · by_cases q : v = x
        · simp [setVar, q]
        · simp only [setVar, if_neg q] at hv ⊢; exact H.null v hv
      · obtain ⟨q, q'⟩ := hne v hv
        simp only [setVar, if_neg q]; exact H.held v q'
      · obtain ⟨q1, q2⟩ := hne v hv
        obtain ⟨q3, q4⟩ := hne w hw
        simp only [setVar, if_neg q1, if_neg q3] at ev ew
        exact H.inj v w b q2 q4 ev ew
      · refine (H.live b).trans (or_congr_right ⟨?_, ?_⟩)
        · rintro ⟨v, q1, q2⟩
          have hvx : v ≠ x := fun q => hx (q ▸ q1)
          exact ⟨v, by simp [setVar, hvx, q1], by simpa [setVar, hvx] using q2⟩
        · rintro ⟨v, q1, q2⟩
          obtain ⟨q3, q4⟩ := hne v q1
          simp only [setVar, if_neg q3] at q2
          exact ⟨v, q4, q2⟩
  | free x =>
    cases hs : st x with
    | off => simp [Op.track, hs] at ht
    | null =>
      simp only [Op.track, hs] at ht
      obtain rfl := Option.some.inj ht
      have : e x = none := H.null x hs
      exact ⟨(e, h), by simp only [Op.exec, this], H⟩
    | held =>
      simp only [Op.track, hs] at ht
      obtain rfl := Option.some.inj ht
      obtain ⟨b, hb, hb0⟩ := H.held x hs
      simp only at hb
      have hl : b ∈ h.live := (H.live b).2 (.inr ⟨x, hs, hb⟩)
      have hne : ∀ v, setVar st x .off v = .held → v ≠ x ∧ st v = .held := by
        intro v hv
        by_cases q : v = x
        · simp [setVar, q] at hv
        · simp only [setVar, if_neg q] at hv; exact ⟨q, hv⟩
      refine ⟨(e, { h with live := h.live.erase b }), by simp [Op.exec, hb, free_some hl], ?_, ?_, ?_,
        ?_, ?_⟩
      · exact fun c hc => hok c (Finset.mem_of_mem_erase hc)
      · intro v hv
        by_cases q : v = x
        · simp [setVar, q] at hv
        · simp only [setVar, if_neg q] at hv; exact H.null v hv
      · exact fun v hv => H.held v (hne v hv).2
      · exact fun v w c hv hw => H.inj v w c (hne v hv).2 (hne w hw).2
      · intro c
        change c ∈ h.live.erase b ↔ _
        rw [Finset.mem_erase]
        have := H.live c
        simp only at this
        rw [this]
        constructor
        · rintro ⟨q1, q2 | ⟨v, q2, q3⟩⟩
          · exact .inl q2
          · have hvx : v ≠ x := fun q => q1 (Option.some.inj (q3.symm.trans (q ▸ hb)))
            exact .inr ⟨v, by simp [setVar, hvx, q2], q3⟩
        · rintro (q | ⟨v, q1, q2⟩)
          · exact ⟨fun q' => hb0 (q' ▸ q), .inl q⟩
          · obtain ⟨q3, q4⟩ := hne v q1
            exact ⟨fun q' => q3 (H.inj v x b q4 hs (q' ▸ q2) hb), .inr ⟨v, q4, q2⟩⟩
  | enc n s =>
    simp only [Op.track] at ht
    obtain rfl := Option.some.inj ht
    exact ⟨_, by rw [Op.exec, C105_encode swap n s hv.1 hv.2 h H.ok, Option.map_some],
      by rw [Nat.add_assoc]; exact holds_enc H⟩
  | encIf n s =>
    simp only [Op.track] at ht
    obtain rfl := Option.some.inj ht
    by_cases hs : s = []
    · exact ⟨(e, h), by simp only [Op.exec, if_pos hs], H⟩
    · exact ⟨_, by rw [Op.exec, if_neg hs, C105_encode swap n s hs hv h H.ok, Option.map_some],
        by rw [Nat.add_assoc]; exact holds_enc H⟩
  | dec x n =>
    simp only [Op.track] at ht
    split at ht
    · cases ht
    · rename_i hx
      obtain rfl := Option.some.inj ht
      obtain ⟨out, h', a1, a2, a3, a4, -⟩ := C105_decode n h H.ok
      exact ⟨(setVar e x (some out), h'), by rw [Op.exec, a1, Option.map_some],
        holds_new H x hx a2 a4 a3⟩

theorem trackAll_sound (swap : Nat → Bool) (os : List Op) (hv : ∀ o ∈ os, o.Valid) {h0 : Finset Nat}
    {st st' : Var → St} {m : MState} (H : Holds h0 st m) (ht : trackAll os st = some st') :
    ∃ m', execAll swap os m = some m' ∧ Holds h0 st' m' := by
  induction os generalizing st m with
  | nil =>
    obtain rfl := Option.some.inj ht
    exact ⟨m, rfl, H⟩
  | cons o os ih =>
    rw [trackAll] at ht
    obtain ⟨s1, t1, t2⟩ := Option.bind_eq_some_iff.1 ht
    obtain ⟨m1, e1, H1⟩ := track_sound swap o (hv o (by simp)) H t1
    obtain ⟨m2, e2, H2⟩ := ih (fun o h => hv o (by simp [h])) H1 t2
    exact ⟨m2, by rw [execAll, e1, Option.bind_some, e2], H2⟩

def allVars : List Var :=
  [.eb, .eb_u, .eb_v, .eb_quant_index, .data_quant_index, .compressed_eb, .compressed_u,
    .compressed_v, .compressed, .sign_map_compressed, .sign_map, .log_U, .log_V, .log_W,
    .decompressed_U, .decompressed_V, .decompressed_W, .type, .unpredictable_data, .indicator,
    .reg_params_type, .reg_unpredictable_data, .reg_params, .pred_buffer, .reg_type, .U, .V, .W,
    .sign_map_u, .sign_map_v, .sign_map_w, .block_type]

theorem mem_allVars (v : Var) : v ∈ allVars := by cases v <;> decide

def heldVars (st : Var → St) : List Var := allVars.filter fun v => st v = .held

def start (us : List Var) (f : Var → Bool) (v : Var) : St :=
  if v ∈ us then (if f v then .null else .held) else .off

/-- The function `os` is called with the pointers `us`, each null or to a block of its own; `h0` are
the other blocks that are allocated.  Whatever the uninitialised pointers are, it runs without undefined
behaviour.  At the end the blocks `h0` are allocated and those that the pointers `vs` point to, one
for each, and nothing else. -/
def Leaves (os : List Op) (us vs : List Var) : Prop :=
  ∀ (swap : Nat → Bool) (e : Var → Option Nat) (h0 : Finset Nat) (h : Heap), h.Ok →
    (us.filterMap e).Nodup → (∀ b ∈ us.filterMap e, b ∉ h0) →
    (∀ x, x ∈ h.live ↔ x ∈ h0 ∨ x ∈ us.filterMap e) →
    ∃ e' h', execAll swap os (e, h) = some (e', h') ∧ h'.Ok ∧
      ∃ bs : List Nat, vs.map e' = bs.map some ∧ bs.Nodup ∧ (∀ b ∈ bs, b ∉ h0) ∧
        ∀ x, x ∈ h'.live ↔ x ∈ h0 ∨ x ∈ bs

theorem filterMap_inj (e : Var → Option Nat) : ∀ us : List Var, (us.filterMap e).Nodup →
    ∀ v ∈ us, ∀ w ∈ us, ∀ b, e v = some b → e w = some b → v = w
  | [], _, v, hv, _, _, _, _, _ => by cases hv
  | u :: us, hn, v, hv, w, hw, b, ev, ew => by
    have key : ∀ x ∈ us, e u = some b → e x = some b → False := by
      intro x hx eu ex
      rw [List.filterMap_cons_some eu, List.nodup_cons] at hn
      exact hn.1 (List.mem_filterMap.2 ⟨x, hx, ex⟩)
    have hn' : (us.filterMap e).Nodup := by
      cases eu : e u with
      | none => rwa [List.filterMap_cons_none eu] at hn
      | some c => rw [List.filterMap_cons_some eu, List.nodup_cons] at hn; exact hn.2
    rcases List.mem_cons.1 hv with q | q <;> rcases List.mem_cons.1 hw with q' | q'
    · rw [q, q']
    · exact (key w q' (q ▸ ev) ew).elim
    · exact (key v q (q' ▸ ew) ev).elim
    · exact filterMap_inj e us hn' v q w q' b ev ew

theorem leaves_of (os : List Op) (us vs : List Var) (hv : ∀ o ∈ os, o.Valid)
    (ht : ∀ f, (trackAll os (start us f)).map heldVars = some vs) : Leaves os us vs := by
  intro swap e h0 h ho hn hd hl
  have hst : ∀ v, start us (fun v => (e v).isNone) v = .held ↔ v ∈ us ∧ ∃ b, e v = some b := by
    intro v
    by_cases q : v ∈ us
    · cases ev : e v <;> simp [start, q, ev]
    · simp [start, q]
  have H : Holds h0 (start us fun v => (e v).isNone) (e, h) := by
    refine ⟨ho, fun v q => ?_, fun v q => ?_, fun v w b qv qw ev ew => ?_, fun b => ?_⟩
    · by_cases q' : v ∈ us
      · cases ev : e v
        · exact ev
        · simp [start, q', ev] at q
      · simp [start, q'] at q
    · obtain ⟨q1, b, q2⟩ := (hst v).1 q
      exact ⟨b, q2, hd b (List.mem_filterMap.2 ⟨v, q1, q2⟩)⟩
    · exact filterMap_inj e us hn v ((hst v).1 qv).1 w ((hst w).1 qw).1 b ev ew
    · change b ∈ h.live ↔ _
      rw [hl, List.mem_filterMap]
      refine or_congr_right ⟨?_, ?_⟩
      · rintro ⟨v, q1, q2⟩; exact ⟨v, (hst v).2 ⟨q1, b, q2⟩, q2⟩
      · rintro ⟨v, q1, q2⟩; exact ⟨v, ((hst v).1 q1).1, q2⟩
  obtain ⟨st', t1, t2⟩ := Option.map_eq_some_iff.1 (ht fun v => (e v).isNone)
  obtain ⟨⟨e', h'⟩, x1, x2⟩ := trackAll_sound swap os hv H t1
  have mem : ∀ v, v ∈ vs ↔ st' v = .held := by
    intro v; rw [← t2]; simp [heldVars, mem_allVars]
  have vnd : vs.Nodup := by
    rw [← t2]; exact List.filter_sublist.nodup (by decide)
  refine ⟨e', h', x1, x2.ok, vs.map fun v => (e' v).getD 0, ?_, ?_, ?_, ?_⟩
  · rw [List.map_map]
    refine List.map_congr_left fun v q => ?_
    obtain ⟨b, q1, -⟩ := x2.held v ((mem v).1 q)
    simp only at q1
    simp [q1]
  · refine List.Nodup.map_on (fun v q w q' hvw => ?_) vnd
    obtain ⟨b, q1, -⟩ := x2.held v ((mem v).1 q)
    obtain ⟨c, q2, -⟩ := x2.held w ((mem w).1 q')
    simp only at q1 q2
    simp only [q1, q2, Option.getD_some] at hvw
    exact x2.inj v w b ((mem v).1 q) ((mem w).1 q') q1 (by rw [hvw]; exact q2)
  · intro b q
    obtain ⟨v, q1, q2⟩ := List.mem_map.1 q
    obtain ⟨c, q3, q4⟩ := x2.held v ((mem v).1 q1)
    simp only at q3
    rw [q3, Option.getD_some] at q2
    exact q2 ▸ q4
  · intro x
    refine (x2.live x).trans (or_congr_right ⟨?_, ?_⟩)
    · rintro ⟨v, q1, q2⟩
      simp only at q2
      exact List.mem_map.2 ⟨v, (mem v).2 q1, by rw [q2, Option.getD_some]⟩
    · intro q
      obtain ⟨v, q1, q2⟩ := List.mem_map.1 q
      obtain ⟨c, q3, -⟩ := x2.held v ((mem v).1 q1)
      simp only at q3
      rw [q3, Option.getD_some] at q2
      exact ⟨v, (mem v).1 q1, q2 ▸ q3⟩

def ofBool (a : Bool) : St := if a then .null else .held

def start3 (a b c : St) : Var → St
  | .U => a
  | .V => b
  | .W => c
  | _ => .off

theorem start_nil (f : Var → Bool) : start [] f = start3 .off .off .off := by
  funext v; cases v <;> rfl

theorem start_one (f : Var → Bool) : start [.U] f = start3 (ofBool (f .U)) .off .off := by
  funext v; cases v <;> rfl

theorem start_two (f : Var → Bool) :
    start [.U, .V] f = start3 (ofBool (f .U)) (ofBool (f .V)) .off := by
  funext v; cases v <;> rfl

theorem start_three (f : Var → Bool) :
    start [.U, .V, .W] f = start3 (ofBool (f .U)) (ofBool (f .V)) (ofBool (f .W)) := by
  funext v; cases v <;> rfl

/-- An array of symbols that the entropy coder takes. -/
def Syms (n : Nat) (s : List Nat) : Prop := s ≠ [] ∧ ∀ x ∈ s, x < n

/-- **C106**, online 2D modes: the stream is the only block that is left. -/
theorem C106_online2d (es ds : List Nat) (cap : Nat) (he : Syms (2 * 1024) es)
    (hd : Syms (2 * cap) ds) : Leaves (online2d es ds cap) [] [.compressed] :=
  leaves_of _ _ _ (by simpa [online2d, Op.Valid] using ⟨he, hd⟩)
    (fun f => by rw [start_nil]; rfl)

/-- **C106**, online 2D mode on logarithms. -/
theorem C106_online2dLog (es ds : List Nat) (cap : Nat) (he : Syms (2 * 1024) es)
    (hd : Syms (2 * cap) ds) : Leaves (online2dLog es ds cap) [] [.compressed] :=
  leaves_of _ _ _ (by simpa [online2dLog, Op.Valid] using ⟨he, hd⟩)
    (fun f => by rw [start_nil]; rfl)

/-- **C106**, online 3D mode on logarithms. -/
theorem C106_online3dLog (es ds : List Nat) (cap : Nat) (he : Syms (2 * 256) es)
    (hd : Syms (2 * cap) ds) : Leaves (online3dLog es ds cap) [] [.compressed] :=
  leaves_of _ _ _ (by simpa [online3dLog, Op.Valid] using ⟨he, hd⟩)
    (fun f => by rw [start_nil]; rfl)

/-- **C106**, online 3D mode with absolute bounds. -/
theorem C106_online3dAbs (es ds : List Nat) (cap : Nat) (he : Syms (2 * 1024) es)
    (hd : Syms (2 * cap) ds) : Leaves (online3dAbs es ds cap) [] [.compressed] :=
  leaves_of _ _ _ (by simpa [online3dAbs, Op.Valid] using ⟨he, hd⟩)
    (fun f => by rw [start_nil]; rfl)

/-- **C106**, offline 3D mode on logarithms. -/
theorem C106_offline3dLog (es ds : List Nat) (cap : Nat) (he : Syms (2 * 256) es)
    (hd : Syms (2 * cap) ds) : Leaves (offline3dLog es ds cap) [] [.compressed] :=
  leaves_of _ _ _ (by simpa [offline3dLog, Op.Valid] using ⟨he, hd⟩)
    (fun f => by rw [start_nil]; rfl)

/-- **C106**, mode on unstructured meshes. -/
theorem C106_unstructured (es ds : List Nat) (cap : Nat) (he : Syms (2 * 256) es)
    (hd : Syms (2 * cap) ds) : Leaves (unstructured es ds cap) [] [.compressed] :=
  leaves_of _ _ _ (by simpa [unstructured, Op.Valid] using ⟨he, hd⟩)
    (fun f => by rw [start_nil]; rfl)

/-- **C106**, `sz_compress_2d_with_eb`. -/
theorem C106_block (ty rg : List Nat) (ht : Syms (4 * 32768) ty) (hr : ∀ x ∈ rg, x < 2 * 65536) :
    Leaves (compress2dEb .compressed ty rg) [] [.compressed] :=
  leaves_of _ _ _ (by simpa [compress2dEb, Op.Valid] using ⟨hr, ht⟩)
    (fun f => by rw [start_nil]; rfl)

/-- **C106**, decompressor of the online 2D modes: the old components are freed, the new ones are the
only blocks that are left. -/
theorem C106_decOnline2d (cap : Nat) : Leaves (decOnline2d cap) [.U, .V] [.U, .V] :=
  leaves_of _ _ _ (by simp [decOnline2d, Op.Valid])
    (fun f => by rw [start_two]; cases f .U <;> cases f .V <;> rfl)

/-- **C106**, decompressor of the online 2D mode on logarithms. -/
theorem C106_decOnline2dLog (cap : Nat) : Leaves (decOnline2dLog cap) [.U, .V] [.U, .V] :=
  leaves_of _ _ _ (by simp [decOnline2dLog, Op.Valid])
    (fun f => by rw [start_two]; cases f .U <;> cases f .V <;> rfl)

/-- **C106**, decompressor of the online 3D mode on logarithms. -/
theorem C106_decOnline3dLog (cap : Nat) : Leaves (decOnline3dLog cap) [.U, .V, .W] [.U, .V, .W] :=
  leaves_of _ _ _ (by simp [decOnline3dLog, Op.Valid])
    (fun f => by rw [start_three]; cases f .U <;> cases f .V <;> cases f .W <;> rfl)

/-- **C106**, decompressor of the online 3D mode with absolute bounds. -/
theorem C106_decOnline3dAbs (cap : Nat) : Leaves (decOnline3dAbs cap) [.U, .V, .W] [.U, .V, .W] :=
  leaves_of _ _ _ (by simp [decOnline3dAbs, Op.Valid])
    (fun f => by rw [start_three]; cases f .U <;> cases f .V <;> cases f .W <;> rfl)

/-- **C106**, decompressor of the mode on unstructured meshes. -/
theorem C106_decUnstructured (cap : Nat) : Leaves (decUnstructured cap) [.U] [.U] :=
  leaves_of _ _ _ (by simp [decUnstructured, Op.Valid])
    (fun f => by rw [start_one]; cases f .U <;> rfl)

/-- **C106**, `sz_decompress_2d_with_eb`, with and without regression blocks. -/
theorem C106_decBlock (radius : Nat) (reg : Bool) : Leaves (decompress2dEb .U radius reg) [] [.U] :=
  leaves_of _ _ _ (by cases reg <;> simp [decompress2dEb, Op.Valid])
    (fun f => by rw [start_nil]; cases reg <;> rfl)

/-- **C106** for the compressors and decompressors that it is true for.  Missing, and false: the
bilinear mode (`C106_not_bilinear`), the 2D offline modes (`C106_not_offline2d`) and their decompressors
(`C106_not_decOffline2d`). -/
theorem C106_modes_partial (es ds : List Nat) (cap : Nat) (hd : Syms (2 * cap) ds) :
    (Syms (2 * 1024) es → Leaves (online2d es ds cap) [] [.compressed] ∧
      Leaves (online2dLog es ds cap) [] [.compressed] ∧
      Leaves (online3dAbs es ds cap) [] [.compressed]) ∧
    (Syms (2 * 256) es → Leaves (online3dLog es ds cap) [] [.compressed] ∧
      Leaves (offline3dLog es ds cap) [] [.compressed] ∧
      Leaves (unstructured es ds cap) [] [.compressed]) ∧
    Leaves (decOnline2d cap) [.U, .V] [.U, .V] ∧ Leaves (decOnline2dLog cap) [.U, .V] [.U, .V] ∧
    Leaves (decOnline3dLog cap) [.U, .V, .W] [.U, .V, .W] ∧
    Leaves (decOnline3dAbs cap) [.U, .V, .W] [.U, .V, .W] ∧
    Leaves (decUnstructured cap) [.U] [.U] :=
  ⟨fun he => ⟨C106_online2d es ds cap he hd, C106_online2dLog es ds cap he hd,
      C106_online3dAbs es ds cap he hd⟩,
    fun he => ⟨C106_online3dLog es ds cap he hd, C106_offline3dLog es ds cap he hd,
      C106_unstructured es ds cap he hd⟩,
    C106_decOnline2d cap, C106_decOnline2dLog cap, C106_decOnline3dLog cap, C106_decOnline3dAbs cap,
    C106_decUnstructured cap⟩

/-- The number of blocks that are left is determined. -/
theorem leaves_length {os : List Op} {us vs ws : List Var} (h1 : Leaves os us vs)
    (h2 : Leaves os us ws) : vs.length = ws.length := by
  have hn : us.filterMap (fun _ => (none : Option Nat)) = [] := by
    induction us <;> simp [*]
  obtain ⟨e1, g1, a1, -, bs, a2, a3, -, a4⟩ := h1 (fun _ => false) (fun _ => none) ∅ ⟨0, ∅⟩
    (by simp [Heap.Ok]) (by simp [hn]) (by simp) (by simp [hn])
  obtain ⟨e2, g2, b1, -, cs, b2, b3, -, b4⟩ := h2 (fun _ => false) (fun _ => none) ∅ ⟨0, ∅⟩
    (by simp [Heap.Ok]) (by simp [hn]) (by simp) (by simp [hn])
  rw [a1] at b1
  obtain ⟨-, rfl⟩ := Prod.mk.inj (Option.some.inj b1)
  have hp := ((List.perm_ext_iff_of_nodup a3 b3).2 fun x => by
    have h1 := a4 x
    have h2 := b4 x
    simp only [Finset.notMem_empty, false_or] at h1 h2
    rw [← h1, h2]).length_eq
  have q1 : vs.length = bs.length := by simpa using congrArg List.length a2
  have q2 : ws.length = cs.length := by simpa using congrArg List.length b2
  omega

/-- C106 fails for the bilinear mode: the array `eb` is never freed. -/
theorem C106_bilinear_leaks (es ds : List Nat) (cap : Nat) (he : Syms (2 * 1024) es)
    (hd : Syms (2 * cap) ds) : Leaves (bilinear es ds cap) [] [.eb, .compressed] :=
  leaves_of _ _ _ (by simpa [bilinear, Op.Valid] using ⟨he, hd⟩)
    (fun f => by rw [start_nil]; rfl)

/-- C106 fails for the offline mode: `eb_quant_index` is never freed. -/
theorem C106_offline2d_leaks (es tu ru tv rv : List Nat) (he : Syms (2 * 1024) es)
    (hu : Syms (4 * 32768) tu) (hv : Syms (4 * 32768) tv) (hru : ∀ x ∈ ru, x < 2 * 65536)
    (hrv : ∀ x ∈ rv, x < 2 * 65536) :
    Leaves (offline2d es tu ru tv rv) [] [.eb_quant_index, .compressed] :=
  leaves_of _ _ _ (by simpa [offline2d, compress2dEb, Op.Valid] using ⟨he, hru, hu, hrv, hv⟩)
    (fun f => by rw [start_nil]; rfl)

/-- C106 fails for the offline mode on logarithms in the same way. -/
theorem C106_offline2dLog_leaks (es tu ru tv rv : List Nat) (he : Syms (2 * 1024) es)
    (hu : Syms (4 * 32768) tu) (hv : Syms (4 * 32768) tv) (hru : ∀ x ∈ ru, x < 2 * 65536)
    (hrv : ∀ x ∈ rv, x < 2 * 65536) :
    Leaves (offline2dLog es tu ru tv rv) [] [.eb_quant_index, .compressed] :=
  leaves_of _ _ _ (by simpa [offline2dLog, compress2dEb, Op.Valid] using ⟨he, hru, hu, hrv, hv⟩)
    (fun f => by rw [start_nil]; rfl)

/-- C106 fails for the decompressors of the offline modes: `type` is never freed. -/
theorem C106_decOffline2d_leaks (radius : Nat) (ru rv : Bool) :
    Leaves (decOffline2d radius ru rv) [.U, .V] [.type, .U, .V] :=
  leaves_of _ _ _ (by cases ru <;> cases rv <;> simp [decOffline2d, decompress2dEb, Op.Valid])
    (fun f => by
      rw [start_two]; cases f .U <;> cases f .V <;> cases ru <;> cases rv <;> rfl)

theorem C106_decOffline2dLog_leaks (radius : Nat) (ru rv : Bool) :
    Leaves (decOffline2dLog radius ru rv) [.U, .V] [.type, .U, .V] :=
  leaves_of _ _ _ (by cases ru <;> cases rv <;> simp [decOffline2dLog, decompress2dEb, Op.Valid])
    (fun f => by
      rw [start_two]; cases f .U <;> cases f .V <;> cases ru <;> cases rv <;> rfl)

/-- The claim itself is false for these modes. -/
theorem C106_not_bilinear (es ds : List Nat) (cap : Nat) (he : Syms (2 * 1024) es)
    (hd : Syms (2 * cap) ds) : ¬ Leaves (bilinear es ds cap) [] [.compressed] :=
  fun h => by simpa using leaves_length h (C106_bilinear_leaks es ds cap he hd)

theorem C106_not_offline2d (es tu ru tv rv : List Nat) (he : Syms (2 * 1024) es)
    (hu : Syms (4 * 32768) tu) (hv : Syms (4 * 32768) tv) (hru : ∀ x ∈ ru, x < 2 * 65536)
    (hrv : ∀ x ∈ rv, x < 2 * 65536) :
    ¬ Leaves (offline2d es tu ru tv rv) [] [.compressed] ∧
      ¬ Leaves (offline2dLog es tu ru tv rv) [] [.compressed] :=
  ⟨fun h => by simpa using leaves_length h (C106_offline2d_leaks es tu ru tv rv he hu hv hru hrv),
    fun h => by simpa using leaves_length h (C106_offline2dLog_leaks es tu ru tv rv he hu hv hru hrv)⟩

theorem C106_not_decOffline2d (radius : Nat) (ru rv : Bool) :
    ¬ Leaves (decOffline2d radius ru rv) [.U, .V] [.U, .V] ∧
      ¬ Leaves (decOffline2dLog radius ru rv) [.U, .V] [.U, .V] :=
  ⟨fun h => by simpa using leaves_length h (C106_decOffline2d_leaks radius ru rv),
    fun h => by simpa using leaves_length h (C106_decOffline2dLog_leaks radius ru rv)⟩

/-- The hypotheses of the theorems on the offline mode. -/
example : ¬ Leaves (offline2d [0, 9] [32768] [1, 65535] [32767, 0] []) [] [.compressed] :=
  (C106_not_offline2d _ [32768] _ [32767, 0] [] (by simp [Syms]) (by simp [Syms]) (by simp [Syms])
    (by simp) (by simp)).1

/-- The decompressor called with an old `U` in block 3 and a null `V`. -/
example (swap : Nat → Bool) : ∃ e' h', execAll swap (decOnline2d 65536)
    (fun v => if v = .U then some 3 else none, ⟨8, {3, 7}⟩) = some (e', h') ∧ h'.Ok := by
  obtain ⟨e', h', a1, a2, -⟩ := C106_decOnline2d 65536 swap (fun v => if v = .U then some 3 else none)
    {7} ⟨8, {3, 7}⟩ (by simp [Heap.Ok]) (by decide) (by decide) (by simp [or_comm])
  exact ⟨e', h', a1, a2⟩

/-- A run of the online mode: symbols of four vertices, one block of the caller's. -/
example (swap : Nat → Bool) (e : Var → Option Nat) :
    ∃ e' h' b, execAll swap (online2d [3, 0, 3, 1] [32768, 32769, 0, 5] 65536) (e, ⟨8, {7}⟩) =
      some (e', h') ∧ e' .compressed = some b ∧ b ≠ 7 ∧ ∀ x, x ∈ h'.live ↔ x = 7 ∨ x = b := by
  obtain ⟨e', h', a1, -, bs, a2, -, a3, a4⟩ := C106_online2d [3, 0, 3, 1] [32768, 32769, 0, 5] 65536
    (by simp [Syms]) (by simp [Syms]) swap e {7} ⟨8, {7}⟩ (by simp [Heap.Ok]) (by simp) (by simp)
    (by simp)
  obtain ⟨b, rfl⟩ : ∃ b, bs = [b] := List.length_eq_one_iff.1 (by simpa using (congrArg List.length a2).symm)
  exact ⟨e', h', b, a1, by simpa using a2, by simpa using a3 b (by simp), by simpa using a4⟩

end CpSZ.Huff
