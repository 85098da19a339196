import Verif.VMode.Lockstep
/-
A run determines the result of the compressor; plans that are changed where the code of the bound
would be taken for an escape.
-/

namespace CpSZ.VMode
open CpSZ

variable {T D : Type}

theorem scanEnc_of_trace {σ ω : Type} (step : σ → Nat → Option (σ × ω)) (st : Nat → σ) (n p : Nat)
    (ws : List ω) (hl : ws.length = n)
    (h : ∀ q w, ws[q]? = some w → step (st (p + q)) (p + q) = some (st (p + q + 1), w)) :
    scanEnc step n p (st p) = some (st (p + n), ws) := by
  induction n generalizing p ws with
  | zero =>
    have : ws = [] := List.eq_nil_of_length_eq_zero hl
    subst this
    rfl
  | succ n ih =>
    cases ws with
    | nil => simp at hl
    | cons w ws =>
      have h0 := h 0 w rfl
      simp only [Nat.add_zero] at h0
      unfold scanEnc
      rw [h0]
      simp only
      rw [ih (p + 1) ws (by simpa using hl) (fun q w hw => by
        have := h (q + 1) w (by simpa using hw)
        rw [show p + 1 + q = p + (q + 1) by omega]
        exact this)]
      simp only [Option.some.injEq, Prod.mk.injEq, and_true]
      congr 1
      omega

theorem compress_of_run {M : Mode T D} {plan : State T → Nat → Option (Plan D)} {n : Nat}
    {data : Arr T} {st : Nat → State T} {ws : List (VCode T)} (R : Run M plan n data st ws) :
    compress M plan n data = some (st n,
      ⟨ws.flatMap VCode.eb, ws.flatMap (VCode.dq M), ws.flatMap VCode.un⟩) := by
  have := scanEnc_of_trace (encVertex M plan) st n 0 ws R.len (fun q w hw => by
    simp only [Nat.zero_add]
    exact R.step q w hw)
  rw [R.start] at this
  unfold compress
  rw [this]
  simp only [Nat.zero_add]

/-- The plan, with a vertex stored verbatim where the code of its bound is `bad`. -/
def guardPlan (M : Mode T D) (bad : Int) (plan : State T → Nat → Option (Plan D)) (s : State T)
    (p : Nat) : Option (Plan D) :=
  match plan s p with
  | some (.try a id) =>
    if (ebQuant M.O.toDOps M.base M.logBase M.thr a).2 = bad then some (.lossless id)
    else some (.try a id)
  | x => x

theorem guardPlan_cases {M : Mode T D} {bad : Int} {plan : State T → Nat → Option (Plan D)}
    {s : State T} {p : Nat} {r : Plan D} (h : guardPlan M bad plan s p = some r) :
    (∃ id, r = .lossless id ∧ (plan s p = some (.lossless id) ∨ ∃ a, plan s p = some (.try a id))) ∨
    ∃ a id, r = .try a id ∧ plan s p = some (.try a id) ∧
      (ebQuant M.O.toDOps M.base M.logBase M.thr a).2 ≠ bad := by
  unfold guardPlan at h
  split at h
  · rename_i a id hp
    split at h
    · cases h; exact Or.inl ⟨id, rfl, Or.inr ⟨a, hp⟩⟩
    · rename_i hne
      cases h; exact Or.inr ⟨a, id, rfl, hp, hne⟩
  · rename_i x hx
    cases r with
    | lossless id => exact Or.inl ⟨id, rfl, Or.inl h⟩
    | «try» a id => exact absurd h (hx a id)

/-- If no coded vertex of the run has the code `bad`, the changed plan has the same run. -/
theorem Run.guard {M : Mode T D} {plan : State T → Nat → Option (Plan D)} {n : Nat}
    {data : Arr T} {st : Nat → State T} {ws : List (VCode T)} {bad : Int}
    (R : Run M plan n data st ws)
    (h : ∀ w ∈ ws, w.isEscCode = false → ∀ x ∈ w.eb, x ≠ bad) :
    Run M (guardPlan M bad plan) n data st ws := by
  refine ⟨R.start, R.len, fun q w hw => ?_⟩
  have hs := R.step q w hw
  have hmem : w ∈ ws := List.mem_of_getElem? hw
  unfold encVertex guardPlan
  unfold encVertex at hs
  cases hp : plan (st q) q with
  | none => rw [hp] at hs; cases hs
  | some r =>
    rw [hp] at hs
    cases r with
    | lossless id => exact hs
    | «try» a id =>
      simp only at hs ⊢
      by_cases hb : (ebQuant M.O.toDOps M.base M.logBase M.thr a).2 = bad
      · rw [if_pos hb]
        simp only
        split at hs
        · split at hs
          · exact hs
          · simp only [Option.some.injEq, Prod.mk.injEq] at hs
            exfalso
            refine h w hmem ?_ bad ?_ rfl
            · rw [← hs.2]; rfl
            · rw [← hs.2, ← hb]; simp [VCode.eb]
        · exact hs
      · rw [if_neg hb]
        exact hs

end CpSZ.VMode
