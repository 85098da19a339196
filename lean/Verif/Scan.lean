/-
Generic lockstep argument for compressors that process positions in a fixed order, emit a
record per position and keep a mirror of the decompressor's state.
-/

namespace CpSZ

/-- `n` encoder steps starting at position `p`; `none` is undefined behaviour. -/
def scanEnc {σ ω : Type} (step : σ → Nat → Option (σ × ω)) :
    Nat → Nat → σ → Option (σ × List ω)
  | 0, _, s => some (s, [])
  | n + 1, p, s =>
    match step s p with
    | none => none
    | some (s1, w) =>
      match scanEnc step n (p + 1) s1 with
      | none => none
      | some (s2, ws) => some (s2, w :: ws)

/-- `n` decoder steps starting at position `p`. -/
def scanDec {δ ι : Type} (step : δ → Nat → ι → Option (δ × ι)) :
    Nat → Nat → δ → ι → Option (δ × ι)
  | 0, _, d, i => some (d, i)
  | n + 1, p, d, i =>
    match step d p i with
    | none => none
    | some (d1, i1) => scanDec step n (p + 1) d1 i1

theorem scan_lockstep {σ δ ω ι : Type} (enc : σ → Nat → Option (σ × ω))
    (dec : δ → Nat → ι → Option (δ × ι)) (app : ω → ι → ι) (R : Nat → σ → δ → Prop)
    (H : ∀ p s d s' w rest, R p s d → enc s p = some (s', w) →
      ∃ d', dec d p (app w rest) = some (d', rest) ∧ R (p + 1) s' d')
    (n p : Nat) (s : σ) (d : δ) (s' : σ) (ws : List ω) (rest : ι)
    (hR : R p s d) (h : scanEnc enc n p s = some (s', ws)) :
    ∃ d', scanDec dec n p d (ws.foldr app rest) = some (d', rest) ∧ R (p + n) s' d' := by
  induction n generalizing p s d ws with
  | zero =>
    simp only [scanEnc, Option.some.injEq, Prod.mk.injEq] at h
    obtain ⟨rfl, rfl⟩ := h
    exact ⟨d, rfl, hR⟩
  | succ n ih =>
    simp only [scanEnc] at h
    split at h
    · cases h
    · rename_i s1 w h1
      split at h
      · cases h
      · rename_i s2 ws2 h2
        simp only [Option.some.injEq, Prod.mk.injEq] at h
        obtain ⟨rfl, rfl⟩ := h
        obtain ⟨d1, hd1, hR1⟩ := H p s d s1 w (ws2.foldr app rest) hR h1
        obtain ⟨d2, hd2, hR2⟩ := ih (p + 1) s1 d1 ws2 hR1 h2
        refine ⟨d2, ?_, by rwa [show p + (n + 1) = p + 1 + n by omega]⟩
        simp only [List.foldr_cons, scanDec, hd1, hd2]

theorem scanEnc_length {σ ω : Type} (step : σ → Nat → Option (σ × ω)) (n p : Nat)
    (s s' : σ) (ws : List ω) (h : scanEnc step n p s = some (s', ws)) : ws.length = n := by
  induction n generalizing p s s' ws with
  | zero =>
    simp only [scanEnc, Option.some.injEq, Prod.mk.injEq] at h
    obtain ⟨-, rfl⟩ := h; rfl
  | succ n ih =>
    simp only [scanEnc] at h
    split at h
    · cases h
    · split at h
      · cases h
      · rename_i h2
        simp only [Option.some.injEq, Prod.mk.injEq] at h
        obtain ⟨-, rfl⟩ := h
        simp [ih _ _ _ _ h2]

/-- Invariants of the encoder along a scan. -/
theorem scanEnc_inv {σ ω : Type} (step : σ → Nat → Option (σ × ω)) (I : Nat → σ → Prop)
    (n p : Nat) (H : ∀ q s s' w, p ≤ q → q < p + n → I q s → step s q = some (s', w) →
      I (q + 1) s')
    (s s' : σ) (ws : List ω) (hI : I p s) (h : scanEnc step n p s = some (s', ws)) :
    I (p + n) s' := by
  induction n generalizing p s ws with
  | zero =>
    simp only [scanEnc, Option.some.injEq, Prod.mk.injEq] at h
    obtain ⟨rfl, rfl⟩ := h
    exact hI
  | succ n ih =>
    simp only [scanEnc] at h
    split at h
    · cases h
    · rename_i s1 w h1
      split at h
      · cases h
      · rename_i s2 ws2 h2
        simp only [Option.some.injEq, Prod.mk.injEq] at h
        obtain ⟨rfl, rfl⟩ := h
        have := ih (p + 1) (fun q s s' w h3 h4 => H q s s' w (by omega) (by omega)) s1 ws2
          (H p s s1 w (by omega) (by omega) hI h1) h2
        rwa [show p + (n + 1) = p + 1 + n by omega]

/-- A scan whose steps are all defined is defined. -/
theorem scanEnc_defined {σ ω : Type} (step : σ → Nat → Option (σ × ω)) (n p : Nat)
    (H : ∀ q s, p ≤ q → q < p + n → (step s q).isSome) (s : σ) :
    (scanEnc step n p s).isSome := by
  induction n generalizing p s with
  | zero => rfl
  | succ n ih =>
    obtain ⟨⟨s1, w⟩, h1⟩ := Option.isSome_iff_exists.1 (H p s (by omega) (by omega))
    obtain ⟨⟨s2, ws⟩, h2⟩ := Option.isSome_iff_exists.1
      (ih (p + 1) (fun q s h3 h4 => H q s (by omega) (by omega)) s1)
    simp [scanEnc, h1, h2]

/-- Every emitted record satisfies a property that each step guarantees. -/
theorem scanEnc_forall {σ ω : Type} (step : σ → Nat → Option (σ × ω)) (Q : Nat → ω → Prop)
    (n p : Nat) (H : ∀ q s s' w, p ≤ q → q < p + n → step s q = some (s', w) → Q q w)
    (s s' : σ) (ws : List ω) (h : scanEnc step n p s = some (s', ws)) :
    ws.length = n ∧ ∀ w ∈ ws, ∃ q, p ≤ q ∧ q < p + n ∧ Q q w := by
  induction n generalizing p s ws with
  | zero =>
    simp only [scanEnc, Option.some.injEq, Prod.mk.injEq] at h
    obtain ⟨rfl, rfl⟩ := h
    exact ⟨rfl, fun w hw => by cases hw⟩
  | succ n ih =>
    simp only [scanEnc] at h
    split at h
    · cases h
    · rename_i s1 w h1
      split at h
      · cases h
      · rename_i s2 ws2 h2
        simp only [Option.some.injEq, Prod.mk.injEq] at h
        obtain ⟨rfl, rfl⟩ := h
        obtain ⟨h3, h4⟩ := ih (p + 1)
          (fun q s s' w h3 h4 => H q s s' w (by omega) (by omega)) s1 ws2 h2
        refine ⟨by simp [h3], ?_⟩
        intro x hx
        rcases List.mem_cons.1 hx with rfl | hx
        · exact ⟨p, by omega, by omega, H p s s1 x (by omega) (by omega) h1⟩
        · obtain ⟨q, h5, h6, h7⟩ := h4 x hx
          exact ⟨q, by omega, by omega, h7⟩

/-- A property of all emitted records, using an invariant of the state. -/
theorem scanEnc_forall_inv {σ ω : Type} (step : σ → Nat → Option (σ × ω)) (I : Nat → σ → Prop)
    (Q : ω → Prop) (n p : Nat)
    (H : ∀ q s s' w, p ≤ q → q < p + n → I q s → step s q = some (s', w) → I (q + 1) s' ∧ Q w)
    (s s' : σ) (ws : List ω) (hI : I p s) (h : scanEnc step n p s = some (s', ws)) :
    I (p + n) s' ∧ ∀ w ∈ ws, Q w := by
  induction n generalizing p s ws with
  | zero =>
    simp only [scanEnc, Option.some.injEq, Prod.mk.injEq] at h
    obtain ⟨rfl, rfl⟩ := h
    exact ⟨hI, by simp⟩
  | succ n ih =>
    simp only [scanEnc] at h
    split at h
    · cases h
    · rename_i s1 w h1
      split at h
      · cases h
      · rename_i s2 ws2 h2
        simp only [Option.some.injEq, Prod.mk.injEq] at h
        obtain ⟨rfl, rfl⟩ := h
        obtain ⟨i1, q1⟩ := H p s s1 w (by omega) (by omega) hI h1
        obtain ⟨i2, q2⟩ := ih (p + 1)
          (fun q s s' w hq hq' => H q s s' w (by omega) (by omega)) s1 ws2 i1 h2
        refine ⟨by rwa [show p + (n + 1) = p + 1 + n by omega], ?_⟩
        intro w' hw'
        rcases List.mem_cons.1 hw' with rfl | hw'
        · exact q1
        · exact q2 w' hw'

/-- The sequence of states of a scan. -/
theorem scanEnc_trace {σ ω : Type} (step : σ → Nat → Option (σ × ω)) (n p : Nat)
    (s s' : σ) (ws : List ω) (h : scanEnc step n p s = some (s', ws)) :
    ∃ st : Nat → σ, st p = s ∧ st (p + n) = s' ∧ ∀ q, p ≤ q → q < p + n →
      ∃ w, ws[q - p]? = some w ∧ step (st q) q = some (st (q + 1), w) := by
  induction n generalizing p s ws with
  | zero =>
    simp only [scanEnc, Option.some.injEq, Prod.mk.injEq] at h
    obtain ⟨rfl, rfl⟩ := h
    exact ⟨fun _ => s, rfl, rfl, fun q h1 h2 => by omega⟩
  | succ n ih =>
    simp only [scanEnc] at h
    split at h
    · cases h
    · rename_i s1 w h1
      split at h
      · cases h
      · rename_i s2 ws2 h2
        simp only [Option.some.injEq, Prod.mk.injEq] at h
        obtain ⟨rfl, rfl⟩ := h
        obtain ⟨st, e1, e2, e3⟩ := ih (p + 1) s1 ws2 h2
        refine ⟨fun q => if q = p then s else st q, by simp, ?_, ?_⟩
        · have : p + (n + 1) ≠ p := by omega
          simp only [this, if_false]
          rw [← e2]; congr 1; omega
        · intro q hq1 hq2
          by_cases hqp : q = p
          · subst hqp
            refine ⟨w, by simp, ?_⟩
            have : q + 1 ≠ q := by omega
            simp only [if_true, this, if_false, e1, h1]
          · obtain ⟨w', g1, g2⟩ := e3 q (by omega) (by omega)
            refine ⟨w', ?_, ?_⟩
            · rw [show q - p = (q - (p + 1)) + 1 by omega]; simpa using g1
            · have : q + 1 ≠ p := by omega
              simp only [hqp, this, if_false, g2]

/-- A decoder that consumes the records of a list one by one. -/
theorem scanDec_list {δ ω ι : Type} (dec : δ → Nat → ι → Option (δ × ι)) (app : ω → ι → ι)
    (R : Nat → δ → Prop) (ws : List ω) (p : Nat)
    (H : ∀ i w d rest, ws[i]? = some w → R (p + i) d →
      ∃ d', dec d (p + i) (app w rest) = some (d', rest) ∧ R (p + i + 1) d')
    (d : δ) (rest : ι) (hR : R p d) :
    ∃ d', scanDec dec ws.length p d (ws.foldr app rest) = some (d', rest) ∧
      R (p + ws.length) d' := by
  induction ws generalizing p d with
  | nil => exact ⟨d, rfl, hR⟩
  | cons w ws ih =>
    obtain ⟨d1, h1, hR1⟩ := H 0 w d (ws.foldr app rest) (by simp) hR
    obtain ⟨d2, h2, hR2⟩ := ih (p + 1) (fun i w' d rest hw hR => by
      have := H (i + 1) w' d rest (by simpa using hw)
        (by rwa [show p + (i + 1) = p + 1 + i by omega])
      rwa [show p + (i + 1) = p + 1 + i by omega] at this) d1 hR1
    refine ⟨d2, ?_, by rwa [List.length_cons, show p + (ws.length + 1) = p + 1 + ws.length by omega]⟩
    simp only [List.length_cons, List.foldr_cons, scanDec]
    rw [show p + 0 = p by omega] at h1
    rw [h1]
    exact h2

end CpSZ
