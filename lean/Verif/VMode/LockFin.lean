import Verif.VMode.Log
/-
The round trip of the log-domain modes without a proviso on the logarithms: what the second pass of
the decompressor makes of every vertex.
-/

namespace CpSZ.VMode
variable {T D : Type}

/-- What the decompressor returns for every vertex of a run, for any final transformation. -/
theorem lockstep_fin (M : Mode T D) (plan : State T → Nat → Option (Plan D)) (n : Nat)
    (G : Good M plan n) (fin : Nat → Nat → T → T) (data m0 : Arr T) (s' : State T) (str : Streams T)
    (h : compress M plan n data = some (s', str)) :
    ∃ d, decompress M fin n m0 str = some d ∧ ∀ c q, c < M.K → q < n →
      (d c q = data c q ∧ s'.val c q = data c q) ∨
        (d c q = fin c q (s'.cod c q) ∧ s'.val c q = M.back (data c q) (s'.cod c q)) := by
  obtain ⟨st, ws, R, rfl, rfl⟩ := compress_run M plan n data s' str h
  obtain ⟨d1, hd1, hc, hm⟩ := decompress1_run G R m0
  have hmark : ∀ q w, ws[q]? = some w → d1.marks q = w.isEscCode := by
    intro q w hw
    have hq : q < n := by
      rw [← R.len]
      by_contra hc
      rw [List.getElem?_eq_none (by omega)] at hw
      cases hw
    rw [hm q, if_pos hq, hw]
  obtain ⟨d2, hd2, h2, -⟩ := scanDec_list (finVertex M.K fin d1.marks)
    (fun (w : VCode T) r => w.un ++ r)
    (fun p f => (∀ c q, c < M.K → q < p → (f c q = data c q ∧ (st n).val c q = data c q) ∨
        (f c q = fin c q ((st n).cod c q) ∧
          (st n).val c q = M.back (data c q) ((st n).cod c q))) ∧
      ∀ c q, c < M.K → p ≤ q → q < n → f c q = (st n).cod c q) ws 0
    (fun q w f rest hw hf => by
      rw [Nat.zero_add] at hf ⊢
      have hq : q < n := by
        rw [← R.len]
        by_contra hc
        rw [List.getElem?_eq_none (by omega)] at hw
        cases hw
      obtain ⟨hf1, hf2⟩ := hf
      cases w with
      | esc id xs =>
        obtain ⟨e1, e2⟩ := R.esc_final hw hq
        refine ⟨setCol f q xs, ?_, ?_, ?_⟩
        · unfold finVertex
          rw [hmark q _ hw]
          simp only [VCode.isEscCode, if_true, VCode.un]
          rw [takeN_append' (by rw [e1, col_length])]
        · intro c j hcK hj
          by_cases hjq : j = q
          · subst hjq
            refine Or.inl ⟨?_, (e2 c).2⟩
            rw [setCol_same (by rw [e1, col_length]; exact hcK)]
            simp only [e1, col_get]
          · rw [setCol_ne hjq]; exact hf1 c j hcK (by omega)
        · intro c j hcK hj hjn
          rw [setCol_ne (by omega)]; exact hf2 c j hcK (by omega) hjn
      | coded e qs =>
        refine ⟨setCol f q ((List.range M.K).map fun c => fin c q (f c q)), ?_, ?_, ?_⟩
        · unfold finVertex
          rw [hmark q _ hw]
          simp [VCode.isEscCode, VCode.un]
        · intro c j hcK hj
          by_cases hjq : j = q
          · subst hjq
            refine Or.inr ⟨?_, R.coded_final hw rfl hcK hq⟩
            rw [setCol_same (by simpa using hcK)]
            simp only [List.getElem_map, List.getElem_range]
            rw [hf2 c j hcK (by omega) hq]
          · rw [setCol_ne hjq]; exact hf1 c j hcK (by omega)
        · intro c j hcK hj hjn
          rw [setCol_ne (by omega)]; exact hf2 c j hcK (by omega) hjn)
    d1.cod [] ⟨fun c q _ h => by omega, fun c q hcK _ hq => hc c q hcK hq⟩
  rw [foldr_un] at hd2
  simp only [List.append_nil, R.len] at hd2
  refine ⟨d2, by simp only [decompress, hd1, hd2, Option.map_some], fun c q hcK hq => ?_⟩
  exact h2 c q hcK (by rw [R.len]; omega)

/-- Byte-level round trip of the structured log-domain modes: a component comes back verbatim, or as
the compressor's reconstruction, or, if its logarithm is below -99, as zero. -/
theorem log_roundtrip_fin (L : LOps T D) (HL : LogLaws L) (c : Codec T) (E1 E2 : Env)
    (ebStates : Nat) (counted : Bool) (mk : Int → Int → Mode T D) (base radius : Int)
    (plan : State T → Nat → Option (Plan D)) (n : Nat) (data : Arr T)
    (G : Good (mk base radius) plan n) (hback : (mk base radius).back = logBack L)
    (hpad : counted = false → (mk base radius).pad = true) (hn : 0 < n)
    (hb : 0 ≤ base ∧ base < 2 ^ 31) (hr : 0 ≤ radius ∧ radius < 2 ^ 31)
    (s' : State T) (str : Streams T) (h : compress (mk base radius) plan n data = some (s', str))
    (f1 : Fits E1 ebStates str.eb) (f2 : Fits E2 (2 * (2 * radius).toNat) str.dq)
    (hun : str.un.length < 2 ^ 64) :
    ∃ bs, compressBytes L c E1 E2 ebStates counted mk base radius plan n data =
        some (s'.val, bs) ∧
      ∀ rest m0, ∃ d, decompressBytes L c ebStates counted (mk base radius).K mk n m0
          (bs ++ rest) = some d ∧
        ∀ c q, c < (mk base radius).K → q < n → (d c q = data c q ∧ s'.val c q = data c q) ∨
          d c q = if L.ltM99 (s'.cod c q) then L.zeroT else s'.val c q := by
  obtain ⟨l1, l2, -, -⟩ := compress_lengths _ _ _ _ _ _ h
  obtain ⟨m1, m2⟩ := signMaps_ok L (mk base radius).K n data
  obtain ⟨bs, hs, hp⟩ := serialize_parse c E1 E2 ebStates counted base radius _ str n
    (mk base radius).K n hn m2 (fun _ => l1) (fun hc => l2 (hpad hc)) hun hb hr f1 f2
  rw [m1] at hp
  refine ⟨bs, by simp only [compressBytes, h, hs], fun rest m0 => ?_⟩
  obtain ⟨d, hd, hA⟩ := lockstep_fin _ plan n G
    (logFin L (mapAt (signMaps L (mk base radius).K n data))) data m0 s' str h
  refine ⟨d, by simp only [decompressBytes, hp rest, hd], fun c q hc hq => ?_⟩
  rcases hA c q hc hq with h1 | ⟨h1, h2⟩
  · exact Or.inl h1
  · refine Or.inr ?_
    rw [h1]
    cases hl : L.ltM99 (s'.cod c q) with
    | true => simp [logFin, hl]
    | false =>
      rw [h2, hback]
      exact logFin_eq HL _ _ _ _ _ (mapAt_signMaps L _ _ _ _ _ hc hq) hl

end CpSZ.VMode
