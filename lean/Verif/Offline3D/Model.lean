import Verif.ThreeD.Modes
import Verif.Offline2D.Model
/-
`sz_compress_cp_preserve_3d_offline_log` (src/sz_compress_cp_preserve_3d.cpp L353-572).  The
bounds of all vertices are computed from the input first; then the vertices are coded as in the
online log mode.  The stream is read by `sz_decompress_cp_preserve_3d_online_log`
(src/sz_decompress_cp_preserve_3d.cpp L7-110).
-/

namespace CpSZ.Offline3D
open ThreeD VMode Mesh3D Offline2D

variable {T D : Type}

/-! ### Bounds of all vertices -/

/-- One tetrahedron (src/sz_compress_cp_preserve_3d.cpp L390-399): row `n < 6` of `coordinates`
seen from `p`; `derive` is `max_eb_to_keep_position_and_type_3d_offline`.  Accesses out of bounds
are undefined. -/
def cellStep (O : DOps D) (derive : (Nat → T) → (Nat → T) → (Nat → T) → (Nat → T) → D)
    (r1 r2 r3 : Nat) (f : Arr T) (eb : Nat → D) (x : Nat × Nat × Nat × Nat) : Option (Nat → D) :=
  let p : Int := x.1 * (r2 * r3) + x.2.1 * r3 + x.2.2.1
  let off := offset (r2 * r3) r3 x.2.2.2
  match rdAll (r1 * r2 * r3) f (p + off 0), rdAll (r1 * r2 * r3) f (p + off 1),
    rdAll (r1 * r2 * r3) f (p + off 2), rdAll (r1 * r2 * r3) f p with
  | some a, some b, some c, some d =>
    some (lower O.lt (derive a b c d) eb
      [p.toNat, (p + off 0).toNat, (p + off 1).toNat, (p + off 2).toNat])
  | _, _, _, _ => none

/-- The order of the loops src/sz_compress_cp_preserve_3d.cpp L387-390.  The model covers grids
with at least one point in each direction; for none the `size_t` loop limit wraps around. -/
def cells (r1 r2 r3 : Nat) : List (Nat × Nat × Nat × Nat) :=
  (List.range (r1 - 1)).flatMap fun i => (List.range (r2 - 1)).flatMap fun j =>
    (List.range (r3 - 1)).flatMap fun k => (List.range 6).map fun n => (i, j, k, n)

/-- `eb_offline` (src/sz_compress_cp_preserve_3d.cpp L361-411). -/
def ebSweep3 (O : DOps D) (derive : (Nat → T) → (Nat → T) → (Nat → T) → (Nat → T) → D)
    (r1 r2 r3 : Nat) (maxEb : D) (f : Arr T) : Option (Nat → D) :=
  (cells r1 r2 r3).foldlM (cellStep O derive r1 r2 r3 f) (fun _ => maxEb)

/-! ### Coding -/

/-- src/sz_compress_cp_preserve_3d.cpp L463-470, L512-535: `eb_quant_index_max` announces a vertex
that could not be quantised, 0 a vertex without a bound. -/
def planOff (L : LOps T D) (esc : Int) (eb : Nat → D) (_ : State T) (p : Nat) :
    Option (Plan D) :=
  some (if L.lt (L.ofInt 0) (eb p) then .try (L.log2 (L.add (L.ofInt 1) (eb p))) esc
    else .lossless 0)

/-- The whole mode: final working arrays (discarded by the code) and bytes.
(src/sz_compress_cp_preserve_3d.cpp L353-572.) -/
def compressBytesOff (L : LOps T D) (c : Codec T) (E1 E2 : Env) (logBase thr : D)
    (derive : (Nat → T) → (Nat → T) → (Nat → T) → (Nat → T) → D) (r1 r2 r3 : Nat)
    (base radius : Int) (maxEb : D) (data : Arr T) : Option (Arr T × List Byte) :=
  match ebSweep3 L.toDOps derive r1 r2 r3 maxEb data with
  | none => none
  | some eb => compressBytes L c E1 E2 (2 * 256) true
      (logMode3 L logBase thr (lorenzo3 L.toOps r2 r3)) base radius
      (planOff L (escMax L.toDOps logBase thr) eb) (r1 * r2 * r3) data

/-- `sz_decompress_cp_preserve_3d_online_log`.  (src/sz_decompress_cp_preserve_3d.cpp L7-110.) -/
def decompressBytesOff (L : LOps T D) (c : Codec T) (logBase thr : D) (r1 r2 r3 : Nat)
    (m0 : Arr T) (bs : List Byte) : Option (Arr T) :=
  decompressBytes L c (2 * 256) true 3 (logMode3 L logBase thr (lorenzo3 L.toOps r2 r3))
    (r1 * r2 * r3) m0 bs

/-! ### Facts -/

theorem good_off (L : LOps T D) (H : LogLaws L) (logBase thr : D) (r2 r3 : Nat)
    (base radius : Int) (eb : Nat → D) (n : Nat)
    (hcol : ∀ p, p < n → L.lt (L.ofInt 0) (eb p) = true →
      (ebQuant L.toDOps base logBase thr (L.log2 (L.add (L.ofInt 1) (eb p)))).2 ≠
        escMax L.toDOps logBase thr) :
    Good (logMode3 L logBase thr (lorenzo3 L.toOps r2 r3) base radius)
      (planOff L (escMax L.toDOps logBase thr) eb) n where
  pred_local := lorenzo3_congr L.toOps r2 r3
  fwd_eq := logFwd_eq H
  esc_lossless := fun s p id h => by
    simp only [planOff, Option.some.injEq] at h
    split at h
    · cases h
    · cases h; rfl
  esc_try := fun s p a id h => by
    simp only [planOff, Option.some.injEq] at h
    split at h
    · cases h
      simp [logMode3]
    · cases h
  coded := fun s p a id hp h hpos => by
    simp only [planOff, Option.some.injEq] at h
    split at h
    · rename_i hlt
      cases h
      have := hcol p hp hlt
      simp only [logMode3] at hpos ⊢
      simp only [Bool.or_eq_false_iff, beq_eq_false_iff_ne, ne_eq]
      exact ⟨by omega, this⟩
    · cases h

/-- The decompressed field: lossless vertices are exact, at the others the coded value is
converted back. -/
theorem lockstep_dec (M : Mode T D) (plan : State T → Nat → Option (Plan D)) (n : Nat)
    (G : Good M plan n) (fin : Nat → Nat → T → T) (data m0 : Arr T) (s' : State T) (str : Streams T)
    (h : compress M plan n data = some (s', str)) :
    ∃ d, decompress M fin n m0 str = some d ∧ ∀ c q, c < M.K → q < n →
      ∃ e, str.eb[q]? = some e ∧
        d c q = if M.isEsc e then data c q else fin c q (s'.cod c q) := by
  obtain ⟨st, ws, R, rfl, rfl⟩ := compress_run M plan n data s' str h
  obtain ⟨d1, hd1, hc, hm⟩ := decompress1_run G R m0
  have hlt : ∀ q w, ws[q]? = some w → q < n := by
    intro q w hw
    rw [← R.len]
    by_contra hc
    rw [List.getElem?_eq_none (by omega)] at hw
    cases hw
  have hmark : ∀ q w, ws[q]? = some w → d1.marks q = w.isEscCode := by
    intro q w hw
    rw [hm q, if_pos (hlt q w hw), hw]
  have hesc : ∀ (q : Nat) (w : VCode T), ws[q]? = some w → M.isEsc w.id = w.isEscCode := by
    intro q w hw
    rcases encVertex_cases M plan _ _ _ _ (R.step q _ hw) with ⟨id, -, h2, h3⟩ |
      ⟨e', qs', h2, ⟨a, id, rs, h0, he, hpos, -, -, -, -⟩⟩
    · rw [h2]
      simp only [VCode.id, VCode.isEscCode]
      rcases h3 with h3 | ⟨a, h3⟩
      · exact G.esc_lossless _ _ _ h3
      · exact G.esc_try _ _ _ _ h3
    · rw [h2]
      simp only [VCode.id, VCode.isEscCode]
      rw [he]
      exact G.coded _ _ _ _ (hlt q w hw) h0 (by rw [← he]; exact hpos)
  let g : Nat → Nat → T := fun c q => match ws[q]? with
    | some w => if M.isEsc w.id then data c q else fin c q ((st n).cod c q)
    | none => data c q
  obtain ⟨d2, hd2, h2, -⟩ := scanDec_list (finVertex M.K fin d1.marks)
    (fun (w : VCode T) r => w.un ++ r)
    (fun p f => (∀ c q, c < M.K → q < p → f c q = g c q) ∧
      ∀ c q, c < M.K → p ≤ q → q < n → f c q = (st n).cod c q) ws 0
    (fun q w f rest hw hf => by
      rw [Nat.zero_add] at hf ⊢
      have hq := hlt q w hw
      obtain ⟨hf1, hf2⟩ := hf
      have hg : ∀ c, g c q = if M.isEsc w.id then data c q else fin c q ((st n).cod c q) := by
        intro c; simp only [g, hw]
      cases w with
      | esc id xs =>
        obtain ⟨e1, e2⟩ := R.esc_final hw hq
        refine ⟨setCol f q xs, ?_, ?_, ?_⟩
        · unfold finVertex
          rw [hmark q _ hw]
          simp only [VCode.isEscCode, if_true, VCode.un]
          rw [takeN_append' (by rw [e1, col_length])]
        · intro c j hcK hj
          by_cases hjq : j = q
          · subst hjq
            rw [setCol_same (by rw [e1, col_length]; exact hcK), hg, hesc j _ hw]
            simp only [VCode.isEscCode, if_true, e1, col_get]
          · rw [setCol_ne hjq]; exact hf1 c j hcK (by omega)
        · intro c j hcK hj hjn
          rw [setCol_ne (by omega)]; exact hf2 c j hcK (by omega) hjn
      | coded e qs =>
        refine ⟨setCol f q ((List.range M.K).map fun c => fin c q (f c q)), ?_, ?_, ?_⟩
        · unfold finVertex
          rw [hmark q _ hw]
          simp [VCode.isEscCode, VCode.un]
        · intro c j hcK hj
          by_cases hjq : j = q
          · subst hjq
            rw [setCol_same (by simpa using hcK), hg, hesc j _ hw]
            simp only [List.getElem_map, List.getElem_range, VCode.isEscCode, Bool.false_eq_true,
              if_false]
            rw [hf2 c j hcK (by omega) hq]
          · rw [setCol_ne hjq]; exact hf1 c j hcK (by omega)
        · intro c j hcK hj hjn
          rw [setCol_ne (by omega)]; exact hf2 c j hcK (by omega) hjn)
    d1.cod [] ⟨fun c q _ h => by omega, fun c q hcK _ hq => hc c q hcK hq⟩
  rw [foldr_un] at hd2
  simp only [List.append_nil, R.len] at hd2
  refine ⟨d2, by simp only [decompress, hd1, hd2, Option.map_some], fun c q hcK hq => ?_⟩
  obtain ⟨w, hw⟩ := R.get hq
  refine ⟨w.id, by simp [eb_get, hw], ?_⟩
  rw [h2 c q hcK (by rw [R.len]; omega)]
  simp only [g, hw]

end CpSZ.Offline3D
