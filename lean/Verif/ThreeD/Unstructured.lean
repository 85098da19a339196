import Verif.ThreeD.Grid
/-
The unstructured mode: `construct_tets` and `sz_compress_cp_preserve_3d_unstructured`
(src/sz_compress_cp_preserve_3d.cpp L985-1145), decompressor
src/sz_decompress_cp_preserve_3d.cpp L120-196.
-/

namespace CpSZ.ThreeD
open VMode

variable {T D : Type}

/-! ### Adjacency -/

/-- The order in which `construct_tets` reads the index array: corner `j` of cell `i`.
(src/sz_compress_cp_preserve_3d.cpp L997-1005.) -/
def cornerList (m : Nat) : List (Nat × Nat) :=
  (List.range m).flatMap fun i => (List.range 4).map fun j => (i, j)

/-- `point_tets[ind].push_back(make_pair(i, j))` (src/sz_compress_cp_preserve_3d.cpp L999-1003).
An index outside `0 … n-1` is undefined behaviour. -/
def pushAll (n : Nat) (inds : Nat → Int) :
    List (Nat × Nat) → (Nat → List (Nat × Nat)) → Option (Nat → List (Nat × Nat))
  | [], adj => some adj
  | (i, j) :: l, adj =>
    let ind := inds (4 * i + j)
    if 0 ≤ ind ∧ ind < n then
      pushAll n inds l (fun v => if (v : Int) = ind then adj v ++ [(i, j)] else adj v)
    else none

/-- `point_tets` after `construct_tets` (src/sz_compress_cp_preserve_3d.cpp L989-1007). -/
def pointTets (n m : Nat) (inds : Nat → Int) : Option (Nat → List (Nat × Nat)) :=
  pushAll n inds (cornerList m) fun _ => []

theorem mem_cornerList {m : Nat} {x : Nat × Nat} : x ∈ cornerList m ↔ x.1 < m ∧ x.2 < 4 := by
  obtain ⟨i, j⟩ := x
  simp only [cornerList, List.mem_flatMap, List.mem_map, List.mem_range, Prod.mk.injEq]
  constructor
  · rintro ⟨i', hi, j', hj, rfl, rfl⟩; exact ⟨hi, hj⟩
  · rintro ⟨hi, hj⟩; exact ⟨i, hi, j, hj, rfl, rfl⟩

theorem nodup_cornerList (m : Nat) : (cornerList m).Nodup := by
  unfold cornerList
  rw [List.nodup_flatMap]
  refine ⟨fun i _ => ?_, ?_⟩
  · exact (List.nodup_range).map (fun a b h => by simpa using h)
  · refine (List.nodup_range (n := m)).imp ?_
    intro a b hab x hx hy
    simp only [List.mem_map, List.mem_range] at hx hy
    obtain ⟨_, _, rfl⟩ := hx
    obtain ⟨_, _, h⟩ := hy
    exact hab (by simpa using (congrArg Prod.fst h).symm)

theorem pushAll_spec (n : Nat) (inds : Nat → Int) (l : List (Nat × Nat))
    (adj : Nat → List (Nat × Nat)) :
    pushAll n inds l adj =
      if ∀ x ∈ l, 0 ≤ inds (4 * x.1 + x.2) ∧ inds (4 * x.1 + x.2) < n then
        some fun v => adj v ++ l.filter fun x => decide (inds (4 * x.1 + x.2) = v)
      else none := by
  induction l generalizing adj with
  | nil => simp [pushAll]
  | cons x l ih =>
    obtain ⟨i, j⟩ := x
    simp only [pushAll]
    by_cases h : 0 ≤ inds (4 * i + j) ∧ inds (4 * i + j) < n
    · rw [if_pos h, ih]
      simp only [List.forall_mem_cons, h, true_and]
      split
      · congr 1
        funext v
        by_cases hv : (v : Int) = inds (4 * i + j)
        · simp [hv]
        · have hv' : ¬ inds (4 * i + j) = v := fun e => hv e.symm
          simp [hv, hv']
      · rfl
    · rw [if_neg h, if_neg]
      intro hc
      exact h (hc (i, j) (List.mem_cons_self ..))

/-- The corners of cell `i`.  (src/sz_compress_cp_preserve_3d.cpp L1045-1048.) -/
def quad (inds : Nat → Int) (i : Nat) : List Nat :=
  [(inds (4 * i)).toNat, (inds (4 * i + 1)).toNat, (inds (4 * i + 2)).toNat,
    (inds (4 * i + 3)).toNat]

/-! ### Bounds -/

/-- The three corners other than `pos` in order, then `pos`: `inds = {0, 1, 2, 3};
inds.erase(inds.begin() + pos)` (src/sz_compress_cp_preserve_3d.cpp L1045-1048). -/
def rotated (pos : Nat) : List Nat := [0, 1, 2, 3].eraseIdx pos ++ [pos]

/-- src/sz_compress_cp_preserve_3d.cpp L1041-1053: `required_eb` for vertex `p` with list `adj p`.
-/
def boundU (O : DOps D) (inds : Nat → Int) (adj : Nat → List (Nat × Nat)) (maxEb : D)
    (derive : (Nat → T) → (Nat → T) → (Nat → T) → (Nat → T) → D) (f : Arr T) (p : Nat) : D :=
  (adj p).foldl (fun req x =>
    let q := fun k => (inds (4 * x.1 + (rotated x.2).getD k 0)).toNat
    let e := derive (fun c => f c (q 0)) (fun c => f c (q 1)) (fun c => f c (q 2))
      (fun c => f c (q 3))
    if O.lt req e then req else e) maxEb

/-- `pred = (i) ? cur_log_data_pos[-3] : 0` (src/sz_compress_cp_preserve_3d.cpp L1065). -/
def predPrev (O : Ops T D) (f : Nat → T) (p : Nat) : T := if p ≠ 0 then f (p - 1) else O.zeroT

theorem predPrev_congr (O : Ops T D) (f g : Nat → T) (p : Nat) (h : ∀ q, q < p → f q = g q) :
    predPrev O f p = predPrev O g p := by
  unfold predPrev
  split
  · exact h _ (by omega)
  · rfl

/-! ### Second pass of the decompressor -/

/-- One value (src/sz_decompress_cp_preserve_3d.cpp L187-190): values below -99 become 0 and do
*not* advance the sign pointer. -/
def finOne (L : LOps T D) (l : T) (signs : List Byte) : Option (T × List Byte) :=
  if L.ltM99 l then some (L.zeroT, signs)
  else match signs with
    | [] => none
    | b :: signs => some (if b ≠ 0#8 then L.exp2T l else L.negT (L.exp2T l), signs)

/-- The three values of a vertex.  (src/sz_decompress_cp_preserve_3d.cpp L179-192.) -/
def finList (L : LOps T D) : List T → List Byte → Option (List T × List Byte)
  | [], signs => some ([], signs)
  | l :: ls, signs =>
    match finOne L l signs with
    | none => none
    | some (x, signs) =>
      match finList L ls signs with
      | none => none
      | some (xs, signs) => some (x :: xs, signs)

/-- Loop body (src/sz_decompress_cp_preserve_3d.cpp L180-191); a lossless vertex advances the sign
pointer by 3. -/
def finVertexU (L : LOps T D) (marks : Nat → Bool) (f : Arr T) (p : Nat)
    (st : List Byte × List T) : Option (Arr T × (List Byte × List T)) :=
  if marks p then
    match takeN 3 st.2, takeN 3 st.1 with
    | some (xs, uns), some (_, signs) => some (setCol f p xs, (signs, uns))
    | _, _ => none
  else
    match finList L (col 3 f p) st.1 with
    | none => none
    | some (xs, signs) => some (setCol f p xs, (signs, st.2))

/-- Both passes of the unstructured decompressor.  (src/sz_decompress_cp_preserve_3d.cpp L120-196.)
-/
def decompressU (L : LOps T D) (M : Mode T D) (n : Nat) (m0 : Arr T) (signs : List Byte)
    (s : Streams T) : Option (Arr T) :=
  match decompress1 M n m0 s with
  | none => none
  | some d => (scanDec (finVertexU L d.marks) n 0 d.cod (signs, s.un)).map (·.1)

/-- The sign map of the interleaved array (src/sz_compress_cp_preserve_3d.cpp L1015-1016). -/
def signsU (L : LOps T D) (n : Nat) (data : Arr T) : List Byte :=
  (List.range n).flatMap fun q => (List.range 3).map fun c => signOf L (data c q)

theorem signsU_length (L : LOps T D) (n : Nat) (data : Arr T) : (signsU L n data).length = 3 * n := by
  induction n with
  | zero => rfl
  | succ n ih =>
    simp only [signsU, List.range_succ, List.flatMap_append, List.length_append] at ih ⊢
    rw [ih]; simp; omega

theorem signsU_flags (L : LOps T D) (n : Nat) (data : Arr T) :
    ∀ f ∈ signsU L n data, f = 0#8 ∨ f = 1#8 := by
  intro f hf
  simp only [signsU, List.mem_flatMap, List.mem_map] at hf
  obtain ⟨q, -, c, -, rfl⟩ := hf
  unfold signOf
  split
  · exact Or.inl rfl
  · split
    · exact Or.inr rfl
    · exact Or.inl rfl

/-- If no coded value is below -99 the sign pointer stays aligned. -/
theorem finList_aligned (L : LOps T D) (ls : List T) (bs rest : List Byte)
    (hlen : bs.length = ls.length) (h : ∀ l ∈ ls, L.ltM99 l = false) :
    finList L ls (bs ++ rest) = some (List.zipWith
      (fun l b => if b ≠ 0#8 then L.exp2T l else L.negT (L.exp2T l)) ls bs, rest) := by
  induction ls generalizing bs with
  | nil =>
    cases bs with
    | nil => rfl
    | cons b bs => simp at hlen
  | cons l ls ih =>
    cases bs with
    | nil => simp at hlen
    | cons b bs =>
      have h1 := h l (List.mem_cons_self ..)
      have h2 := ih bs (by simpa using hlen) (fun x hx => h x (List.mem_cons_of_mem _ hx))
      simp only [List.cons_append, finList, finOne, h1, Bool.false_eq_true, if_false, h2,
        List.zipWith_cons_cons]

/-- The second pass agrees with the structured one while the sign pointer is aligned. -/
theorem finU_aligned (L : LOps T D) (marks : Nat → Bool) (sign : Nat → Nat → Byte)
    (n p : Nat) (f d : Arr T) (un un' : List T)
    (hsmall : ∀ c q, c < 3 → p ≤ q → q < p + n → marks q = false → L.ltM99 (f c q) = false)
    (h : scanDec (finVertex 3 (logFin L sign) marks) n p f un = some (d, un')) :
    scanDec (finVertexU L marks) n p f
      ((List.range' p n).flatMap (fun q => (List.range 3).map fun c => sign c q), un) =
      some (d, ([], un')) := by
  induction n generalizing p f un with
  | zero =>
    simp only [scanDec, Option.some.injEq, Prod.mk.injEq] at h
    obtain ⟨rfl, rfl⟩ := h
    rfl
  | succ n ih =>
    rw [scanDec] at h ⊢
    have hr : (List.range' p (n + 1)).flatMap (fun q => (List.range 3).map fun c => sign c q) =
        (List.range 3).map (fun c => sign c p) ++
          (List.range' (p + 1) n).flatMap (fun q => (List.range 3).map fun c => sign c q) := by
      rw [List.range'_succ, List.flatMap_cons]
    rw [hr]
    have hother : ∀ (xs : List T) c q, c < 3 → p + 1 ≤ q → q < p + 1 + n → marks q = false →
        L.ltM99 (setCol f p xs c q) = false := by
      intro xs c q hc hq hq' hm
      rw [setCol_ne (by omega)]
      exact hsmall c q hc (by omega) (by omega) hm
    cases hmark : marks p with
    | true =>
      simp only [finVertex, hmark, if_true] at h
      simp only [finVertexU, hmark, if_true]
      rw [takeN_append' (by simp)]
      cases ht : takeN 3 un with
      | none => rw [ht] at h; cases h
      | some r =>
        obtain ⟨xs, uns⟩ := r
        rw [ht] at h
        simp only at h ⊢
        exact ih (p + 1) _ uns (hother xs) h
    | false =>
      simp only [finVertex, hmark, Bool.false_eq_true, if_false] at h
      simp only [finVertexU, hmark, Bool.false_eq_true, if_false]
      rw [finList_aligned L (col 3 f p) _ _ (by simp [col]) (by
        intro l hl
        simp only [col, List.mem_map, List.mem_range] at hl
        obtain ⟨c, hc, rfl⟩ := hl
        exact hsmall c p hc (le_refl p) (by omega) hmark)]
      simp only
      have hx : List.zipWith (fun l b => if b ≠ 0#8 then L.exp2T l else L.negT (L.exp2T l))
          (col 3 f p) ((List.range 3).map fun c => sign c p) =
          (List.range 3).map fun c => logFin L sign c p (f c p) := by
        rw [col, List.zipWith_map, List.zipWith_self]
        refine List.map_congr_left fun c hc => ?_
        have := hsmall c p (List.mem_range.1 hc) (le_refl p) (by omega) hmark
        simp only [logFin, this, Bool.false_eq_true, if_false]
      rw [hx]
      exact ih (p + 1) _ un (hother _) h

/-- The first pass together with its set of lossless vertices. -/
theorem decompress1_marks (M : Mode T D) (plan : State T → Nat → Option (Plan D)) (n : Nat)
    (G : Good M plan n) (data m0 : Arr T) (s' : State T) (str : Streams T)
    (h : compress M plan n data = some (s', str)) :
    ∃ d, decompress1 M n m0 str = some d ∧ (∀ c q, c < M.K → q < n → d.cod c q = s'.cod c q) ∧
      ∀ q, q < n → d.marks q = false → ∃ e, str.eb[q]? = some e ∧ M.isEsc e = false := by
  obtain ⟨st, ws, R, rfl, rfl⟩ := compress_run M plan n data s' str h
  obtain ⟨d1, hd1, hc, hm⟩ := decompress1_run G R m0
  refine ⟨d1, hd1, hc, fun q hq hmark => ?_⟩
  obtain ⟨w, hw⟩ := R.get hq
  rw [hm q, if_pos hq, hw] at hmark
  simp only at hmark
  refine ⟨w.id, by rw [eb_get, hw]; rfl, ?_⟩
  rcases encVertex_cases M plan _ _ _ _ (R.step q w hw) with ⟨id, -, rfl, -⟩ |
    ⟨e', qs', rfl, ⟨a, id, rs, h0, he, hpos, -, -, -, -⟩⟩
  · cases hmark
  · simp only [VCode.id]
    rw [he]
    exact G.coded _ _ _ _ hq h0 (by rw [← he]; exact hpos)

/-- The unstructured decompressor returns the reconstruction if no coded value is below -99. -/
theorem lockstepU (L : LOps T D) (HL : LogLaws L) (M : Mode T D) (hK : M.K = 3)
    (hback : M.back = logBack L) (plan : State T → Nat → Option (Plan D)) (n : Nat)
    (G : Good M plan n) (data m0 : Arr T) (s' : State T) (str : Streams T)
    (h : compress M plan n data = some (s', str))
    (hsmall : ∀ c q e, c < 3 → q < n → str.eb[q]? = some e → M.isEsc e = false →
      L.ltM99 (s'.cod c q) = false) :
    ∃ d, decompressU L M n m0 (signsU L n data) str = some d ∧
      ∀ c q, c < 3 → q < n → d c q = s'.val c q := by
  obtain ⟨d, hd, hA⟩ := lockstep M plan n G (logFin L fun c q => signOf L (data c q)) data m0 s' str h
    (fun c q e hc hq he hne => by
      rw [hback]
      exact logFin_eq HL _ _ _ _ _ rfl (hsmall c q e (hK ▸ hc) hq he hne))
  obtain ⟨d1, hd1, hc1, hm1⟩ := decompress1_marks M plan n G data m0 s' str h
  simp only [decompress, hd1] at hd
  cases hs : scanDec (finVertex M.K (logFin L fun c q => signOf L (data c q)) d1.marks) n 0 d1.cod
      str.un with
  | none => rw [hs] at hd; cases hd
  | some r =>
    obtain ⟨d2, un'⟩ := r
    rw [hs] at hd
    simp only [Option.map_some, Option.some.injEq] at hd
    subst hd
    rw [hK] at hs
    have := finU_aligned L d1.marks _ n 0 d1.cod d2 str.un un' (fun c q hc _ hq hm => by
      obtain ⟨e, he, hne⟩ := hm1 q (by omega) hm
      rw [hc1 c q (hK ▸ hc) (by omega)]
      exact hsmall c q e hc (by omega) he hne) hs
    rw [← List.range_eq_range'] at this
    refine ⟨d2, ?_, fun c q hc hq => hA c q (hK ▸ hc) hq⟩
    simp only [decompressU, hd1, signsU, this, Option.map_some]

/-! ### Bytes -/

/-- The unstructured mode: reconstruction and bytes. 
(src/sz_compress_cp_preserve_3d.cpp L985-1145.) -/
def compressBytesU (L : LOps T D) (c : Codec T) (E1 E2 : Env) (mk : Int → Int → Mode T D)
    (base radius : Int) (plan : State T → Nat → Option (Plan D)) (n : Nat) (data : Arr T) :
    Option (Arr T × List Byte) :=
  match compress (mk base radius) plan n data with
  | none => none
  | some (s', str) =>
    match serialize c E1 E2 (2 * 256) true base radius [signsU L n data] str with
    | none => none
    | some bs => some (s'.val, bs)

/-- `sz_decompress_cp_preserve_3d_unstructured`.  (src/sz_decompress_cp_preserve_3d.cpp L120-196.)
-/
def decompressBytesU (L : LOps T D) (c : Codec T) (mk : Int → Int → Mode T D) (n : Nat)
    (m0 : Arr T) (bs : List Byte) : Option (Arr T) :=
  match parse c (2 * 256) true n 3 1 (3 * n) bs with
  | none => none
  | some (base, radius, maps, s) => decompressU L (mk base radius) n m0 (maps.getD 0 []) s

/-! ### Exact arithmetic -/

/-- The cells of the mesh. -/
def meshCells (m : Nat) (inds : Nat → Int) (cell : List Nat) : Prop :=
  ∃ i, i < m ∧ cell = quad inds i

/-- `required_eb` in exact arithmetic (src/sz_compress_cp_preserve_3d.cpp L1041-1053). -/
noncomputable def boundRealU (inds : Nat → Int) (adj : Nat → List (Nat × Nat)) (maxEb : ℝ)
    (f : Arr ℝ) (p : Nat) : Option ℝ :=
  some (boundU realD inds adj maxEb (onCols derive3) f p)

theorem foldl_min_le {α : Type} (g : α → ℝ) (l : List α) (r0 : ℝ) :
    let r := l.foldl (fun req x => if realD.lt req (g x) then req else g x) r0
    r ≤ r0 ∧ ∀ x ∈ l, r ≤ g x := by
  induction l generalizing r0 with
  | nil => exact ⟨le_refl _, fun x hx => by cases hx⟩
  | cons y l ih =>
    simp only [List.foldl_cons]
    obtain ⟨h1, h2⟩ := ih (if realD.lt r0 (g y) then r0 else g y)
    have hm : (if realD.lt r0 (g y) then r0 else g y) ≤ r0 ∧
        (if realD.lt r0 (g y) then r0 else g y) ≤ g y := by
      simp only [realD, decide_eq_true_eq]
      split
      · rename_i h; exact ⟨le_refl _, h.le⟩
      · rename_i h; exact ⟨not_lt.1 h, le_refl _⟩
    refine ⟨h1.trans hm.1, fun x hx => ?_⟩
    rcases List.mem_cons.1 hx with rfl | hx
    · exact h1.trans hm.2
    · exact h2 x hx

/-- What `construct_tets` provides. -/
structure IsAdj (m : Nat) (inds : Nat → Int) (adj : Nat → List (Nat × Nat)) : Prop where
  mem : ∀ v i j, (i, j) ∈ adj v ↔ i < m ∧ j < 4 ∧ inds (4 * i + j) = v
  nodup : ∀ v, (adj v).Nodup

theorem pointTets_isAdj {n m : Nat} {inds : Nat → Int} {adj : Nat → List (Nat × Nat)}
    (h : pointTets n m inds = some adj) : IsAdj m inds adj := by
  unfold pointTets at h
  rw [pushAll_spec] at h
  split at h
  · simp only [List.nil_append, Option.some.injEq] at h
    subst h
    refine ⟨fun v i j => ?_, fun v => (nodup_cornerList m).filter _⟩
    simp only [List.mem_filter, mem_cornerList, decide_eq_true_eq]
    exact ⟨fun h => ⟨h.1.1, h.1.2, h.2⟩, fun h => ⟨⟨h.1, h.2.1⟩, h.2.2⟩⟩
  · cases h

theorem goodBoundU {n m : Nat} {inds : Nat → Int} {adj : Nat → List (Nat × Nat)} (maxEb : ℝ)
    (hA : IsAdj m inds adj) (hpos : ∀ i j, i < m → j < 4 → 0 ≤ inds (4 * i + j))
    (hnd : ∀ i, i < m → (quad inds i).Nodup) :
    GoodBound n (meshCells m inds) maxEb (boundRealU inds adj maxEb) := by
  intro f p r _ h _
  simp only [boundRealU, Option.some.injEq] at h
  subst h
  obtain ⟨h1, h2⟩ := foldl_min_le (fun x : Nat × Nat =>
    onCols derive3 (fun c => f c (inds (4 * x.1 + (rotated x.2).getD 0 0)).toNat)
      (fun c => f c (inds (4 * x.1 + (rotated x.2).getD 1 0)).toNat)
      (fun c => f c (inds (4 * x.1 + (rotated x.2).getD 2 0)).toNat)
      (fun c => f c (inds (4 * x.1 + (rotated x.2).getD 3 0)).toNat)) (adj p) maxEb
  refine ⟨h1, ?_⟩
  rintro cell ⟨i, hi, rfl⟩ hp
  have hj : ∃ j, j < 4 ∧ (inds (4 * i + j)).toNat = p := by
    simp only [quad, List.mem_cons, List.not_mem_nil, or_false] at hp
    rcases hp with e | e | e | e
    · exact ⟨0, by omega, e.symm⟩
    · exact ⟨1, by omega, e.symm⟩
    · exact ⟨2, by omega, e.symm⟩
    · exact ⟨3, by omega, e.symm⟩
  obtain ⟨j, hj, e⟩ := hj
  have hmem : (i, j) ∈ adj p := by
    rw [hA.mem]
    exact ⟨hi, hj, by have := hpos i j hi hj; omega⟩
  have hle := h2 _ hmem
  have hn := hnd i hi
  have key : ∀ q0 q1 q2 q3 : Nat, (quad inds i).Perm [q0, q1, q2, q3] → q3 = p →
      boundU realD inds adj maxEb (onCols derive3) f p ≤
        derive3 (vec f q0) (vec f q1) (vec f q2) (vec f q3) →
      ∃ q0 q1 q2, (quad inds i).Perm [q0, q1, q2, p] ∧ q0 ≠ p ∧ q1 ≠ p ∧ q2 ≠ p ∧
        boundU realD inds adj maxEb (onCols derive3) f p ≤
          derive3 (vec f q0) (vec f q1) (vec f q2) (vec f p) := by
    rintro q0 q1 q2 q3 hperm rfl hle
    have := (hperm.nodup_iff).1 hn
    simp only [List.nodup_cons, List.mem_cons, List.not_mem_nil, or_false, not_or] at this
    exact ⟨q0, q1, q2, hperm, this.1.2.2, this.2.1.2, this.2.2.1, hle⟩
  have hj4 : j = 0 ∨ j = 1 ∨ j = 2 ∨ j = 3 := by omega
  rcases hj4 with rfl | rfl | rfl | rfl
  · refine key _ _ _ _ ?_ e hle
    simp only [quad, rotated]
    exact (List.perm_append_comm (l₁ := [_]) (l₂ := [_, _, _]))
  · refine key _ _ _ _ ?_ e hle
    simp only [quad, rotated]
    exact (List.perm_append_comm (l₁ := [_]) (l₂ := [_, _])).cons _
  · refine key _ _ _ _ ?_ e hle
    simp only [quad, rotated]
    exact ((List.Perm.swap _ _ _).cons _).cons _
  · exact key _ _ _ _ (List.Perm.refl _) e hle

/-- The unstructured mode: `required_eb < 1e-10` is replaced by 0, escape code 0.
(src/sz_compress_cp_preserve_3d.cpp L1009-1145.) -/
noncomputable def compressU (n : Nat) (inds : Nat → Int) (adj : Nat → List (Nat × Nat)) (maxEb : ℝ)
    (data : Arr ℝ) : Option (State ℝ × Streams ℝ) :=
  compress (realLog3 (predPrev realOps))
    (planLog3 realL (1 / 10 ^ 10) 0 (boundRealU inds adj maxEb)) n data

theorem compressU_defined (n : Nat) (inds : Nat → Int) (adj : Nat → List (Nat × Nat)) (maxEb : ℝ)
    (data : Arr ℝ) : ∃ s' str, compressU n inds adj maxEb data = some (s', str) :=
  compress_defined _ _ _ _ fun _ _ _ => planLog3_defined rfl

end CpSZ.ThreeD
