import Verif.VMode.Log2D
/-
`sz_compress_cp_preserve_2d_bilinear_online_log`
(src/sz_compress_cp_preserve_2d_bilinear.cpp L755-1070).  The stream is that of the 2D log mode
and is read by `sz_decompress_cp_preserve_2d_online_log`
(src/sz_decompress_cp_preserve_2d.cpp L175-252).

The loop differs from the 2D log mode (`Verif.VMode.Log2D`) in two points: the bound of a vertex
comes from the four incident grid cells instead of six triangles, and a vertex that passed
quantisation is *verified*: for every incident cell the critical points of the bilinear
interpolant are extracted before and after, and the vertex is stored losslessly if their number
or the list of their types changed.
-/

namespace CpSZ.VMode.Bilinear
open Mesh2D

/-! ### Specification of the mesh -/

/-- A cell of the grid, named by its corner with the smallest row `a` and column `b`. -/
structure Cell where
  a : Nat
  b : Nat
  deriving DecidableEq

def Cell.inGrid (r1 r2 : Nat) (c : Cell) : Prop := c.a + 1 < r1 ∧ c.b + 1 < r2

/-- The corners as (row, column) pairs, counterclockwise when columns run to the right and rows
upwards. -/
def Cell.verts (c : Cell) : List (Nat × Nat) :=
  [(c.a, c.b), (c.a, c.b + 1), (c.a + 1, c.b + 1), (c.a + 1, c.b)]

/-- Four vectors, one per corner of a cell, in the order of `Cell.verts`. -/
structure Quad (D : Type) where
  p0 : D × D
  p1 : D × D
  p2 : D × D
  p3 : D × D

/-- The vectors of a field at the corners of a cell. -/
def Cell.quad {T D : Type} (toD : T → D) (r2 : Nat) (m : Online2D.Field T) (c : Cell) : Quad D :=
  let at_ := fun i j => (toD (m.u (i * r2 + j)), toD (m.v (i * r2 + j)))
  ⟨at_ c.a c.b, at_ c.a (c.b + 1), at_ (c.a + 1) (c.b + 1), at_ (c.a + 1) c.b⟩

/-! ### Model -/

/-- Table `x` (src/sz_compress_cp_preserve_2d_bilinear.cpp L800-805). -/
def tx4 : List (List Int) := [[1, 0, 0, 1], [0, 0, 1, 1], [0, 1, 1, 0], [1, 1, 0, 0]]

/-- Table `y` (src/sz_compress_cp_preserve_2d_bilinear.cpp L806-811). -/
def ty4 : List (List Int) := [[0, 0, 1, 1], [0, 1, 1, 0], [1, 1, 0, 0], [1, 0, 0, 1]]

/-- `index_offset[k][q][0]` (src/sz_compress_cp_preserve_2d_bilinear.cpp L813-819): column offset.
-/
def dj4 (k q : Nat) : Int := tab tx4 k q - tab tx4 k 3

/-- `index_offset[k][q][1]`: row offset.  (src/sz_compress_cp_preserve_2d_bilinear.cpp L813-819.) -/
def di4 (k q : Nat) : Int := tab ty4 k q - tab ty4 k 3

/-- `offsets[9]` (src/sz_compress_cp_preserve_2d_bilinear.cpp L795-797). -/
def offsets9 (r2 : Nat) (k : Nat) : Int :=
  [-(r2 : Int), -(r2 : Int) - 1, -1, (r2 : Int) - 1, (r2 : Int), (r2 : Int) + 1, 1,
    -(r2 : Int) + 1, -(r2 : Int)].getD k 0

/-- `in_mesh` (src/sz_compress_cp_preserve_2d_bilinear.cpp L833-841 and its copies in the
verification). -/
def inMesh4 (r1 r2 i j k : Nat) : Bool :=
  (inRange (i + di4 k 0) r1 && inRange (j + dj4 k 0) r2) &&
  (inRange (i + di4 k 1) r1 && inRange (j + dj4 k 1) r2) &&
  (inRange (i + di4 k 2) r1 && inRange (j + dj4 k 2) r2)

/-- The loop over the incident cells (src/sz_compress_cp_preserve_2d_bilinear.cpp L831-849) for any
`derive_cp_eb_bilinear_online` and any `MINF`. -/
def boundLoop {T D : Type} (r1 r2 : Nat) (minf : D → D → D)
    (derive : T → T → T → T → T → T → T → T → D) (m : Online2D.Field T) (p : Nat) :
    List Nat → D → Option D
  | [], req => some req
  | k :: ks, req =>
    if inMesh4 r1 r2 (p / r2) (p % r2) k then
      match rd (r1 * r2) m.u (p + offsets9 r2 (2 * k)), rd (r1 * r2) m.u (p + offsets9 r2 (2 * k + 1)),
        rd (r1 * r2) m.u (p + offsets9 r2 (2 * k + 2)), rd (r1 * r2) m.v (p + offsets9 r2 (2 * k)),
        rd (r1 * r2) m.v (p + offsets9 r2 (2 * k + 1)), rd (r1 * r2) m.v (p + offsets9 r2 (2 * k + 2)) with
      | some u0, some u1, some u2, some v0, some v1, some v2 =>
        boundLoop r1 r2 minf derive m p ks
          (minf req (derive u0 u1 u2 (m.u p) v0 v1 v2 (m.v p)))
      | _, _, _, _, _, _ => none
    else boundLoop r1 r2 minf derive m p ks req

/-- `required_eb` (src/sz_compress_cp_preserve_2d_bilinear.cpp L830-849). -/
def boundB {T D : Type} (r1 r2 : Nat) (maxEb : D) (minf : D → D → D)
    (derive : T → T → T → T → T → T → T → T → D) (m : Online2D.Field T) (p : Nat) : Option D :=
  boundLoop r1 r2 minf derive m p [0, 1, 2, 3] maxEb

/-- Offsets of the four arguments of the `k`-th call of `bilinear_extract_critical_point`
(src/sz_compress_cp_preserve_2d_bilinear.cpp L912, L946, L973, L1000).  The code writes them with
the unsigned `r2`, so that e.g. `-1 - r2` wraps; the model uses the intended signed value. -/
def cornerOff (r2 : Nat) (k : Nat) : List Int :=
  [[-1 - (r2 : Int), -(r2 : Int), 0, -1],
   [-1, 0, (r2 : Int), (r2 : Int) - 1],
   [0, 1, (r2 : Int) + 1, (r2 : Int)],
   [-(r2 : Int), -(r2 : Int) + 1, 1, 0]].getD k []

/-- Read four corners with `f`.  (src/sz_compress_cp_preserve_2d_bilinear.cpp L912-915, L946-949,
L973-976, L1000-1003.) -/
def quadAt {D : Type} (f : Int → Option (D × D)) : List Int → Option (Quad D)
  | [o0, o1, o2, o3] =>
    match f o0, f o1, f o2, f o3 with
    | some a, some b, some c, some d => some ⟨a, b, c, d⟩
    | _, _, _, _ => none
  | _ => none

/-- `cur_U_pos[o]`, `cur_V_pos[o]` converted to `double`.
(src/sz_compress_cp_preserve_2d_bilinear.cpp L912-915.) -/
def rdVec {T D : Type} (toD : T → D) (n : Nat) (m : Online2D.Field T) (p : Nat) (o : Int) :
    Option (D × D) :=
  match rd n m.u (p + o), rd n m.v (p + o) with
  | some u, some v => some (toD u, toD v)
  | _, _ => none

/-- What the verification uses: extraction of the critical points of the bilinear interpolant of
four vectors (`bilinear_extract_critical_point`,
src/sz_compress_cp_preserve_2d_bilinear.cpp L719-735; the list of Jacobians, `nroots` is its
length) and the type of a critical point
(`solve_eigenvalues2x2`, `get_cp_type`, L681-712). -/
structure Check (D J : Type) where
  extract : Quad D → List J
  ctype : J → Int

/-- `bilinear_verify_critical_point` (src/sz_compress_cp_preserve_2d_bilinear.cpp L737-753). -/
def verifyTypes {D J : Type} (C : Check D J) (nroots : Nat) (l l' : List J) : Bool :=
  (List.range nroots).all fun i =>
    match l[i]?, l'[i]? with
    | some a, some b => C.ctype a == C.ctype b
    | _, _ => false

/-- `!((nroots != nroots_) || (!bilinear_verify_critical_point(nroots, J, J_)))`.
(src/sz_compress_cp_preserve_2d_bilinear.cpp L912-916.) -/
def sameCell {D J : Type} (C : Check D J) (q q' : Quad D) : Bool :=
  let l := C.extract q
  let l' := C.extract q'
  (l.length == l'.length) && verifyTypes C l.length l l'

/-- The verification (src/sz_compress_cp_preserve_2d_bilinear.cpp L894-1013), cells in the order 0,
1, 2, 3, stopping at the first failure; `xy` are the tentative values `decompressed_u`,
`decompressed_v`, which replace the vertex in the second extraction. -/
def verifyLoop {T D J : Type} (toD : T → D) (C : Check D J) (r1 r2 : Nat) (m : Online2D.Field T)
    (p : Nat) (xy : D × D) : List Nat → Option Bool
  | [] => some true
  | k :: ks =>
    if inMesh4 r1 r2 (p / r2) (p % r2) k then
      match quadAt (rdVec toD (r1 * r2) m p) (cornerOff r2 k),
        quadAt (fun o => if o = 0 then some xy else rdVec toD (r1 * r2) m p o) (cornerOff r2 k) with
      | some q, some q' =>
        if sameCell C q q' then verifyLoop toD C r1 r2 m p xy ks else some false
      | _, _ => none
    else verifyLoop toD C r1 r2 m p xy ks

variable {T D J : Type}

/-- `decompressed_u` (src/sz_compress_cp_preserve_2d_bilinear.cpp L892-893): like the value stored
later (L1031-1032), but of type `double`; `exp2D` is `exp2` before the assignment to a `T`. -/
def backD (L : LOps T D) (exp2D : T → D) (negD : D → D) (x l : T) : D :=
  if L.pos x then exp2D l else negD (exp2D l)

/-- The verification of a vertex with tentative logarithms `xs`.
(src/sz_compress_cp_preserve_2d_bilinear.cpp L894-1013.) -/
def verifyB (L : LOps T D) (exp2D : T → D) (negD : D → D) (C : Check D J) (r1 r2 : Nat)
    (s : State T) (p : Nat) (xs : List T) : Option Bool :=
  match xs with
  | [l0, l1] => verifyLoop L.toD C r1 r2 (field2 s.val) p
      (backD L exp2D negD (s.val 0 p) l0, backD L exp2D negD (s.val 1 p) l1) [0, 1, 2, 3]
  | _ => none

/-- Loop body (src/sz_compress_cp_preserve_2d_bilinear.cpp L830-1042). -/
def encVertexB (L : LOps T D) (M : Mode T D) (bound : Online2D.Field T → Nat → Option D)
    (verify : State T → Nat → List T → Option Bool) (s : State T) (p : Nat) :
    Option (State T × VCode T) :=
  match bound (field2 s.val) p with
  | none => none
  | some req =>
    if L.lt (L.ofInt 0) req && !L.isZero (s.val 0 p) && !L.isZero (s.val 1 p) then
      let (eb, e) := ebQuant M.O.toDOps M.base M.logBase M.thr (L.log2 (L.add (L.ofInt 1) req))
      if 0 < e then
        match encComps M s.cod p eb (List.range M.K) with
        | none => some (s, .esc 0 (col M.K s.val p))
        | some rs =>
          let xs := rs.map (·.2)
          match verify s p xs with
          | none => none
          | some false => some (s, .esc 0 (col M.K s.val p))
          | some true =>
            some (⟨setCol s.cod p xs, setCol s.val p (List.zipWith M.back (col M.K s.val p) xs)⟩,
              .coded e (rs.map (·.1)))
      else some (s, .esc 0 (col M.K s.val p))
    else some (s, .esc 0 (col M.K s.val p))

/-- The compressor up to serialisation.  (src/sz_compress_cp_preserve_2d_bilinear.cpp L755-1046.) -/
def compressB (L : LOps T D) (M : Mode T D) (bound : Online2D.Field T → Nat → Option D)
    (verify : State T → Nat → List T → Option Bool) (n : Nat) (data : Arr T) :
    Option (State T × Streams T) :=
  match scanEnc (encVertexB L M bound verify) n 0 (initState M data) with
  | none => none
  | some (s, ws) =>
    some (s, ⟨ws.flatMap VCode.eb, ws.flatMap (VCode.dq M), ws.flatMap VCode.un⟩)

/-! ### Reduction to the generic per-vertex mode

The verification is moved into the plan: the vertex is planned lossless if quantisation succeeds
and verification fails. -/

/-- The decision before quantisation (src/sz_compress_cp_preserve_2d_bilinear.cpp L850-854). -/
def planB (L : LOps T D) (M : Mode T D) (bound : Online2D.Field T → Nat → Option D)
    (verify : State T → Nat → List T → Option Bool) (s : State T) (p : Nat) : Option (Plan D) :=
  match bound (field2 s.val) p with
  | none => none
  | some req =>
    if L.lt (L.ofInt 0) req && !L.isZero (s.val 0 p) && !L.isZero (s.val 1 p) then
      let a := L.log2 (L.add (L.ofInt 1) req)
      if 0 < (ebQuant M.O.toDOps M.base M.logBase M.thr a).2 then
        match encComps M s.cod p (ebQuant M.O.toDOps M.base M.logBase M.thr a).1 (List.range M.K) with
        | none => some (.try a 0)
        | some rs =>
          match verify s p (rs.map (·.2)) with
          | none => none
          | some false => some (.lossless 0)
          | some true => some (.try a 0)
      else some (.try a 0)
    else some (.lossless 0)

theorem encVertexB_eq (L : LOps T D) (M : Mode T D) (bound : Online2D.Field T → Nat → Option D)
    (verify : State T → Nat → List T → Option Bool) (s : State T) (p : Nat) :
    encVertexB L M bound verify s p = encVertex M (planB L M bound verify) s p := by
  unfold encVertexB encVertex planB
  cases hb : bound (field2 s.val) p with
  | none => rfl
  | some req =>
    simp only
    split
    · generalize hr : ebQuant M.O.toDOps M.base M.logBase M.thr (L.log2 (L.add (L.ofInt 1) req)) = r
      obtain ⟨eb, e⟩ := r
      simp only
      by_cases he : 0 < e
      · simp only [he, if_true]
        cases hc : encComps M s.cod p eb (List.range M.K) with
        | none => simp only [hr, he, if_true, hc]
        | some rs =>
          simp only
          cases hv : verify s p (rs.map (·.2)) with
          | none => rfl
          | some b =>
            cases b with
            | false => rfl
            | true => simp only [hr, he, if_true, hc]
      · simp only [he, if_false, hr]
    · rfl

theorem compressB_eq (L : LOps T D) (M : Mode T D) (bound : Online2D.Field T → Nat → Option D)
    (verify : State T → Nat → List T → Option Bool) (n : Nat) (data : Arr T) :
    compressB L M bound verify n data = compress M (planB L M bound verify) n data := by
  have : encVertexB L M bound verify = encVertex M (planB L M bound verify) := by
    funext s p; exact encVertexB_eq L M bound verify s p
  unfold compressB compress
  rw [this]
  cases scanEnc (encVertex M (planB L M bound verify)) n 0 (initState M data) <;> rfl

theorem planB_cases (L : LOps T D) (M : Mode T D) (bound : Online2D.Field T → Nat → Option D)
    (verify : State T → Nat → List T → Option Bool) (s : State T) (p : Nat) (r : Plan D)
    (h : planB L M bound verify s p = some r) :
    r = .lossless 0 ∨ ∃ req, bound (field2 s.val) p = some req ∧ L.lt (L.ofInt 0) req = true ∧
      L.isZero (s.val 0 p) = false ∧ L.isZero (s.val 1 p) = false ∧
      r = .try (L.log2 (L.add (L.ofInt 1) req)) 0 := by
  unfold planB at h
  split at h
  · cases h
  · rename_i req hreq
    split at h
    · rename_i hc
      simp only [Bool.and_eq_true, Bool.not_eq_true'] at hc
      have key : ∀ r', some r' = some r → (r' = .lossless 0 ∨
          r' = .try (L.log2 (L.add (L.ofInt 1) req)) 0) →
          r = .lossless 0 ∨ ∃ req, bound (field2 s.val) p = some req ∧
          L.lt (L.ofInt 0) req = true ∧ L.isZero (s.val 0 p) = false ∧
          L.isZero (s.val 1 p) = false ∧ r = .try (L.log2 (L.add (L.ofInt 1) req)) 0 := by
        intro r' hr' ho
        obtain rfl := Option.some.inj hr'
        rcases ho with ho | ho
        · exact Or.inl ho
        · exact Or.inr ⟨req, hreq, hc.1.1, hc.1.2, hc.2, ho⟩
      simp only at h
      split at h
      · split at h
        · exact key _ h (Or.inr rfl)
        · split at h
          · cases h
          · exact key _ h (Or.inl rfl)
          · exact key _ h (Or.inr rfl)
      · exact key _ h (Or.inr rfl)
    · exact Or.inl (Option.some.inj h).symm

/-- A coded vertex passed the verification. -/
theorem coded_verified {L : LOps T D} {M : Mode T D} {bound : Online2D.Field T → Nat → Option D}
    {verify : State T → Nat → List T → Option Bool} {s s' : State T} {p : Nat} {e : Int}
    {qs : List Int} (h : Coded M (planB L M bound verify) s s' p e qs) :
    ∃ rs : List (Int × T), rs.length = M.K ∧ verify s p (rs.map (·.2)) = some true ∧
      s'.val = setCol s.val p (List.zipWith M.back (col M.K s.val p) (rs.map (·.2))) := by
  obtain ⟨a, id, rs, hp, he, hpos, hr, -, -, h2⟩ := h.ex
  have hl := (encComps_spec M _ _ _ _ _ hr).1
  rw [List.length_range] at hl
  refine ⟨rs, hl, ?_, h2⟩
  rcases planB_cases L M bound verify s p _ hp with h0 | ⟨req, hb, c1, c2, c3, h0⟩
  · cases h0
  · simp only [Plan.try.injEq] at h0
    obtain ⟨rfl, rfl⟩ := h0
    unfold planB at hp
    rw [hb] at hp
    rw [he] at hpos
    simp only [c1, c2, c3, Bool.not_false, Bool.and_self, if_true, hpos, hr] at hp
    cases hv : verify s p (rs.map (·.2)) with
    | none => rw [hv] at hp; cases hp
    | some b =>
      cases b with
      | true => rfl
      | false => rw [hv] at hp; simp at hp

theorem goodB (L : LOps T D) (H : LogLaws L) (logBase thr : D) (r2 : Nat) (base radius : Int)
    (bound : Online2D.Field T → Nat → Option D) (verify : State T → Nat → List T → Option Bool)
    (n : Nat) :
    Good (mode2 L logBase thr r2 base radius)
      (planB L (mode2 L logBase thr r2 base radius) bound verify) n where
  pred_local := fun f g p h => Online2D.lorenzo_congr L.toOps r2 p f g h
  fwd_eq := logFwd_eq H
  esc_lossless := fun s p id h => by
    rcases planB_cases L _ bound verify s p _ h with h | ⟨_, _, _, _, _, h⟩
    · cases h; rfl
    · cases h
  esc_try := fun s p a id h => by
    rcases planB_cases L _ bound verify s p _ h with h | ⟨_, _, _, _, _, h⟩
    · cases h
    · cases h; rfl
  coded := fun s p a id _ _ hpos => by
    simp only [mode2] at hpos ⊢
    simp only [beq_eq_false_iff_ne, ne_eq]
    omega

/-! ### Adjacency -/

/-- The cell addressed by row `k` of the tables at vertex `(i, j)`. -/
def cellOf (i j k : Nat) : Cell :=
  match k with
  | 0 => ⟨i - 1, j - 1⟩
  | 1 => ⟨i, j - 1⟩
  | 2 => ⟨i, j⟩
  | _ => ⟨i - 1, j⟩

theorem inMesh4_iff (r1 r2 i j k : Nat) (hi : i < r1) (hj : j < r2) (hk : k < 4) :
    inMesh4 r1 r2 i j k = true ↔
      (cellOf i j k).inGrid r1 r2 ∧ (k = 0 → 1 ≤ i ∧ 1 ≤ j) ∧ (k = 1 → 1 ≤ j) ∧ (k = 3 → 1 ≤ i) := by
  have hk' : k = 0 ∨ k = 1 ∨ k = 2 ∨ k = 3 := by omega
  rcases hk' with rfl | rfl | rfl | rfl <;>
    simp [inMesh4, inRange, di4, dj4, tab, tx4, ty4, cellOf, Cell.inGrid] <;> omega

/-- Every grid cell with the vertex as corner is addressed by a table row. -/
theorem incident4 (r1 r2 i j : Nat) (c : Cell) (hi : i < r1) (hj : j < r2)
    (hc : c.inGrid r1 r2) (hv : (i, j) ∈ c.verts) :
    ∃ k, k < 4 ∧ inMesh4 r1 r2 i j k = true ∧ cellOf i j k = c := by
  obtain ⟨a, b⟩ := c
  simp only [Cell.verts, List.mem_cons, Prod.mk.injEq, List.not_mem_nil, or_false] at hv
  rcases hv with ⟨rfl, rfl⟩ | ⟨rfl, rfl⟩ | ⟨rfl, rfl⟩ | ⟨rfl, rfl⟩
  · exact ⟨2, by omega, (inMesh4_iff _ _ _ _ _ hi hj (by omega)).2 ⟨hc, by omega, by omega, by omega⟩, rfl⟩
  · exact ⟨1, by omega, (inMesh4_iff _ _ _ _ _ hi hj (by omega)).2 ⟨hc, by omega, by omega, by omega⟩, rfl⟩
  · exact ⟨0, by omega, (inMesh4_iff _ _ _ _ _ hi hj (by omega)).2 ⟨hc, by omega, by omega, by omega⟩, rfl⟩
  · exact ⟨3, by omega, (inMesh4_iff _ _ _ _ _ hi hj (by omega)).2 ⟨hc, by omega, by omega, by omega⟩, rfl⟩

theorem rd_flat (r1 r2 : Nat) (f : Nat → T) (a b : Nat) (ha : a < r1) (hb : b < r2) (x : Int)
    (hx : x = ((a * r2 + b : Nat) : Int)) : rd (r1 * r2) f x = some (f (a * r2 + b)) := by
  rw [hx]; exact rd_nat _ _ _ (flat_lt r1 r2 a b ha hb)

theorem rdVec_flat (toD : T → D) (r1 r2 : Nat) (m : Online2D.Field T) (a b p : Nat) (o : Int)
    (ha : a < r1) (hb : b < r2) (hx : (p : Int) + o = ((a * r2 + b : Nat) : Int)) :
    rdVec toD (r1 * r2) m p o = some (toD (m.u (a * r2 + b)), toD (m.v (a * r2 + b))) := by
  unfold rdVec
  rw [rd_flat r1 r2 m.u a b ha hb _ hx, rd_flat r1 r2 m.v a b ha hb _ hx]

/-- The first extraction sees the corners of the incident cell, the second the corners after the
vertex was set. -/
theorem quads_eq (toD : T → D) (r1 r2 : Nat) (m : Online2D.Field T) (i j k : Nat) (hi : i < r1)
    (hj : j < r2) (hk : k < 4) (h : inMesh4 r1 r2 i j k = true) (x y : T) :
    quadAt (rdVec toD (r1 * r2) m (i * r2 + j)) (cornerOff r2 k) =
        some ((cellOf i j k).quad toD r2 m) ∧
    quadAt (fun o => if o = 0 then some (toD x, toD y) else rdVec toD (r1 * r2) m (i * r2 + j) o)
        (cornerOff r2 k) = some ((cellOf i j k).quad toD r2 (m.set (i * r2 + j) x y)) := by
  obtain ⟨hg, h0, h1, h3⟩ := (inMesh4_iff r1 r2 i j k hi hj hk).1 h
  have hk' : k = 0 ∨ k = 1 ∨ k = 2 ∨ k = 3 := by omega
  have hne : ∀ a b : Nat, b < r2 → (a, b) ≠ (i, j) → a * r2 + b ≠ i * r2 + j := by
    intro a b hb hab he
    apply hab
    have e1 : (a * r2 + b) % r2 = (i * r2 + j) % r2 := by rw [he]
    have e2 : (a * r2 + b) / r2 = (i * r2 + j) / r2 := by rw [he]
    rw [Nat.mul_add_mod_self_right, Nat.mul_add_mod_self_right, Nat.mod_eq_of_lt hb,
      Nat.mod_eq_of_lt hj] at e1
    rw [Nat.mul_comm a, Nat.mul_comm i, Nat.mul_add_div (by omega), Nat.mul_add_div (by omega),
      Nat.div_eq_of_lt hb, Nat.div_eq_of_lt hj] at e2
    simp only [Nat.add_zero] at e2
    rw [e1, e2]
  have hset : ∀ a b : Nat, b < r2 → (a, b) ≠ (i, j) →
      (m.set (i * r2 + j) x y).u (a * r2 + b) = m.u (a * r2 + b) ∧
      (m.set (i * r2 + j) x y).v (a * r2 + b) = m.v (a * r2 + b) := by
    intro a b hb hab
    have := hne a b hb hab
    simp [Online2D.Field.set, Online2D.setAt, this]
  have hsame : (m.set (i * r2 + j) x y).u (i * r2 + j) = x ∧
      (m.set (i * r2 + j) x y).v (i * r2 + j) = y := by
    simp [Online2D.Field.set, Online2D.setAt]
  rcases hk' with rfl | rfl | rfl | rfl
  · obtain ⟨i, rfl⟩ : ∃ i', i = i' + 1 := ⟨i - 1, by have := h0 rfl; omega⟩
    obtain ⟨j, rfl⟩ : ∃ j', j = j' + 1 := ⟨j - 1, by have := h0 rfl; omega⟩
    have e0 := rdVec_flat toD r1 r2 m i j ((i + 1) * r2 + (j + 1)) (-1 - r2) (by omega) (by omega)
      (by push_cast; ring)
    have e1 := rdVec_flat toD r1 r2 m i (j + 1) ((i + 1) * r2 + (j + 1)) (-r2) (by omega) hj
      (by push_cast; ring)
    have e2 := rdVec_flat toD r1 r2 m (i + 1) (j + 1) ((i + 1) * r2 + (j + 1)) 0 hi hj
      (by push_cast; ring)
    have e3 := rdVec_flat toD r1 r2 m (i + 1) j ((i + 1) * r2 + (j + 1)) (-1) hi (by omega)
      (by push_cast; ring)
    have s0 := hset i j (by omega) (by simp)
    have s1 := hset i (j + 1) (by omega) (by simp)
    have s3 := hset (i + 1) j (by omega) (by simp)
    have n0 : (-1 - (r2 : Int)) ≠ 0 := by omega
    have n1 : (-(r2 : Int)) ≠ 0 := by omega
    constructor
    · simp only [cornerOff, List.getD_cons_zero, quadAt, e0, e1, e2, e3]
      rfl
    · simp only [cornerOff, List.getD_cons_zero, quadAt, if_neg n0, if_neg n1, if_true,
        if_neg (show (-1 : Int) ≠ 0 by omega), e0, e1, e3, Cell.quad, cellOf, Nat.add_sub_cancel,
        s0.1, s0.2, s1.1, s1.2, s3.1, s3.2, hsame.1, hsame.2]
  · obtain ⟨j, rfl⟩ : ∃ j', j = j' + 1 := ⟨j - 1, by have := h1 rfl; omega⟩
    have hg1 : i + 1 < r1 := hg.1
    have e0 := rdVec_flat toD r1 r2 m i j (i * r2 + (j + 1)) (-1) (by omega) (by omega)
      (by push_cast; ring)
    have e1 := rdVec_flat toD r1 r2 m i (j + 1) (i * r2 + (j + 1)) 0 (by omega) hj
      (by push_cast; ring)
    have e2 := rdVec_flat toD r1 r2 m (i + 1) (j + 1) (i * r2 + (j + 1)) r2 hg1 hj
      (by push_cast; ring)
    have e3 := rdVec_flat toD r1 r2 m (i + 1) j (i * r2 + (j + 1)) (r2 - 1) hg1 (by omega)
      (by push_cast; ring)
    have s0 := hset i j (by omega) (by simp)
    have s2 := hset (i + 1) (j + 1) (by omega) (by simp)
    have s3 := hset (i + 1) j (by omega) (by simp)
    have n2 : (r2 : Int) ≠ 0 := by omega
    have n3 : (r2 : Int) - 1 ≠ 0 := by omega
    constructor
    · simp only [cornerOff, List.getD_cons_zero, List.getD_cons_succ, quadAt, e0, e1, e2, e3]
      rfl
    · simp only [cornerOff, List.getD_cons_zero, List.getD_cons_succ, quadAt, if_neg n2, if_neg n3,
        if_true, if_neg (show (-1 : Int) ≠ 0 by omega), e0, e2, e3, Cell.quad, cellOf,
        Nat.add_sub_cancel, s0.1, s0.2, s2.1, s2.2, s3.1, s3.2, hsame.1, hsame.2]
  · have hg1 : i + 1 < r1 := hg.1
    have hg2 : j + 1 < r2 := hg.2
    have e0 := rdVec_flat toD r1 r2 m i j (i * r2 + j) 0 (by omega) (by omega)
      (by push_cast; ring)
    have e1 := rdVec_flat toD r1 r2 m i (j + 1) (i * r2 + j) 1 (by omega) hg2
      (by push_cast; ring)
    have e2 := rdVec_flat toD r1 r2 m (i + 1) (j + 1) (i * r2 + j) (r2 + 1) hg1 hg2
      (by push_cast; ring)
    have e3 := rdVec_flat toD r1 r2 m (i + 1) j (i * r2 + j) r2 hg1 (by omega)
      (by push_cast; ring)
    have s1 := hset i (j + 1) (by omega) (by simp)
    have s2 := hset (i + 1) (j + 1) (by omega) (by simp)
    have s3 := hset (i + 1) j (by omega) (by simp)
    have n2 : (r2 : Int) + 1 ≠ 0 := by omega
    have n3 : (r2 : Int) ≠ 0 := by omega
    constructor
    · simp only [cornerOff, List.getD_cons_zero, List.getD_cons_succ, quadAt, e0, e1, e2, e3]
      rfl
    · simp only [cornerOff, List.getD_cons_zero, List.getD_cons_succ, quadAt, if_neg n2, if_neg n3,
        if_true, if_neg (show (1 : Int) ≠ 0 by omega), e1, e2, e3, Cell.quad, cellOf,
        s1.1, s1.2, s2.1, s2.2, s3.1, s3.2, hsame.1, hsame.2]
  · obtain ⟨i, rfl⟩ : ∃ i', i = i' + 1 := ⟨i - 1, by have := h3 rfl; omega⟩
    have hg2 : j + 1 < r2 := hg.2
    have e0 := rdVec_flat toD r1 r2 m i j ((i + 1) * r2 + j) (-r2) (by omega) (by omega)
      (by push_cast; ring)
    have e1 := rdVec_flat toD r1 r2 m i (j + 1) ((i + 1) * r2 + j) (-r2 + 1) (by omega) hg2
      (by push_cast; ring)
    have e2 := rdVec_flat toD r1 r2 m (i + 1) (j + 1) ((i + 1) * r2 + j) 1 hi hg2
      (by push_cast; ring)
    have e3 := rdVec_flat toD r1 r2 m (i + 1) j ((i + 1) * r2 + j) 0 hi (by omega)
      (by push_cast; ring)
    have s0 := hset i j (by omega) (by simp)
    have s1 := hset i (j + 1) (by omega) (by simp)
    have s2 := hset (i + 1) (j + 1) (by omega) (by simp)
    have n0 : (-(r2 : Int)) ≠ 0 := by omega
    have n1 : (-(r2 : Int)) + 1 ≠ 0 := by omega
    constructor
    · simp only [cornerOff, List.getD_cons_zero, List.getD_cons_succ, quadAt, e0, e1, e2, e3]
      rfl
    · simp only [cornerOff, List.getD_cons_zero, List.getD_cons_succ, quadAt, if_neg n0, if_neg n1,
        if_true, if_neg (show (1 : Int) ≠ 0 by omega), e0, e1, e2, Cell.quad, cellOf,
        Nat.add_sub_cancel, s0.1, s0.2, s1.1, s1.2, s2.1, s2.2, hsame.1, hsame.2]

/-- No read of the bound computation is out of bounds. -/
theorem boundLoop_defined (r1 r2 : Nat) (minf : D → D → D)
    (derive : T → T → T → T → T → T → T → T → D) (m : Online2D.Field T) (p : Nat)
    (hp : p < r1 * r2) (ks : List Nat) (hks : ∀ k ∈ ks, k < 4) (req : D) :
    (boundLoop r1 r2 minf derive m p ks req).isSome := by
  obtain ⟨hi, hj, hpe⟩ := Online2D.flat_split hp
  generalize p / r2 = i at *
  generalize p % r2 = j at *
  subst hpe
  induction ks generalizing req with
  | nil => rfl
  | cons k ks ih =>
    have hk := hks k (List.mem_cons_self ..)
    have ih := fun req => ih (fun k' h => hks k' (List.mem_cons_of_mem _ h)) req
    obtain ⟨hi', hj', -⟩ := Online2D.flat_split hp
    have hd : (i * r2 + j) / r2 = i := by
      rw [Nat.mul_comm, Nat.mul_add_div (by omega), Nat.div_eq_of_lt hj]; rfl
    have hm : (i * r2 + j) % r2 = j := by
      rw [Nat.mul_add_mod_self_right, Nat.mod_eq_of_lt hj]
    unfold boundLoop
    rw [hd, hm]
    split
    · rename_i hmesh
      have rdv : ∀ (f : Nat → T) o, (0 ≤ ((i * r2 + j : Nat) : Int) + o ∧
          ((i * r2 + j : Nat) : Int) + o < ((r1 * r2 : Nat) : Int)) →
          ∃ x, rd (r1 * r2) f (((i * r2 + j : Nat) : Int) + o) = some x := by
        intro f o h
        exact ⟨_, if_pos h⟩
      have hr : ∀ q, q < 3 → (0 ≤ ((i * r2 + j : Nat) : Int) + offsets9 r2 (2 * k + q) ∧
          ((i * r2 + j : Nat) : Int) + offsets9 r2 (2 * k + q) < ((r1 * r2 : Nat) : Int)) := by
        intro q hq
        obtain ⟨hg, h0, h1, h3⟩ := (inMesh4_iff r1 r2 i j k hi hj hk).1 hmesh
        have fl : ∀ (a b : Nat) (o : Int), a < r1 → b < r2 →
            ((i * r2 + j : Nat) : Int) + o = ((a * r2 + b : Nat) : Int) →
            0 ≤ ((i * r2 + j : Nat) : Int) + o ∧
            ((i * r2 + j : Nat) : Int) + o < ((r1 * r2 : Nat) : Int) := by
          intro a b o ha hb he
          have := flat_lt r1 r2 a b ha hb
          rw [he]; omega
        have hk' : k = 0 ∨ k = 1 ∨ k = 2 ∨ k = 3 := by omega
        have hq' : q = 0 ∨ q = 1 ∨ q = 2 := by omega
        rcases hk' with rfl | rfl | rfl | rfl
        · obtain ⟨i, rfl⟩ : ∃ i', i = i' + 1 := ⟨i - 1, by have := h0 rfl; omega⟩
          obtain ⟨j, rfl⟩ : ∃ j', j = j' + 1 := ⟨j - 1, by have := h0 rfl; omega⟩
          rcases hq' with rfl | rfl | rfl
          · exact fl i (j + 1) _ (by omega) hj (by simp [offsets9]; ring)
          · exact fl i j _ (by omega) (by omega) (by simp [offsets9]; ring)
          · exact fl (i + 1) j _ hi (by omega) (by simp [offsets9]; ring)
        · obtain ⟨j, rfl⟩ : ∃ j', j = j' + 1 := ⟨j - 1, by have := h1 rfl; omega⟩
          have hg1 : i + 1 < r1 := hg.1
          rcases hq' with rfl | rfl | rfl
          · exact fl i j _ hi (by omega) (by simp [offsets9]; ring)
          · exact fl (i + 1) j _ hg1 (by omega) (by simp [offsets9]; ring)
          · exact fl (i + 1) (j + 1) _ hg1 hj (by simp [offsets9]; ring)
        · have hg1 : i + 1 < r1 := hg.1
          have hg2 : j + 1 < r2 := hg.2
          rcases hq' with rfl | rfl | rfl
          · exact fl (i + 1) j _ hg1 hj (by simp [offsets9]; ring)
          · exact fl (i + 1) (j + 1) _ hg1 hg2 (by simp [offsets9]; ring)
          · exact fl i (j + 1) _ hi hg2 (by simp [offsets9]; ring)
        · obtain ⟨i, rfl⟩ : ∃ i', i = i' + 1 := ⟨i - 1, by have := h3 rfl; omega⟩
          have hg2 : j + 1 < r2 := hg.2
          rcases hq' with rfl | rfl | rfl
          · exact fl (i + 1) (j + 1) _ hi hg2 (by simp [offsets9]; ring)
          · exact fl i (j + 1) _ (by omega) hg2 (by simp [offsets9]; ring)
          · exact fl i j _ (by omega) hj (by simp [offsets9]; ring)
      obtain ⟨u0, hu0⟩ := rdv m.u _ (hr 0 (by omega))
      obtain ⟨u1, hu1⟩ := rdv m.u _ (hr 1 (by omega))
      obtain ⟨u2, hu2⟩ := rdv m.u _ (hr 2 (by omega))
      obtain ⟨v0, hv0⟩ := rdv m.v _ (hr 0 (by omega))
      obtain ⟨v1, hv1⟩ := rdv m.v _ (hr 1 (by omega))
      obtain ⟨v2, hv2⟩ := rdv m.v _ (hr 2 (by omega))
      rw [Nat.add_zero] at hu0 hv0
      simp only [hu0, hu1, hu2, hv0, hv1, hv2]
      exact ih _
    · exact ih _

/-- The list of types found in a cell: number of critical points and type of each. -/
def Check.sig {D J : Type} (C : Check D J) (q : Quad D) : List Int := (C.extract q).map C.ctype

theorem sameCell_iff (C : Check D J) (q q' : Quad D) :
    sameCell C q q' = true ↔ C.sig q = C.sig q' := by
  unfold sameCell verifyTypes Check.sig
  generalize C.extract q = l
  generalize C.extract q' = l'
  simp only [Bool.and_eq_true, beq_iff_eq, List.all_eq_true, List.mem_range]
  constructor
  · rintro ⟨hl, h⟩
    apply List.ext_getElem
    · simpa using hl
    · intro i h1 h2
      simp only [List.length_map] at h1 h2
      have := h i h1
      rw [List.getElem?_eq_getElem h1, List.getElem?_eq_getElem h2] at this
      simpa using this
  · intro h
    have hl : l.length = l'.length := by simpa using congrArg List.length h
    refine ⟨hl, fun i hi => ?_⟩
    have hi' : i < l'.length := by omega
    rw [List.getElem?_eq_getElem hi, List.getElem?_eq_getElem hi']
    simp only [beq_iff_eq]
    have := List.getElem_of_eq h (i := i) (by simpa using hi)
    simpa using this

/-- No read of the verification is out of bounds, and a vertex that passes leaves the types found
in every grid cell unchanged. -/
theorem verifyLoop_spec (toD : T → D) (C : Check D J) (r1 r2 : Nat) (m : Online2D.Field T)
    (i j : Nat) (hi : i < r1) (hj : j < r2) (x y : T) (ks : List Nat) (hks : ∀ k ∈ ks, k < 4) :
    ∃ b, verifyLoop toD C r1 r2 m (i * r2 + j) (toD x, toD y) ks = some b ∧
      (b = true → ∀ k ∈ ks, inMesh4 r1 r2 i j k = true →
        C.sig ((cellOf i j k).quad toD r2 m) =
          C.sig ((cellOf i j k).quad toD r2 (m.set (i * r2 + j) x y))) := by
  have hd : (i * r2 + j) / r2 = i := by
    rw [Nat.mul_comm, Nat.mul_add_div (by omega), Nat.div_eq_of_lt hj]; rfl
  have hm : (i * r2 + j) % r2 = j := by
    rw [Nat.mul_add_mod_self_right, Nat.mod_eq_of_lt hj]
  induction ks with
  | nil => exact ⟨true, rfl, fun _ k hk => by simp at hk⟩
  | cons k ks ih =>
    obtain ⟨b, hb, hb'⟩ := ih (fun k' h => hks k' (List.mem_cons_of_mem _ h))
    have hk := hks k (List.mem_cons_self ..)
    unfold verifyLoop
    rw [hd, hm]
    cases hmesh : inMesh4 r1 r2 i j k with
    | false =>
      refine ⟨b, by simpa using hb, fun h k' hk' hin => ?_⟩
      rcases List.mem_cons.1 hk' with rfl | hk'
      · rw [hmesh] at hin; cases hin
      · exact hb' h k' hk' hin
    | true =>
      obtain ⟨q1, q2⟩ := quads_eq toD r1 r2 m i j k hi hj hk hmesh x y
      rw [q1, q2]
      simp only [if_true]
      cases hs : sameCell C ((cellOf i j k).quad toD r2 m)
          ((cellOf i j k).quad toD r2 (m.set (i * r2 + j) x y)) with
      | false => exact ⟨false, by simp, fun h => by cases h⟩
      | true =>
        refine ⟨b, by simpa using hb, fun h k' hk' hin => ?_⟩
        rcases List.mem_cons.1 hk' with rfl | hk'
        · exact (sameCell_iff C _ _).1 hs
        · exact hb' h k' hk' hin

/-- Setting a vertex does not affect cells it is not a corner of. -/
theorem quad_set_ne (toD : T → D) (r1 r2 : Nat) (m : Online2D.Field T) (i j : Nat) (hj : j < r2)
    (c : Cell) (hc : c.inGrid r1 r2) (hv : (i, j) ∉ c.verts) (x y : T) :
    c.quad toD r2 (m.set (i * r2 + j) x y) = c.quad toD r2 m := by
  have hne : ∀ a b : Nat, b < r2 → (a, b) ∈ c.verts → a * r2 + b ≠ i * r2 + j := by
    intro a b hb hab he
    have e1 : (a * r2 + b) % r2 = (i * r2 + j) % r2 := by rw [he]
    have e2 : (a * r2 + b) / r2 = (i * r2 + j) / r2 := by rw [he]
    rw [Nat.mul_add_mod_self_right, Nat.mul_add_mod_self_right, Nat.mod_eq_of_lt hb,
      Nat.mod_eq_of_lt hj] at e1
    rw [Nat.mul_comm a, Nat.mul_comm i, Nat.mul_add_div (by omega), Nat.mul_add_div (by omega),
      Nat.div_eq_of_lt hb, Nat.div_eq_of_lt hj] at e2
    simp only [Nat.add_zero] at e2
    rw [e1, e2] at hab
    exact hv hab
  have hset : ∀ a b : Nat, b < r2 → (a, b) ∈ c.verts →
      (m.set (i * r2 + j) x y).u (a * r2 + b) = m.u (a * r2 + b) ∧
      (m.set (i * r2 + j) x y).v (a * r2 + b) = m.v (a * r2 + b) := by
    intro a b hb hab
    have := hne a b hb hab
    simp [Online2D.Field.set, Online2D.setAt, this]
  obtain ⟨hc1, hc2⟩ := hc
  have s0 := hset c.a c.b (by omega) (by simp [Cell.verts])
  have s1 := hset c.a (c.b + 1) (by omega) (by simp [Cell.verts])
  have s2 := hset (c.a + 1) (c.b + 1) (by omega) (by simp [Cell.verts])
  have s3 := hset (c.a + 1) c.b (by omega) (by simp [Cell.verts])
  simp only [Cell.quad, s0.1, s0.2, s1.1, s1.2, s2.1, s2.2, s3.1, s3.2]

/-- The value verified is the value stored: the `double` the verification uses is the stored `T`
converted to `double`.  True for `T = double`; for `T = float` only if `exp2` is computed in
single precision. -/
def StoredIsVerified (L : LOps T D) (exp2D : T → D) (negD : D → D) : Prop :=
  ∀ x l, L.toD (logBack L x l) = backD L exp2D negD x l

theorem verifyB_spec_at {L : LOps T D} {exp2D : T → D} {negD : D → D}
    (C : Check D J) (r1 r2 : Nat) (s : State T) (p : Nat) (hp : p < r1 * r2) (l0 l1 : T)
    (h0 : L.toD (logBack L (s.val 0 p) l0) = backD L exp2D negD (s.val 0 p) l0)
    (h1 : L.toD (logBack L (s.val 1 p) l1) = backD L exp2D negD (s.val 1 p) l1) :
    ∃ b, verifyB L exp2D negD C r1 r2 s p [l0, l1] = some b ∧
      (b = true → ∀ c : Cell, c.inGrid r1 r2 → C.sig (c.quad L.toD r2 (field2 s.val)) =
        C.sig (c.quad L.toD r2 ((field2 s.val).set p (logBack L (s.val 0 p) l0)
          (logBack L (s.val 1 p) l1)))) := by
  obtain ⟨hi, hj, hpe⟩ := Online2D.flat_split hp
  obtain ⟨b, hb, hb'⟩ := verifyLoop_spec L.toD C r1 r2 (field2 s.val) (p / r2) (p % r2) hi hj
    (logBack L (s.val 0 p) l0) (logBack L (s.val 1 p) l1) [0, 1, 2, 3] (by simp)
  rw [hpe] at hb hb'
  rw [h0, h1] at hb
  refine ⟨b, hb, fun h c hc => ?_⟩
  by_cases hv : (p / r2, p % r2) ∈ c.verts
  · obtain ⟨k, hk, hmesh, rfl⟩ := incident4 r1 r2 _ _ c hi hj hc hv
    exact hb' h k (by have : k = 0 ∨ k = 1 ∨ k = 2 ∨ k = 3 := by omega
                      simpa using this) hmesh
  · have := quad_set_ne L.toD r1 r2 (field2 s.val) (p / r2) (p % r2) hj c hc hv
      (logBack L (s.val 0 p) l0) (logBack L (s.val 1 p) l1)
    rw [hpe] at this
    rw [this]

theorem verifyB_spec {L : LOps T D} {exp2D : T → D} {negD : D → D}
    (HS : StoredIsVerified L exp2D negD) (C : Check D J) (r1 r2 : Nat) (s : State T) (p : Nat)
    (hp : p < r1 * r2) (l0 l1 : T) :
    ∃ b, verifyB L exp2D negD C r1 r2 s p [l0, l1] = some b ∧
      (b = true → ∀ c : Cell, c.inGrid r1 r2 → C.sig (c.quad L.toD r2 (field2 s.val)) =
        C.sig (c.quad L.toD r2 ((field2 s.val).set p (logBack L (s.val 0 p) l0)
          (logBack L (s.val 1 p) l1)))) :=
  verifyB_spec_at C r1 r2 s p hp l0 l1 (HS _ _) (HS _ _)

/-- The compressor is defined on every grid (no read out of bounds), without assumptions on the
arithmetic. -/
theorem verifyLoop_defined (toD : T → D) (C : Check D J) (r1 r2 : Nat) (m : Online2D.Field T)
    (p : Nat) (hp : p < r1 * r2) (xy : D × D) (ks : List Nat) (hks : ∀ k ∈ ks, k < 4) :
    (verifyLoop toD C r1 r2 m p xy ks).isSome := by
  obtain ⟨hi, hj, hpe⟩ := Online2D.flat_split hp
  induction ks with
  | nil => rfl
  | cons k ks ih =>
    have ih := ih (fun k' h => hks k' (List.mem_cons_of_mem _ h))
    have hk := hks k (List.mem_cons_self ..)
    unfold verifyLoop
    cases hmesh : inMesh4 r1 r2 (p / r2) (p % r2) k with
    | false => simpa using ih
    | true =>
      have h1 := (quads_eq toD r1 r2 m _ _ k hi hj hk hmesh (m.u 0) (m.v 0)).1
      have h2 : ∃ q, quadAt (fun o => if o = 0 then some xy else rdVec toD (r1 * r2) m p o)
          (cornerOff r2 k) = some q := by
        rw [hpe] at h1
        have hk' : k = 0 ∨ k = 1 ∨ k = 2 ∨ k = 3 := by omega
        have key : ∀ o0 o1 o2 o3 q, quadAt (rdVec toD (r1 * r2) m p) [o0, o1, o2, o3] = some q →
            ∃ q', quadAt (fun o => if o = 0 then some xy else rdVec toD (r1 * r2) m p o)
              [o0, o1, o2, o3] = some q' := by
          intro o0 o1 o2 o3 q hq
          simp only [quadAt] at hq
          split at hq
          · rename_i a b c d ha hb hc hd
            simp only [quadAt]
            have pick : ∀ o r, rdVec toD (r1 * r2) m p o = some r →
                ∃ r', (if o = 0 then some xy else rdVec toD (r1 * r2) m p o) = some r' := by
              intro o r hr
              split
              · exact ⟨_, rfl⟩
              · exact ⟨_, hr⟩
            obtain ⟨a', ha'⟩ := pick _ _ ha
            obtain ⟨b', hb'⟩ := pick _ _ hb
            obtain ⟨c', hc'⟩ := pick _ _ hc
            obtain ⟨d', hd'⟩ := pick _ _ hd
            exact ⟨⟨a', b', c', d'⟩, by rw [ha', hb', hc', hd']⟩
          · cases hq
        rcases hk' with rfl | rfl | rfl | rfl <;> exact key _ _ _ _ _ h1
      rw [hpe] at h1
      obtain ⟨q', hq'⟩ := h2
      rw [h1, hq']
      simp only [if_true]
      split
      · exact ih
      · rfl

theorem boundB_defined (r1 r2 : Nat) (maxEb : D) (minf : D → D → D)
    (derive : T → T → T → T → T → T → T → T → D) (m : Online2D.Field T) (p : Nat)
    (hp : p < r1 * r2) : (boundB r1 r2 maxEb minf derive m p).isSome :=
  boundLoop_defined r1 r2 minf derive m p hp _ (by simp) _

end CpSZ.VMode.Bilinear
