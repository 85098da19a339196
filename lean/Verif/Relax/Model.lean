import Verif.Online2D.Bytes
import Verif.Mesh2D
/-
Model of `sz_compress_cp_preserve_2d_online_abs_relax_FN`
(src/sz_compress_cp_preserve_2d.cpp L1328-1530) with `compute_cp` (L1300-1326).  The cell test
`check_cp` (L1291-1298) is a
parameter `chk`; it is instantiated in `Verif/Relax/Real.lean`.  The stream is that of the
other 2D online modes, the decompressor is `sz_decompress_cp_preserve_2d_online`.
-/

namespace CpSZ.Online2D.Relax

open CpSZ.Mesh2D

variable {T D : Type}

/-- The operations on the element type that this mode uses in addition.
(src/sz_compress_cp_preserve_2d.cpp L1431-1455.) -/
structure ROps (T D : Type) extends Ops T D where
  /-- `T quant_diff = std::abs(diff) / abs_eb + 1` (L1444); `none` is an infinite result or
  NaN, for which the comparison in L1445 is false -/
  quot : T → D → Option T
  /-- `quant_diff < capacity` -/
  ltInt : T → Int → Bool
  /-- `diff > 0` -/
  pos : T → Bool
  negT : T → T
  /-- `(int)(quant_diff/2)` -/
  half : T → Int
  /-- `x == 0` -/
  isZero : T → Bool

/-- A test of three vectors for a critical point.  (src/sz_compress_cp_preserve_2d.cpp L1291-1298.)
-/
abbrev Test (T : Type) := T × T → T × T → T × T → Bool

/-- The vector at a grid point.  (src/sz_compress_cp_preserve_2d.cpp L1300-1326.) -/
def vecAt (r2 : Nat) (m : Field T) (P : Nat × Nat) : T × T :=
  (m.u (P.1 * r2 + P.2), m.v (P.1 * r2 + P.2))

/-- `cp_exist` (`compute_cp`, src/sz_compress_cp_preserve_2d.cpp L1300-1326): entry
`2*(i*(r2-1)+j)+s` is the test of half `s` of grid cell `(i,j)`.  The loops are written as a
function of the entry. -/
def cpExist (chk : Test T) (r2 : Nat) (m : Field T) (c : Nat) : Bool :=
  let i := c / 2 / (r2 - 1)
  let j := c / 2 % (r2 - 1)
  if c % 2 = 0 then
    chk (vecAt r2 m (i, j)) (vecAt r2 m (i + 1, j)) (vecAt r2 m (i + 1, j + 1))
  else
    chk (vecAt r2 m (i, j)) (vecAt r2 m (i, j + 1)) (vecAt r2 m (i + 1, j + 1))

/-- `cell_offset` (src/sz_compress_cp_preserve_2d.cpp L1384-1386). -/
def cellOffset (r2 : Nat) (k : Nat) : Int :=
  [-2 * ((r2 : Int) - 1) - 1, -2 * ((r2 : Int) - 1) - 2, -1, 0, 1, -2 * ((r2 : Int) - 1)].getD k 0

/-- The loop src/sz_compress_cp_preserve_2d.cpp L1406-1426: does an incident cell of the original
field test positive?  Reading outside of `cp_exist` is `none`. -/
def incidentCP (r1 r2 : Nat) (cp : Nat → Bool) (p : Nat) : List Nat → Option Bool
  | [] => some false
  | k :: ks =>
    if inMesh r1 r2 (p / r2) (p % r2) k then
      match rd (2 * (r1 - 1) * (r2 - 1)) cp
        (2 * ((p / r2 : Nat) * ((r2 : Int) - 1) + (p % r2 : Nat)) + cellOffset r2 k) with
      | none => none
      | some true => some true
      | some false => incidentCP r1 r2 cp p ks
    else incidentCP r1 r2 cp p ks

/-- src/sz_compress_cp_preserve_2d.cpp L1431-1455 for one component: code and tentative value,
`none` if `unpred_flag` is set. There is no comparison of the tentative value with the original
one. -/
def tentative (O : ROps T D) (P : Par D) (r2 : Nat) (f : Nat → T) (p : Nat) (eb : D) :
    Option (Int × T) :=
  let pred := lorenzo O.toOps r2 f p
  let diff := O.subT (f p) pred
  match O.quot diff eb with
  | none => none
  | some qd =>
    if O.ltInt qd P.capacity then
      let q := O.half (if O.pos diff then qd else O.negT qd) + P.radius
      some (q, O.ofD (O.add (O.toD pred) (linOffset O.toDOps eb P.radius q)))
    else none

/-- The verification loop src/sz_compress_cp_preserve_2d.cpp L1458-1482: `some true` if no incident
cell tests positive with the tentative values. -/
def verified (chk : Test T) (r1 r2 : Nat) (m : Field T) (p : Nat) (x y : T) :
    List Nat → Option Bool
  | [] => some true
  | k :: ks =>
    if inMesh r1 r2 (p / r2) (p % r2) k then
      match rd (r1 * r2) m.u (p + offsets r2 k), rd (r1 * r2) m.u (p + offsets r2 (k + 1)),
        rd (r1 * r2) m.v (p + offsets r2 k), rd (r1 * r2) m.v (p + offsets r2 (k + 1)) with
      | some u0, some u1, some v0, some v1 =>
        if chk (u0, v0) (u1, v1) (x, y) then some false
        else verified chk r1 r2 m p x y ks
      | _, _, _, _ => none
    else verified chk r1 r2 m p x y ks

/-- Accepted vertex: bound code, data codes, values. 
(src/sz_compress_cp_preserve_2d.cpp L1397-1507.) -/
structure Coded (T : Type) where
  id : Int
  q0 : Int
  q1 : Int
  x : T
  y : T

/-- The loop src/sz_compress_cp_preserve_2d.cpp L1427-1490 from a value of `count` and of `abs_eb`
on: the new `count` and the accepted values, or `none` for a lossless vertex.  The outer `none` is
undefined behaviour. (`count` is an `int` that is never reset; it is a natural number here.)
`left` bounds the number of further rounds; the loop starts with `max_count - count` and does not
reach zero before `count > max_count` holds. -/
def relaxLoop (O : ROps T D) (P : Par D) (maxCount : Nat) (chk : Test T) (r1 r2 : Nat)
    (m : Field T) (p : Nat) (left count : Nat) (absEb : D) : Option (Nat × Option (Coded T)) :=
  let e := ebQuant O.toDOps P.base P.logBase P.thr absEb
  match tentative O P r2 m.u p e.1, tentative O P r2 m.v p e.1 with
  | some (q0, x), some (q1, y) =>
    match verified chk r1 r2 m p x y [0, 1, 2, 3, 4, 5] with
    | none => none
    | some true => some (count + 1, some ⟨e.2, q0, q1, x, y⟩)
    | some false =>
      if maxCount < count + 1 then some (count + 1, none)
      else
        match left with
        | 0 => none
        | left + 1 => relaxLoop O P maxCount chk r1 r2 m p left (count + 1) (O.div e.1 (O.ofInt 2))
  | _, _ => some (count, none)

/-- Body of the double loop (src/sz_compress_cp_preserve_2d.cpp L1397-1507) on the mirror arrays
and `count`. -/
def encVertex (O : ROps T D) (P : Par D) (maxCount : Nat) (chk : Test T) (r1 r2 : Nat)
    (cp : Nat → Bool) (maxEb : D) (s : Field T × Nat) (p : Nat) :
    Option ((Field T × Nat) × VCode T) :=
  let lossless : VCode T := .lossless (s.1.u p) (s.1.v p)
  if O.isZero (s.1.u p) && O.isZero (s.1.v p) then some (s, lossless)
  else
    match incidentCP r1 r2 cp p [0, 1, 2, 3, 4, 5] with
    | none => none
    | some true => some (s, lossless)
    | some false =>
      match relaxLoop O P maxCount chk r1 r2 s.1 p (maxCount - s.2) s.2 maxEb with
      | none => none
      | some (n, none) => some ((s.1, n), lossless)
      | some (n, some w) => some ((s.1.set p w.x w.y, n), .coded w.id w.id w.q0 w.q1)

/-- src/sz_compress_cp_preserve_2d.cpp L1331-1511: reconstruction and streams (`max_count = 1` in
the code). -/
def compress (O : ROps T D) (P : Par D) (maxCount : Nat) (chk : Test T) (r1 r2 : Nat) (maxEb : D)
    (m : Field T) : Option (Field T × Streams T) :=
  match scanEnc (encVertex O P maxCount chk r1 r2 (cpExist chk r2 m) maxEb) (r1 * r2) 0 (m, 0) with
  | none => none
  | some (s, ws) =>
    some (s.1, ⟨ws.flatMap VCode.eb, ws.flatMap (VCode.dq P.radius), ws.flatMap VCode.un⟩)

/-- The bytes (src/sz_compress_cp_preserve_2d.cpp L1515-1529). -/
def compressBytes (O : ROps T D) (c : Codec T) (cD : Codec D) (E1 E2 : Env) (P : Par D)
    (maxCount : Nat) (chk : Test T) (r1 r2 : Nat) (maxEb : D) (m : Field T) :
    Option (Field T × List Byte) :=
  match compress O P maxCount chk r1 r2 maxEb m with
  | none => none
  | some (m', s) =>
    match serialize c cD E1 E2 P s with
    | none => none
    | some bs => some (m', bs)

/-! ### Definedness -/

/-- An in-mesh table row addresses the entry of its triangle in `cp_exist`. -/
theorem cell_entry (r1 r2 i j k : Nat) (hi : i < r1) (hj : j < r2) (hk : k < 6)
    (h : inMesh r1 r2 i j k = true) :
    (2 * ((i : Nat) * ((r2 : Int) - 1) + (j : Nat)) + cellOffset r2 k : Int) =
      ((2 * ((triOf i j k).a * (r2 - 1) + (triOf i j k).b) +
        (if (triOf i j k).up then 1 else 0) : Nat) : Int) := by
  obtain ⟨hg, h01, h2, h5⟩ := (inMesh_iff r1 r2 i j k hi hj hk).1 h
  have hk' : k = 0 ∨ k = 1 ∨ k = 2 ∨ k = 3 ∨ k = 4 ∨ k = 5 := by omega
  obtain ⟨w, rfl⟩ : ∃ w, r2 = w + 1 := ⟨r2 - 1, by omega⟩
  rcases hk' with rfl | rfl | rfl | rfl | rfl | rfl
  · obtain ⟨i, rfl⟩ : ∃ i', i = i' + 1 := ⟨i - 1, by omega⟩
    obtain ⟨j, rfl⟩ : ∃ j', j = j' + 1 := ⟨j - 1, by omega⟩
    simp [cellOffset, triOf]; ring
  · obtain ⟨i, rfl⟩ : ∃ i', i = i' + 1 := ⟨i - 1, by omega⟩
    obtain ⟨j, rfl⟩ : ∃ j', j = j' + 1 := ⟨j - 1, by omega⟩
    simp [cellOffset, triOf]; ring
  · obtain ⟨j, rfl⟩ : ∃ j', j = j' + 1 := ⟨j - 1, by omega⟩
    simp [cellOffset, triOf]; ring
  · simp [cellOffset, triOf]
  · simp [cellOffset, triOf]
  · obtain ⟨i, rfl⟩ : ∃ i', i = i' + 1 := ⟨i - 1, by omega⟩
    simp [cellOffset, triOf]; ring

/-- The test of a triangle in the order of `compute_cp`. -/
def triTest (chk : Test T) (r2 : Nat) (m : Field T) (t : Tri) : Bool :=
  chk (vecAt r2 m (t.verts.getD 0 (0, 0))) (vecAt r2 m (t.verts.getD 1 (0, 0)))
    (vecAt r2 m (t.verts.getD 2 (0, 0)))

theorem cpExist_tri (chk : Test T) (r2 : Nat) (m : Field T) (t : Tri) (ht : t.b + 1 < r2) :
    cpExist chk r2 m (2 * (t.a * (r2 - 1) + t.b) + (if t.up then 1 else 0)) =
      triTest chk r2 m t := by
  obtain ⟨a, b, up⟩ := t
  simp only at ht
  have h1 : ∀ e, e < 2 → (2 * (a * (r2 - 1) + b) + e) / 2 = a * (r2 - 1) + b := by
    intro e he; omega
  have h2 : (a * (r2 - 1) + b) / (r2 - 1) = a := by
    rw [Nat.mul_comm, Nat.mul_add_div (by omega), Nat.div_eq_of_lt (by omega)]; rfl
  have h3 : (a * (r2 - 1) + b) % (r2 - 1) = b := by
    rw [Nat.mul_comm, Nat.mul_add_mod, Nat.mod_eq_of_lt (by omega)]
  cases up
  · have h4 : (2 * (a * (r2 - 1) + b) + 0) % 2 = 0 := by omega
    simp only [cpExist, triTest, Tri.verts, Bool.false_eq_true, if_false, h1 0 (by omega), h2, h3,
      h4, if_true]
    rfl
  · have h4 : (2 * (a * (r2 - 1) + b) + 1) % 2 = 1 := by omega
    simp only [cpExist, triTest, Tri.verts, if_true, h1 1 (by omega), h2, h3,
      h4]
    rfl

theorem entry_lt (r1 r2 : Nat) (t : Tri) (ht : t.inGrid r1 r2) :
    2 * (t.a * (r2 - 1) + t.b) + (if t.up then 1 else 0) < 2 * (r1 - 1) * (r2 - 1) := by
  obtain ⟨h1, h2⟩ := ht
  have : (t.a + 1) * (r2 - 1) ≤ (r1 - 1) * (r2 - 1) := Nat.mul_le_mul_right _ (by omega)
  rw [Nat.succ_mul] at this
  rw [Nat.mul_assoc]
  split <;> omega

/-- The first loop reads within bounds and decides whether an incident triangle of the
original field tests positive. -/
theorem incidentCP_spec (chk : Test T) (r1 r2 i j : Nat) (m : Field T) (hi : i < r1) (hj : j < r2)
    (ks : List Nat) (hks : ∀ k ∈ ks, k < 6) :
    ∃ b, incidentCP r1 r2 (cpExist chk r2 m) (i * r2 + j) ks = some b ∧
      (b = false → ∀ k ∈ ks, inMesh r1 r2 i j k = true → triTest chk r2 m (triOf i j k) = false) := by
  have hdiv : (i * r2 + j) / r2 = i := by
    rw [Nat.mul_comm, Nat.mul_add_div (by omega), Nat.div_eq_of_lt hj]; rfl
  have hmod : (i * r2 + j) % r2 = j := by
    rw [Nat.mul_comm, Nat.mul_add_mod, Nat.mod_eq_of_lt hj]
  induction ks with
  | nil => exact ⟨false, rfl, fun _ k hk => by cases hk⟩
  | cons k ks ih =>
    obtain ⟨b, hb, hb'⟩ := ih (fun k' hk' => hks k' (by simp [hk']))
    have hk := hks k (by simp)
    rw [incidentCP, hdiv, hmod]
    by_cases h : inMesh r1 r2 i j k = true
    · have hg := ((inMesh_iff r1 r2 i j k hi hj hk).1 h).1
      simp only [h, if_true, cell_entry r1 r2 i j k hi hj hk h,
        rd_nat _ _ _ (entry_lt r1 r2 _ hg), cpExist_tri chk r2 m _ hg.2]
      cases ht : triTest chk r2 m (triOf i j k)
      · refine ⟨b, hb, fun e k' hk' hm => ?_⟩
        rcases List.mem_cons.1 hk' with rfl | hk'
        · exact ht
        · exact hb' e k' hk' hm
      · exact ⟨true, rfl, fun e => by cases e⟩
    · simp only [h, Bool.false_eq_true, if_false]
      refine ⟨b, hb, fun e k' hk' hm => ?_⟩
      rcases List.mem_cons.1 hk' with rfl | hk'
      · exact absurd hm h
      · exact hb' e k' hk' hm

/-- The verification loop reads within bounds; if it succeeds, the test of every incident
triangle is negative in the order neighbour, neighbour, vertex. -/
theorem verified_spec (chk : Test T) (r1 r2 i j : Nat) (m : Field T) (x y : T) (hi : i < r1)
    (hj : j < r2) (ks : List Nat) (hks : ∀ k ∈ ks, k < 6) :
    ∃ b, verified chk r1 r2 m (i * r2 + j) x y ks = some b ∧
      (b = true → ∀ k ∈ ks, inMesh r1 r2 i j k = true → ∃ P Q : Nat × Nat,
        (triOf i j k).verts.Perm [P, Q, (i, j)] ∧
        chk (vecAt r2 m P) (vecAt r2 m Q) (x, y) = false) := by
  have hdiv : (i * r2 + j) / r2 = i := by
    rw [Nat.mul_comm, Nat.mul_add_div (by omega), Nat.div_eq_of_lt hj]; rfl
  have hmod : (i * r2 + j) % r2 = j := by
    rw [Nat.mul_comm, Nat.mul_add_mod, Nat.mod_eq_of_lt hj]
  induction ks with
  | nil => exact ⟨true, rfl, fun _ k hk => by cases hk⟩
  | cons k ks ih =>
    obtain ⟨b, hb, hb'⟩ := ih (fun k' hk' => hks k' (by simp [hk']))
    have hk := hks k (by simp)
    rw [verified, hdiv, hmod]
    by_cases h : inMesh r1 r2 i j k = true
    · obtain ⟨i0, j0, i1, j1, h1, h2, h3, h4, -, -, -, -, h5, h6, -, hp⟩ :=
        neighbours r1 r2 i j k hi hj hk h
      have f0 := flat_lt r1 r2 i0 j0 h1 h2
      have f1 := flat_lt r1 r2 i1 j1 h3 h4
      simp only [h, if_true, h5, h6, rd_nat _ _ _ f0, rd_nat _ _ _ f1]
      cases ht : chk (m.u (i0 * r2 + j0), m.v (i0 * r2 + j0))
          (m.u (i1 * r2 + j1), m.v (i1 * r2 + j1)) (x, y)
      · refine ⟨b, by simpa using hb, fun e k' hk' hm => ?_⟩
        rcases List.mem_cons.1 hk' with rfl | hk'
        · exact ⟨(i0, j0), (i1, j1), hp, ht⟩
        · exact hb' e k' hk' hm
      · exact ⟨false, rfl, fun e => by cases e⟩
    · simp only [h, Bool.false_eq_true, if_false]
      refine ⟨b, hb, fun e k' hk' hm => ?_⟩
      rcases List.mem_cons.1 hk' with rfl | hk'
      · exact absurd hm h
      · exact hb' e k' hk' hm

/-- The bounds that are tried for a vertex: each failed attempt halves the quantised bound. -/
def tried (O : ROps T D) (P : Par D) (maxEb : D) : Nat → D
  | 0 => maxEb
  | k + 1 => O.div (ebQuant O.toDOps P.base P.logBase P.thr (tried O P maxEb k)).1 (O.ofInt 2)

/-- What is known about an accepted vertex. -/
structure Accepted (O : ROps T D) (P : Par D) (maxCount : Nat) (chk : Test T) (r1 r2 : Nat)
    (maxEb : D) (m : Field T) (p : Nat) (w : Coded T) : Prop where
  bound : ∃ k ≤ maxCount, w.id = (ebQuant O.toDOps P.base P.logBase P.thr (tried O P maxEb k)).2 ∧
    tentative O P r2 m.u p (ebQuant O.toDOps P.base P.logBase P.thr (tried O P maxEb k)).1 =
      some (w.q0, w.x) ∧
    tentative O P r2 m.v p (ebQuant O.toDOps P.base P.logBase P.thr (tried O P maxEb k)).1 =
      some (w.q1, w.y)
  ok : verified chk r1 r2 m p w.x w.y [0, 1, 2, 3, 4, 5] = some true

theorem relaxLoop_spec (O : ROps T D) (P : Par D) (maxCount : Nat) (chk : Test T) (r1 r2 i j : Nat)
    (maxEb : D) (m : Field T) (hi : i < r1) (hj : j < r2) (d k count : Nat)
    (hd : maxCount - count ≤ d) (hk : k ≤ maxCount) (hkc : k ≤ count) :
    ∃ n w, relaxLoop O P maxCount chk r1 r2 m (i * r2 + j) d count (tried O P maxEb k) = some (n, w) ∧
      ∀ c, w = some c → Accepted O P maxCount chk r1 r2 maxEb m (i * r2 + j) c := by
  induction d generalizing k count with
  | zero =>
    rw [relaxLoop]
    split
    · rename_i q0 x q1 y h0 h1
      obtain ⟨b, hb, -⟩ := verified_spec chk r1 r2 i j m x y hi hj [0, 1, 2, 3, 4, 5] (by simp)
      simp only [hb]
      cases b
      · refine ⟨count + 1, none, ?_, fun c h => by cases h⟩
        simp only
        rw [if_pos (by omega)]
      · refine ⟨_, _, rfl, fun c h => ?_⟩
        cases h
        exact ⟨⟨k, hk, rfl, h0, h1⟩, hb⟩
    · exact ⟨_, _, rfl, fun c h => by cases h⟩
  | succ d ih =>
    rw [relaxLoop]
    split
    · rename_i q0 x q1 y h0 h1
      obtain ⟨b, hb, -⟩ := verified_spec chk r1 r2 i j m x y hi hj [0, 1, 2, 3, 4, 5] (by simp)
      simp only [hb]
      cases b
      · simp only
        by_cases hc : maxCount < count + 1
        · rw [if_pos hc]
          exact ⟨count + 1, none, rfl, fun c h => by cases h⟩
        · rw [if_neg hc]
          exact ih (k + 1) (count + 1) (by omega) (by omega) (by omega)
      · refine ⟨_, _, rfl, fun c h => ?_⟩
        cases h
        exact ⟨⟨k, hk, rfl, h0, h1⟩, hb⟩
    · exact ⟨_, _, rfl, fun c h => by cases h⟩

/-- Case analysis of one step: the vertex is stored losslessly and stays as it is, or no
incident triangle of the original field tests positive and it is replaced by accepted
values. -/
theorem encVertex_cases (O : ROps T D) (P : Par D) (maxCount : Nat) (chk : Test T)
    (r1 r2 i j : Nat) (maxEb : D) (m0 : Field T) (s : Field T × Nat) (hi : i < r1) (hj : j < r2) :
    ∃ s' w, encVertex O P maxCount chk r1 r2 (cpExist chk r2 m0) maxEb s (i * r2 + j) =
      some (s', w) ∧
      ((s'.1 = s.1 ∧ w = .lossless (s.1.u (i * r2 + j)) (s.1.v (i * r2 + j))) ∨
      ∃ c, (O.isZero (s.1.u (i * r2 + j)) && O.isZero (s.1.v (i * r2 + j))) = false ∧
        (∀ k < 6, inMesh r1 r2 i j k = true → triTest chk r2 m0 (triOf i j k) = false) ∧
        Accepted O P maxCount chk r1 r2 maxEb s.1 (i * r2 + j) c ∧
        s'.1 = s.1.set (i * r2 + j) c.x c.y ∧ w = .coded c.id c.id c.q0 c.q1) := by
  unfold encVertex
  by_cases hz : (O.isZero (s.1.u (i * r2 + j)) && O.isZero (s.1.v (i * r2 + j))) = true
  · simp only [hz, if_true]
    exact ⟨_, _, rfl, Or.inl ⟨rfl, rfl⟩⟩
  · simp only [hz, Bool.false_eq_true, if_false]
    obtain ⟨b, hb, hb'⟩ := incidentCP_spec chk r1 r2 i j m0 hi hj [0, 1, 2, 3, 4, 5] (by simp)
    rw [hb]
    cases b
    · simp only
      obtain ⟨n, w, hw, hacc⟩ := relaxLoop_spec O P maxCount chk r1 r2 i j maxEb s.1 hi hj
        (maxCount - s.2) 0 s.2 le_rfl (Nat.zero_le _) (Nat.zero_le _)
      rw [show tried O P maxEb 0 = maxEb from rfl] at hw
      rw [hw]
      cases w with
      | none => exact ⟨_, _, rfl, Or.inl ⟨rfl, rfl⟩⟩
      | some c =>
        refine ⟨_, _, rfl, Or.inr ⟨c, trivial, fun k hk hm => ?_, hacc c rfl, rfl, rfl⟩⟩
        have hk' : k = 0 ∨ k = 1 ∨ k = 2 ∨ k = 3 ∨ k = 4 ∨ k = 5 := by omega
        exact hb' rfl k (by rcases hk' with h | h | h | h | h | h <;> simp [h]) hm
    · exact ⟨_, _, rfl, Or.inl ⟨rfl, rfl⟩⟩

end CpSZ.Online2D.Relax
