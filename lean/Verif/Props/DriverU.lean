import Verif.DriverU
import Verif.Props.Drivers
import Verif.Props.Unstructured

/-!
C89: the driver of the mode for unstructured meshes, from the files of the mesh and of the data to
the file `*.out`.
-/

namespace CpSZ.Drivers

open CpSZ CpSZ.Extract CpSZ.Lossless CpSZ.VMode CpSZ.ThreeD

variable {T D : Type}

/-- The files of a run: `4 m` indices, `3 n` coordinates and the data of at least `n` vertices. -/
structure InputsU (c : Codec T) (n m : Nat) (fs : FS) (points data tets : String)
    (ps ds : List T) (ts : List (BitVec 32)) : Prop where
  size : 0 < c.size
  tets : fs tets = some (writeArray (wordCodec 4) ts)
  points : fs points = some (writeArray c ps)
  data : fs data = some (writeArray c ds)
  indices : ts.length = 4 * m
  coords : ps.length = 3 * n
  values : 3 * n ≤ ds.length

/-- What the driver is expected to leave behind: the file `*.out` holds exactly the reconstructed
values, vertex by vertex; all other files are untouched. -/
def WroteU (c : Codec T) (n : Nat) (recon : Nat → Nat → T) (data : String) (fs fs' : FS) : Prop :=
  (∃ xs, fs'.read c (data ++ ".out") = some xs ∧ xs.length = 3 * n ∧
    ∀ k q, k < 3 → q < n → xs[3 * q + k]? = some (recon k q)) ∧
  ∀ name, name ≠ data ++ ".out" → fs' name = fs name

theorem interleave_congr {n : Nat} {d e : Nat → Nat → T}
    (h : ∀ k q, k < 3 → q < n → d k q = e k q) : interleave n d = interleave n e := by
  unfold interleave
  refine List.map_congr_left fun i hi => ?_
  have := List.mem_range.1 hi
  exact h _ _ (Nat.mod_lt _ (by omega)) (by omega)

theorem interleave_get {n : Nat} (d : Nat → Nat → T) {k q : Nat} (hk : k < 3) (hq : q < n) :
    (interleave n d)[3 * q + k]? = some (d k q) := by
  have hlt : 3 * q + k < 3 * n := by omega
  have h1 : (3 * q + k) % 3 = k := by omega
  have h2 : (3 * q + k) / 3 = q := by omega
  unfold interleave
  rw [List.getElem?_map, List.getElem?_range hlt]
  simp only [Option.map_some, h1, h2]

/-- The driver when each of its steps succeeds. -/
theorem driveU_run {comp : Nat → Nat → (Nat → Int) → (Nat → Nat → T) → Option (Out T)}
    {dec : Nat → (Nat → Nat → T) → List Byte → Option (Nat → Nat → T)} {c : Codec T} {n m : Nat}
    {fs : FS} {points data tets : String} {ps ds : List T} {ts : List (BitVec 32)}
    (hin : InputsU c n m fs points data tets ps ds ts) (hn : 0 < n)
    {lossless : List Byte → Option (List Byte)} (junk : T) (m0 : Nat → Nat → T) {out : Out T}
    (hcomp : comp n m (indsOf ts) (viewU junk ds) = some out)
    (hrep : out.reported = out.bytes.length) (hall : out.bytes.length ≤ out.alloc)
    (hz : lossless out.bytes = some out.bytes) {d : Nat → Nat → T}
    (hdec : dec n m0 out.bytes = some d) :
    driveU comp dec c lossless junk m0 points data tets fs =
      some (fs.write (data ++ ".out") (writeArray c (interleave n d))) := by
  have e1 : ts.length / 4 = m := by rw [hin.indices]; omega
  have e2 : ps.length / 3 = n := by rw [hin.coords]; omega
  unfold driveU
  rw [read_write fs (wordCodec 4) (by decide) tets ts hin.tets,
    read_write fs c hin.size points ps hin.points, read_write fs c hin.size data ds hin.data]
  simp only [Option.bind_eq_bind, Option.bind_some, e1, e2]
  rw [if_pos (show ts.length % 4 = 0 by rw [hin.indices]; omega),
    if_pos (show ps.length % 3 = 0 by rw [hin.coords]; omega), if_pos ⟨hn, hin.values⟩, hcomp]
  simp only [Option.bind_some]
  rw [if_pos hall, hrep, List.take_length, hz]
  simp only [Option.bind_some, hdec]
  rfl

/-- **C89**, partial.  On files that fit together and a mesh whose indices are those of points, the
driver ends with the compressor's reconstruction in the file `*.out`, vertex by vertex, and
touches no other file, provided that the reconstruction is decodable (C30: no quantised bound has
the reserved code, no reconstructed logarithm is below -99), that the stream fits into the block
(`3*n` elements) and has a length for which the lossless stage is correct (C69). -/
theorem C89_driver_partial (L : LOps T D) (HL : LogLaws L) (c : Codec T) (E1 E2 : Env)
    (logBase thr tiny : D) (n m : Nat) (base radius : Int) (maxEb : D)
    (derive : (Nat → T) → (Nat → T) → (Nat → T) → (Nat → T) → D) {fs : FS}
    {points data tets : String} {ps ds : List T} {ts : List (BitVec 32)}
    (hin : InputsU c n m fs points data tets ps ds ts) (hn : 0 < n)
    (hmesh : ∀ k, k < 4 * m → 0 ≤ indsOf ts k ∧ indsOf ts k < n) {lossless}
    (hst : Stage lossless) (junk : T) (m0 : Nat → Nat → T) :
    ∃ adj, pointTets n m (indsOf ts) = some adj ∧ ∀ (s' : State T) (str : Streams T),
      compress (logMode3 L logBase thr (predPrev L.toOps) base radius)
        (planLog3 L tiny 0 fun f p => some (boundU L.toDOps (indsOf ts) adj maxEb derive f p)) n
        (viewU junk ds) = some (s', str) →
      0 ≤ base ∧ base < 2 ^ 31 → 0 ≤ radius ∧ radius < 2 ^ 31 →
      Fits E1 (2 * 256) str.eb → Fits E2 (2 * (2 * radius).toNat) str.dq →
      str.un.length < 2 ^ 64 →
      (∀ s p a, p < n → planLog3 L tiny 0
          (fun f p => some (boundU L.toDOps (indsOf ts) adj maxEb derive f p)) s p =
            some (.try a 0) →
        (ebQuant L.toDOps base logBase thr a).2 ≠ escMax L.toDOps logBase thr) →
      (∀ c q e, c < 3 → q < n → str.eb[q]? = some e → e ≠ 0 →
        e ≠ escMax L.toDOps logBase thr → L.ltM99 (s'.cod c q) = false) →
      ∃ out, compU L c E1 E2 logBase thr tiny base radius maxEb derive n m (indsOf ts)
          (viewU junk ds) = some out ∧ out.recon = s'.val ∧
        (out.bytes.length ≤ 3 * n * c.size →
          (out.bytes.length < 100 ∨ 320 < out.bytes.length) →
          ∃ fs', driveU (compU L c E1 E2 logBase thr tiny base radius maxEb derive)
              (decU L c logBase thr) c lossless junk m0 points data tets fs = some fs' ∧
            WroteU c n s'.val data fs fs') := by
  obtain ⟨adj, hadj⟩ := (C30_adjacency n m (indsOf ts)).1.2 hmesh
  refine ⟨adj, hadj, fun s' str h hb hr f1 f2 hun hcol hsmall => ?_⟩
  obtain ⟨bs, hbs, hd⟩ := C30_roundtrip_partial L HL c E1 E2 logBase thr tiny n base radius _ _ s'
    str h hn hb hr f1 f2 hun hcol hsmall
  have hcomp : compU L c E1 E2 logBase thr tiny base radius maxEb derive n m (indsOf ts)
      (viewU junk ds) = some ⟨s'.val, bs, bs.length, 3 * n * c.size⟩ := by
    simp only [compU, hadj, Option.bind_eq_bind, Option.bind_some, hbs]
    rfl
  refine ⟨_, hcomp, rfl, fun ha hl => ?_⟩
  obtain ⟨d, hd, hA⟩ := hd [] m0
  rw [List.append_nil] at hd
  refine ⟨_, driveU_run hin hn junk m0 hcomp rfl ha (hst.back _ hl) hd, ?_, fun name hne =>
    if_neg hne⟩
  refine ⟨interleave n d, read_write _ c hin.size _ _ (if_pos rfl), by simp [interleave],
    fun k q hk hq => ?_⟩
  rw [interleave_get d hk hq, hA k q hk hq]

/-- **C89** The coordinates of the points do not matter: with another file of as many coordinates
the driver writes the same file `*.out`. -/
theorem C89_coordinates_unused
    (comp : Nat → Nat → (Nat → Int) → (Nat → Nat → T) → Option (Out T))
    (dec : Nat → (Nat → Nat → T) → List Byte → Option (Nat → Nat → T)) (c : Codec T)
    (lossless : List Byte → Option (List Byte)) (junk : T) (m0 : Nat → Nat → T)
    (points points' data tets : String) (fs : FS) (ps ps' : List T) (hc : 0 < c.size)
    (h : fs points = some (writeArray c ps)) (h' : fs points' = some (writeArray c ps'))
    (hl : ps.length = ps'.length) :
    driveU comp dec c lossless junk m0 points data tets fs =
      driveU comp dec c lossless junk m0 points' data tets fs := by
  unfold driveU
  rw [read_write fs c hc points ps h, read_write fs c hc points' ps' h']
  simp only [Option.bind_eq_bind, Option.bind_some, hl]

/-- **C89** What a run that gets to its end was given: files that exist, indices in multiples of four,
coordinates in multiples of three, data for at least as many vertices as there are points (more are not
noticed), and all indices those of points. -/
theorem C89_sizes (L : LOps T D) (c : Codec T) (E1 E2 : Env) (logBase thr tiny : D)
    (base radius : Int) (maxEb : D)
    (derive : (Nat → T) → (Nat → T) → (Nat → T) → (Nat → T) → D)
    (lossless : List Byte → Option (List Byte)) (junk : T) (m0 : Nat → Nat → T)
    (points data tets : String) (fs fs' : FS)
    (h : driveU (compU L c E1 E2 logBase thr tiny base radius maxEb derive) (decU L c logBase thr) c
      lossless junk m0 points data tets fs = some fs') :
    ∃ ts ps ds, fs.read (wordCodec 4) tets = some ts ∧ fs.read c points = some ps ∧
      fs.read c data = some ds ∧ ∃ n m, 0 < n ∧ ts.length = 4 * m ∧ ps.length = 3 * n ∧
        3 * n ≤ ds.length ∧ ∀ k, k < 4 * m → 0 ≤ indsOf ts k ∧ indsOf ts k < n := by
  unfold driveU at h
  obtain ⟨ts, ht, h⟩ := Option.bind_eq_some_iff.1 h
  dsimp only at h
  split at h
  swap; · cases h
  rename_i h4
  obtain ⟨ps, hp, h⟩ := Option.bind_eq_some_iff.1 h
  split at h
  swap; · cases h
  rename_i h3
  obtain ⟨ds, hd, h⟩ := Option.bind_eq_some_iff.1 h
  split at h
  swap; · cases h
  rename_i hn
  obtain ⟨out, ho, -⟩ := Option.bind_eq_some_iff.1 h
  obtain ⟨adj, hadj, -⟩ := Option.bind_eq_some_iff.1 ho
  exact ⟨ts, ps, ds, ht, hp, hd, ps.length / 3, ts.length / 4, hn.1, by omega, by omega, hn.2,
    (C30_adjacency _ _ _).1.1 ⟨adj, hadj⟩⟩

/-- **C89** The driver does not get to its end on small meshes: the header, the sizes and the two
entropy coded arrays have at least 72 bytes, the block only `3*n` elements (with `float`: five points
or fewer). -/
theorem C89_small (L : LOps T D) (c : Codec T) (E1 E2 : Env) (logBase thr tiny : D)
    (base radius : Int) (maxEb : D)
    (derive : (Nat → T) → (Nat → T) → (Nat → T) → (Nat → T) → D)
    (lossless : List Byte → Option (List Byte)) (junk : T) (m0 : Nat → Nat → T)
    (points data tets : String) (fs : FS) (ps : List T) (hp : fs.read c points = some ps)
    (hs : ps.length * c.size < 72) :
    driveU (compU L c E1 E2 logBase thr tiny base radius maxEb derive) (decU L c logBase thr) c
      lossless junk m0 points data tets fs = none := by
  cases h : driveU (compU L c E1 E2 logBase thr tiny base radius maxEb derive)
      (decU L c logBase thr) c lossless junk m0 points data tets fs with
  | none => rfl
  | some fs' =>
    exfalso
    unfold driveU at h
    obtain ⟨ts, ht, h⟩ := Option.bind_eq_some_iff.1 h
    dsimp only at h
    split at h
    swap; · cases h
    obtain ⟨ps', hp', h⟩ := Option.bind_eq_some_iff.1 h
    rw [hp] at hp'
    cases hp'
    split at h
    swap; · cases h
    rename_i h3
    obtain ⟨ds, hd, h⟩ := Option.bind_eq_some_iff.1 h
    split at h
    swap; · cases h
    obtain ⟨out, ho, h⟩ := Option.bind_eq_some_iff.1 h
    split at h
    swap; · cases h
    rename_i hall
    obtain ⟨adj, hadj, ho⟩ := Option.bind_eq_some_iff.1 ho
    obtain ⟨x, hx, ho⟩ := Option.bind_eq_some_iff.1 ho
    cases ho
    dsimp only at hall
    unfold compressBytesU at hx
    split at hx
    · cases hx
    · split at hx
      · cases hx
      · rename_i b hb
        cases hx
        unfold serialize at hb
        split at hb
        · rename_i b1 b2 e1 e2
          cases hb
          have h1 := encInts_length _ _ _ _ e1
          have h2 := encInts_length _ _ _ _ e2
          simp only [List.length_append, leBytes_length, if_true] at hall
          have e : 3 * (ps.length / 3) = ps.length := by omega
          rw [e] at hall
          omega
        · cases hb

/-! ### Examples -/

/-- Two tetrahedra sharing a face; the other points are in none. -/
def exTets : List (BitVec 32) := [0, 1, 2, 3, 4, 1, 2, 3]
def exPoints : List (BitVec 64) := List.replicate 60 5#64

/-- The values of 21 vertices: one more than there are points. -/
def exData : List (BitVec 64) :=
  (List.replicate 9 [101#64, 100#64, -100#64]).flatten ++
  (List.replicate 6 [110#64, 70000#64, -100#64, 110#64, 100#64, -100#64]).flatten

def exFSU : FS := fun name =>
  if name = "tets" then some (writeArray (wordCodec 4) exTets)
  else if name = "points" then some (writeArray toyCodec exPoints)
  else if name = "data" then some (writeArray toyCodec exData)
  else if name = "notes" then some [1#8] else none

theorem exInputsU : InputsU toyCodec 20 2 exFSU "points" "data" "tets" exPoints exData exTets :=
  ⟨by decide, rfl, rfl, rfl, rfl, rfl, by decide⟩

def exDerive : (Nat → BitVec 64) → (Nat → BitVec 64) → (Nat → BitVec 64) → (Nat → BitVec 64) →
    BitVec 64 := fun _ _ _ _ => 255#64

/-- A run of the driver to its end: the values of the nine vertices that are quantised are not the
ones of the input, the values of the vertex without a point are missing. -/
example : ∃ fs', driveU (compU toyL toyCodec exEnv exEnv 1#64 1#64 1#64 2 512 255#64 exDerive)
      (decU toyL toyCodec 1#64 1#64) toyCodec
      (through strict (estimate (fl nearest 53)) (fun _ => 7#8) (fun _ => 9#8)) 0#64
      (fun _ _ => 1#64) "points" "data" "tets" exFSU = some fs' ∧
    (∃ xs, fs'.read toyCodec "data.out" = some xs ∧ xs.length = 60 ∧ xs[3]? = some 100#64) ∧
    fs' "notes" = some [1#8] := by
  obtain ⟨adj, hadj, h⟩ := C89_driver_partial toyL toyL_laws toyCodec exEnv exEnv 1#64 1#64 1#64 20 2
    2 512 255#64 exDerive exInputsU (by decide) (by decide +kernel) stage_strict 0#64
    (fun _ _ => 1#64)
  have hv : (pointTets 20 2 (indsOf exTets)).bind (fun adj =>
      (compress (logMode3 toyL 1#64 1#64 (predPrev toyL.toOps) 2 512)
        (planLog3 toyL 1#64 0 fun f p => some (boundU toyL.toDOps (indsOf exTets) adj 255#64 exDerive
          f p)) 20 (viewU 0#64 exData)).map fun r => (r.2.eb, r.2.dq, r.2.un.length, r.1.val 0 1,
            (List.range 3).all fun c => (List.range 20).all fun q => !(toyL.ltM99 (r.1.cod c q)))) =
      some (List.replicate 9 3 ++ List.replicate 11 0,
        [537, 537, 537] ++ List.replicate 24 512, 33, 100#64, true) := by
    decide +kernel
  have hl : (compU toyL toyCodec exEnv exEnv 1#64 1#64 1#64 2 512 255#64 exDerive 20 2
      (indsOf exTets) (viewU 0#64 exData)).map (fun x => x.bytes.length) = some 395 := by
    decide +kernel
  rw [hadj, Option.bind_some] at hv
  obtain ⟨⟨s', str⟩, hc, hv⟩ := Option.map_eq_some_iff.1 hv
  simp only [Prod.mk.injEq] at hv
  obtain ⟨h1, h2, h3, h4, h5⟩ := hv
  obtain ⟨out, ho, -, hrun⟩ := h s' str hc (by decide) (by decide)
    (by rw [h1]; exact fits_of_short _ _ _ (by decide) (by decide) (by decide) (by decide))
    (by rw [h2]; exact fits_of_short _ _ _ (by decide) (by decide) (by decide) (by decide))
    (by rw [h3]; decide) (by
      intro s p a hp hpl
      rcases planLog3_cases hpl with h0 | ⟨req0, req, hb, hreq, hpos, h0⟩
      · cases h0
      · simp only [Plan.try.injEq] at h0
        have hall : ∀ l : List (Nat × Nat), l.foldl (fun req _ =>
            if toyL.toDOps.lt req 255#64 then req else 255#64) 255#64 = 255#64 := by
          intro l
          induction l with
          | nil => rfl
          | cons x l ih => exact ih
        have : req = 255#64 ∨ req = 0#64 := by
          rcases hreq with h | h
          · subst h
            exact Or.inl ((Option.some.inj hb).symm.trans (hall _))
          · exact Or.inr h
        rcases this with rfl | rfl
        · rw [h0.1]; decide +kernel
        · exact absurd hpos (by decide)) (by
      intro c q e hcK hq _ _ _
      simp only [List.all_eq_true, List.mem_range, Bool.not_eq_true'] at h5
      exact h5 c hcK q hq)
  rw [ho] at hl
  have hlen : out.bytes.length = 395 := by simpa using hl
  obtain ⟨fs', hfs, ⟨xs, hx, hxl, hxv⟩, hoth⟩ := hrun (by rw [hlen]; decide)
    (by rw [hlen]; decide)
  refine ⟨fs', hfs, ⟨xs, hx, hxl, ?_⟩, ?_⟩
  · rw [hxv 0 1 (by decide) (by decide), h4]
  · exact hoth "notes" (by decide)

/-- A mesh of one tetrahedron of `float` values, or of two points of eight bytes, is too small. -/
example (derive : (Nat → BitVec 64) → (Nat → BitVec 64) → (Nat → BitVec 64) →
    (Nat → BitVec 64) → BitVec 64) (lossless : List Byte → Option (List Byte))
    (m0 : Nat → Nat → BitVec 64) (data tets : String) (fs : FS)
    (hp : fs "p" = some (writeArray toyCodec [1, 2, 3, 4, 5, 6])) :
    4 * 3 * 4 < 72 ∧
    driveU (compU toyL toyCodec exEnv exEnv 1#64 1#64 1#64 2 512 255#64 derive)
      (decU toyL toyCodec 1#64 1#64) toyCodec lossless 0#64 m0 "p" data tets fs = none :=
  ⟨by decide, C89_small _ _ _ _ _ _ _ _ _ _ _ _ _ _ _ _ _ _ _
    (read_write fs toyCodec (by decide) _ _ hp) (by decide)⟩

/-- The coordinates may be replaced. -/
example : exPoints.length = (List.replicate 60 6#64).length := by decide

end CpSZ.Drivers
