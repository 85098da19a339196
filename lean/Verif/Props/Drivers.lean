import Verif.Drivers
import Verif.Props.Lossless
import Verif.Props.Files
import Verif.Props.Online2D
import Verif.Props.Abs2D
import Verif.Props.Sz3
import Verif.Props.Log2D
import Verif.Props.ThreeD
import Verif.Props.Sizes

/-!
C81: the drivers from the files of the components to the files `*.out`.
-/

namespace CpSZ.Drivers

open CpSZ CpSZ.Extract CpSZ.Block CpSZ.Lossless

variable {T F D : Type}

theorem out_inj {a b : String} (h : a ++ ".out" = b ++ ".out") : a = b := by
  have e := congrArg String.toList h
  rw [String.toList_append, String.toList_append] at e
  exact String.toList_inj.1 (List.append_cancel_right e)

theorem writeOuts_other (c : Codec T) (num : Nat) (d : Nat → Nat → T) (names : List String)
    (k : Nat) (fs : FS) (name : String) (h : ∀ x ∈ names, name ≠ x ++ ".out") :
    writeOuts c num d names k fs name = fs name := by
  induction names generalizing k fs with
  | nil => rfl
  | cons x xs ih =>
    rw [writeOuts, ih _ _ fun y hy => h y (List.mem_cons_of_mem _ hy)]
    exact if_neg (h x List.mem_cons_self)

theorem writeOuts_get (c : Codec T) (num : Nat) (d : Nat → Nat → T) (names : List String)
    (k : Nat) (fs : FS) (hnd : names.Nodup) (i : Nat) (hi : i < names.length) :
    writeOuts c num d names k fs (names[i] ++ ".out") =
      some (writeArray c ((List.range num).map (d (k + i)))) := by
  induction names generalizing k fs i with
  | nil => simp at hi
  | cons x xs ih =>
    obtain ⟨hx, hxs⟩ := List.nodup_cons.1 hnd
    cases i with
    | zero =>
      rw [writeOuts]
      show writeOuts c num d xs (k + 1) _ (x ++ ".out") = _
      rw [writeOuts_other _ _ _ _ _ _ _ fun y hy e => hx (by rw [out_inj e]; exact hy)]
      exact if_pos rfl
    | succ i =>
      rw [writeOuts]
      show writeOuts c num d xs (k + 1) _ (xs[i]'(by simpa using hi) ++ ".out") = _
      rw [ih (k + 1) _ hxs i (by simpa using hi), Nat.add_assoc, Nat.add_comm 1 i]

theorem mapM_read (c : Codec T) (hc : 0 < c.size) (fs : FS) (files : List (String × List T))
    (h : ∀ p ∈ files, fs p.1 = some (writeArray c p.2)) :
    (files.map Prod.fst).mapM (fs.read c) = some (files.map Prod.snd) := by
  induction files with
  | nil => rfl
  | cons p ps ih =>
    have h1 := read_write fs c hc p.1 p.2 (h p List.mem_cons_self)
    have h2 := ih fun q hq => h q (List.mem_cons_of_mem _ hq)
    rw [List.map_cons, List.mapM_cons, h1, h2]
    rfl

/-- What a driver is expected to leave behind: next to every input a file `*.out` that holds exactly
the `n` reconstructed values of that component; all other files are untouched. -/
def Wrote (c : Codec T) (n : Nat) (recon : Nat → Nat → T) (names : List String) (fs fs' : FS) : Prop :=
  (∀ k (hk : k < names.length),
    fs'.read c (names[k] ++ ".out") = some ((List.range n).map (recon k))) ∧
  ∀ name, (∀ x ∈ names, name ≠ x ++ ".out") → fs' name = fs name

/-- **C81** (any mode).  If the compressor succeeds within its block and reports what it wrote, the
lossless stage gives the buffer back, and the decompressor restores the compressor's reconstruction, then
the driver leaves exactly that reconstruction in the files `*.out` and touches no other file. -/
theorem C81_driver (M : Mode T) (c : Codec T) (hc : 0 < c.size)
    (lossless : List Byte → Option (List Byte)) (junk : T) (m0 : Nat → Nat → T) (fs : FS)
    (files : List (String × List T)) (hfs : ∀ p ∈ files, fs p.1 = some (writeArray c p.2))
    (hlen : ∀ p ∈ files, p.2.length = M.n) (hne : files ≠ []) (hn : 0 < M.n)
    (hnd : (files.map Prod.fst).Nodup) (out : Out T)
    (hcomp : M.compress (view junk (files.map Prod.snd)) = some out)
    (hrep : out.reported = out.bytes.length) (hall : out.bytes.length ≤ out.alloc)
    (hz : lossless out.bytes = some out.bytes)
    (hdec : ∃ d, M.decompress m0 out.bytes = some d ∧
      ∀ k q, k < files.length → q < M.n → d k q = out.recon k q) :
    ∃ fs', drive M c lossless junk m0 (files.map Prod.fst) fs = some fs' ∧
      Wrote c M.n out.recon (files.map Prod.fst) fs fs' := by
  obtain ⟨d, hd, hA⟩ := hdec
  have hlast : ((files.map Prod.snd).getLastD []).length = M.n := by
    rw [List.getLastD_eq_getLast?, List.getLast?_map, List.getLast?_eq_getLast_of_ne_nil hne]
    exact hlen _ (List.getLast_mem hne)
  have h1 : ((files.map Prod.snd).all fun x => decide (M.n ≤ x.length)) = true := by
    simp only [List.all_map, List.all_eq_true, Function.comp_apply, decide_eq_true_eq]
    exact fun p hp => (hlen p hp).ge
  refine ⟨writeOuts c M.n d (files.map Prod.fst) 0 fs, ?_, fun k hk => ?_, fun name hname =>
    writeOuts_other c M.n d _ 0 fs name hname⟩
  · unfold drive
    rw [mapM_read c hc fs files hfs]
    simp only [Option.bind_eq_bind, Option.bind_some, h1, if_true, hcomp, hall, hrep,
      List.take_length, hz, hd, hlast]
    rw [if_pos ⟨hn, le_rfl, trivial⟩]
    rfl
  · have hw := writeOuts_get c M.n d (files.map Prod.fst) 0 fs hnd k hk
    rw [read_write _ c hc _ _ hw, Nat.zero_add]
    refine congrArg some (List.map_congr_left fun q hq => ?_)
    exact hA k q (by simpa using hk) (List.mem_range.1 hq)

/-- **C81**, necessary conditions.  A driver that runs to its end was given files of which the last has
exactly as many elements as the grid has vertices and the others have at least as many; in particular
a grid size that does not fit the files is never reported, it is undefined behaviour. -/
theorem C81_sizes (M : Mode T) (c : Codec T) (lossless : List Byte → Option (List Byte)) (junk : T)
    (m0 : Nat → Nat → T) (names : List String) (fs fs' : FS)
    (h : drive M c lossless junk m0 names fs = some fs') :
    ∃ inputs, names.mapM (fs.read c) = some inputs ∧ 0 < M.n ∧
      (inputs.getLastD []).length = M.n ∧ ∀ x ∈ inputs, M.n ≤ x.length := by
  unfold drive at h
  obtain ⟨inputs, hi, h⟩ := Option.bind_eq_some_iff.1 h
  refine ⟨inputs, hi, ?_⟩
  dsimp only at h
  split at h
  · rename_i hall
    obtain ⟨out, -, h⟩ := Option.bind_eq_some_iff.1 h
    split at h
    · obtain ⟨buf, -, h⟩ := Option.bind_eq_some_iff.1 h
      obtain ⟨d, -, h⟩ := Option.bind_eq_some_iff.1 h
      split at h
      · rename_i hc
        have hx : ∀ x ∈ inputs, M.n ≤ x.length := by simpa using hall
        have hne : inputs ≠ [] := by
          rintro rfl
          simp at hc
        have hl : M.n ≤ (inputs.getLastD []).length := by
          rw [List.getLastD_eq_getLast?, List.getLast?_eq_getLast_of_ne_nil hne]
          exact hx _ (List.getLast_mem hne)
        exact ⟨by omega, by omega, hx⟩
      · cases h
    · cases h
  · cases h

/-- A driver whose compressor overruns its block does not get to its end. -/
theorem drive_overrun (M : Mode T) (c : Codec T) (lossless : List Byte → Option (List Byte))
    (junk : T) (m0 : Nat → Nat → T) (names : List String) (fs : FS)
    (hover : ∀ inputs out, names.mapM (fs.read c) = some inputs →
      M.compress (view junk inputs) = some out → out.alloc < out.bytes.length) :
    drive M c lossless junk m0 names fs = none := by
  unfold drive
  cases hi : names.mapM (fs.read c) with
  | none => rfl
  | some inputs =>
    simp only [Option.bind_eq_bind, Option.bind_some]
    split
    · cases hm : M.compress (view junk inputs) with
      | none => rfl
      | some out =>
        simp only [Option.bind_some]
        exact if_neg (by have := hover inputs out hi hm; omega)
    · rfl

/-- **C81** The 2D driver never gets to its end with the offline mode: whatever the files contain, the
compressor writes behind the end of its block. -/
theorem C81_offline_never (O : Offline2D.OOps T D) (Q : Offline2D.QPar D) (B : BOps T F D)
    (f : Fmt T F D) (hD : 0 < f.cD.size) (E : Offline2D.Envs)
    (eb : (Nat → T) → (Nat → T) → Option (Nat → D)) (r1 r2 bs : Nat) (indep : Bool) (c : Codec T)
    (lossless : List Byte → Option (List Byte)) (junk : T) (m0 : Nat → Nat → T)
    (names : List String) (fs : FS) :
    drive (modeOffline O Q B f E eb r1 r2 bs indep) c lossless junk m0 names fs = none := by
  refine drive_overrun _ _ _ _ _ _ _ fun inputs out _ h => ?_
  simp only [modeOffline, Option.bind_eq_bind, Option.bind_eq_some_iff] at h
  obtain ⟨e, -, r, hr, h⟩ := h
  cases h
  have := C35_offline_overrun O Q B f E _ _ e r1 r2 bs indep r hr
  dsimp only
  omega

/-- **C81** The 2D driver does not get to its end either, with the relative and the absolute mode, if
the grid is so small that the arrays of both components together have fewer than 64 bytes, -/
theorem C81_online_small (O : Ops T D) (c : Codec T) (cD : Codec D) (E1 E2 : Env)
    (P : Online2D.Par D) (r1 r2 : Nat) (absEb : D → T → D)
    (bound : Online2D.Field T → Nat → Option D) (hD : cD.size = 8)
    (hn : 2 * (r1 * r2) * c.size < 64) (lossless : List Byte → Option (List Byte)) (junk : T)
    (m0 : Nat → Nat → T) (names : List String) (fs : FS) :
    drive (modeOnline O c cD E1 E2 P r1 r2 absEb bound) c lossless junk m0 names fs = none := by
  refine drive_overrun _ _ _ _ _ _ _ fun inputs out _ h => ?_
  simp only [modeOnline, Option.map_eq_some_iff] at h
  obtain ⟨⟨m', bs⟩, hx, rfl⟩ := h
  exact Online2D.C35_online_small_overflow O c cD E1 E2 P r1 r2 absEb bound _ m' bs hD hn hx

/-- or if every value of both components is stored losslessly. -/
theorem C81_online_lossless (O : Ops T D) (c : Codec T) (cD : Codec D) (E1 E2 : Env)
    (P : Online2D.Par D) (r1 r2 : Nat) (absEb : D → T → D)
    (bound : Online2D.Field T → Nat → Option D) (lossless : List Byte → Option (List Byte)) (junk : T)
    (m0 : Nat → Nat → T) (names : List String) (fs : FS) (inputs : List (List T))
    (hi : names.mapM (fs.read c) = some inputs) (m' : Online2D.Field T) (s : Online2D.Streams T)
    (hs : Online2D.compress O P r1 r2 absEb bound (toField (view junk inputs)) = some (m', s))
    (hun : s.un.length = 2 * (r1 * r2)) :
    drive (modeOnline O c cD E1 E2 P r1 r2 absEb bound) c lossless junk m0 names fs = none := by
  refine drive_overrun _ _ _ _ _ _ _ fun inputs' out hi' h => ?_
  rw [hi] at hi'
  cases hi'
  simp only [modeOnline, Option.map_eq_some_iff] at h
  obtain ⟨⟨m'', bs⟩, hx, rfl⟩ := h
  have he : m'' = m' := by
    simp only [Online2D.compressBytes, hs] at hx
    split at hx
    · cases hx
    · cases hx; rfl
  subst he
  have := Online2D.C35_online_lossless_overflow O c cD E1 E2 P r1 r2 absEb bound _ m'' s bs hs hun hx
  dsimp only
  omega

/-! ### The modes that are active in the drivers, and the other ones -/

theorem field_eta (f : Online2D.Field T) : toField (ofField f) = f := rfl

/-- The files of a run, all of the size of the grid. -/
structure Inputs (c : Codec T) (n K : Nat) (fs : FS) (files : List (String × List T)) : Prop where
  size : 0 < c.size
  present : ∀ p ∈ files, fs p.1 = some (writeArray c p.2)
  length : ∀ p ∈ files, p.2.length = n
  count : files.length = K
  names : (files.map Prod.fst).Nodup

/-- The lossless stage as the drivers call it, for any zstd, any rounding of `double` and any content of
new blocks. -/
structure Stage (lossless : List Byte → Option (List Byte)) : Prop where
  ex : ∃ (Z : Zstd) (rD : ℝ → ℝ) (u : ℝ) (j1 j2 : Nat → Byte), Contract Z ∧ IsFloat rD u ∧
    u ≤ 1 / 2 ^ 52 ∧ lossless = through Z (estimate rD) j1 j2

theorem Stage.back {lossless : List Byte → Option (List Byte)} (h : Stage lossless) (bs : List Byte)
    (hb : bs.length < 100 ∨ 320 < bs.length) : lossless bs = some bs := by
  obtain ⟨Z, rD, u, j1, j2, hZ, hr, hu, rfl⟩ := h.ex
  exact C69_roundtrip hZ hr hu j1 j2 bs hb

/-- The driver of a mode whose byte-level round trip is known. -/
theorem drive_mode (M : Mode T) (c : Codec T) (K : Nat) {fs : FS} {files : List (String × List T)}
    (hin : Inputs c M.n K fs files) (hK : 0 < K) (hn : 0 < M.n) {lossless} (hst : Stage lossless)
    (junk : T) (m0 : Nat → Nat → T) (recon : Nat → Nat → T) (bs : List Byte) (alloc : Nat)
    (hcomp : M.compress (view junk (files.map Prod.snd)) = some ⟨recon, bs, bs.length, alloc⟩)
    (hdec : ∃ d, M.decompress m0 bs = some d ∧ ∀ k q, k < K → q < M.n → d k q = recon k q)
    (hall : bs.length ≤ alloc) (hb : bs.length < 100 ∨ 320 < bs.length) :
    ∃ fs', drive M c lossless junk m0 (files.map Prod.fst) fs = some fs' ∧
      Wrote c M.n recon (files.map Prod.fst) fs fs' :=
  C81_driver M c hin.size lossless junk m0 fs files hin.present hin.length
    (by rintro rfl; have := hin.count; simp at this; omega) hn hin.names _ hcomp rfl hall
    (hst.back _ hb) (by rw [hin.count]; exact hdec)

/-- **C81** for the mode that is active in the 2D driver (SZ3 interpolation).  `bs` is the buffer the
compressor returns. -/
theorem C81_sz3 (S : Sz3.SOps T D) (c : Codec T) (cD : Codec D) (E1 E2 : Env) (P : Sz3.Par D)
    (r1 r2 : Nat) (bound : Sz3.Fld T → Sz3.Ev → D → Option D) {fs : FS}
    {files : List (String × List T)} (hin : Inputs c (r1 * r2) 2 fs files) {lossless}
    (hst : Stage lossless) (junk : T) (m0 : Nat → Nat → T) (m' : Sz3.Fld T) (s : Sz3.Streams T)
    (h : Sz3.compress S P r1 r2 bound (toField (view junk (files.map Prod.snd))) = some (m', s))
    (hS : Sz3.Sane S P.base P.thr P.radius) (h1 : 0 < r1) (h2 : 0 < r2)
    (hn : 1 + c.size + 4 < r1 * r2 * c.size) (hlen : r1 * r2 < 2 ^ 60)
    (hb : 0 ≤ P.base ∧ P.base < 2 ^ 31) (hc : 0 ≤ P.capacity ∧ P.capacity < 2 ^ 31)
    (f1 : Fits E1 (2 * 1024) s.eb) (f2 : Fits E2 (2 * P.capacity.toNat) s.dq) :
    ∃ bs, Sz3.compressBytes S c cD E1 E2 P r1 r2 bound (toField (view junk (files.map Prod.snd))) =
        some (m', bs) ∧
      (bs.length ≤ 2 * (r1 * r2) * c.size → (bs.length < 100 ∨ 320 < bs.length) →
        ∃ fs', drive (modeSz3 S c cD E1 E2 P r1 r2 bound) c lossless junk m0
            (files.map Prod.fst) fs = some fs' ∧
          Wrote c (r1 * r2) (ofField m') (files.map Prod.fst) fs fs') := by
  obtain ⟨bs, hbs, hd⟩ := Sz3.C24_roundtrip_partial S c cD E1 E2 P r1 r2 bound _ m' s h hS h1 h2 hn
    hlen hb hc f1 f2
  refine ⟨bs, hbs, fun ha hl => ?_⟩
  obtain ⟨d, hd, hA⟩ := hd [] (toField m0)
  rw [List.append_nil] at hd
  refine drive_mode (modeSz3 S c cD E1 E2 P r1 r2 bound) c 2 hin (by omega) (Nat.mul_pos h1 h2) hst
    junk m0 (ofField m') bs (2 * (r1 * r2) * c.size) ?_ ⟨ofField d, ?_, fun k q hk hq => ?_⟩ ha hl
  · simp only [modeSz3, hbs, Option.map_some]
  · simp only [modeSz3, hd, Option.map_some]
  · obtain ⟨a, b⟩ := hA q hq
    unfold ofField
    split
    · exact a
    · exact b

/-- **C81** for the relative and the absolute mode of the 2D driver. -/
theorem C81_online (O : Ops T D) (c : Codec T) (cD : Codec D) (E1 E2 : Env) (P : Online2D.Par D)
    (r1 r2 : Nat) (absEb : D → T → D) (bound : Online2D.Field T → Nat → Option D) {fs : FS}
    {files : List (String × List T)} (hin : Inputs c (r1 * r2) 2 fs files) {lossless}
    (hst : Stage lossless) (junk : T) (m0 : Nat → Nat → T) (m' : Online2D.Field T)
    (s : Online2D.Streams T)
    (h : Online2D.compress O P r1 r2 absEb bound (toField (view junk (files.map Prod.snd))) =
      some (m', s)) (hn : 0 < r1 * r2)
    (hb : 0 ≤ P.base ∧ P.base < 2 ^ 31) (hr : 0 ≤ P.radius ∧ P.radius < 2 ^ 31)
    (hcap : P.capacity = 2 * P.radius)
    (f1 : Fits E1 (2 * 1024) s.eb) (f2 : Fits E2 (2 * P.capacity.toNat) s.dq) :
    ∃ bs, Online2D.compressBytes O c cD E1 E2 P r1 r2 absEb bound
        (toField (view junk (files.map Prod.snd))) = some (m', bs) ∧
      (bs.length ≤ 2 * (r1 * r2) * c.size → (bs.length < 100 ∨ 320 < bs.length) →
        ∃ fs', drive (modeOnline O c cD E1 E2 P r1 r2 absEb bound) c lossless junk m0
            (files.map Prod.fst) fs = some fs' ∧
          Wrote c (r1 * r2) (ofField m') (files.map Prod.fst) fs fs') := by
  obtain ⟨bs, hbs, hd⟩ := Online2D.C13_online_roundtrip O c cD E1 E2 P r1 r2 absEb bound _ m' s h hb hr
    hcap f1 f2
  refine ⟨bs, hbs, fun ha hl => ?_⟩
  obtain ⟨d, hd, hA⟩ := hd [] (toField m0)
  rw [List.append_nil] at hd
  refine drive_mode (modeOnline O c cD E1 E2 P r1 r2 absEb bound) c 2 hin (by omega) hn hst junk m0
    (ofField m') bs (2 * (r1 * r2) * c.size) ?_ ⟨ofField d, ?_, fun k q hk hq => ?_⟩ ha hl
  · simp only [modeOnline, hbs, Option.map_some]
  · simp only [modeOnline, hd, Option.map_some]
  · obtain ⟨a, b⟩ := hA q hq
    unfold ofField
    split
    · exact a
    · exact b

/-- **C81** for the mode that is active in the 3D driver (absolute bounds). -/
theorem C81_abs3 (O : Ops T D) (c : Codec T) (cD : Codec D) (E1 E2 : Env) (logBase thr lb : D)
    (r1 r2 r3 : Nat) (base radius : Int) (isZero : T → Bool) (nz : D → Bool) (maxEb : D)
    (cp : Nat → Bool) (derive : (Nat → T) → (Nat → T) → (Nat → T) → (Nat → T) → D) {fs : FS}
    {files : List (String × List T)} (hin : Inputs c (r1 * r2 * r3) 3 fs files) {lossless}
    (hst : Stage lossless) (junk : T) (m0 : Nat → Nat → T) (s' : VMode.State T)
    (str : VMode.Streams T)
    (h : VMode.compress (ThreeD.absMode3 O logBase thr r2 r3 base radius)
      (ThreeD.planAbs3 O isZero nz r1 r2 r3 maxEb cp derive) (r1 * r2 * r3)
      (view junk (files.map Prod.snd)) = some (s', str)) (hn : 0 < r1 * r2 * r3)
    (hb : 0 ≤ base ∧ base < 2 ^ 31) (hr : 0 ≤ radius ∧ radius < 2 ^ 31)
    (f1 : Fits E1 (2 * 1024) str.eb) (f2 : Fits E2 (2 * (2 * radius).toNat) str.dq)
    (hun : str.un.length < 2 ^ 64) :
    ∃ bs, ThreeD.compressBytesAbs3 c cD E1 E2 O logBase thr r2 r3 base radius
        (ThreeD.planAbs3 O isZero nz r1 r2 r3 maxEb cp derive) (r1 * r2 * r3)
        (view junk (files.map Prod.snd)) = some (s'.val, bs) ∧
      (bs.length ≤ 3 * (r1 * r2 * r3) * c.size → (bs.length < 100 ∨ 320 < bs.length) →
        ∃ fs', drive (modeAbs3 O c cD E1 E2 logBase thr lb r1 r2 r3 base radius
            (ThreeD.planAbs3 O isZero nz r1 r2 r3 maxEb cp derive)) c lossless junk m0
            (files.map Prod.fst) fs = some fs' ∧
          Wrote c (r1 * r2 * r3) s'.val (files.map Prod.fst) fs fs') := by
  obtain ⟨bs, hbs, hd⟩ := ThreeD.C27_abs3_roundtrip O c cD E1 E2 logBase thr r1 r2 r3 base radius isZero
    nz maxEb cp derive _ s' str h hb hr f1 f2 hun
  refine ⟨bs, hbs, fun ha hl => ?_⟩
  obtain ⟨d, hd, hA⟩ := hd [] m0 lb
  rw [List.append_nil] at hd
  refine drive_mode (modeAbs3 O c cD E1 E2 logBase thr lb r1 r2 r3 base radius _) c 3 hin (by omega) hn
    hst junk m0 s'.val bs (3 * (r1 * r2 * r3) * c.size) ?_ ⟨d, hd, hA⟩ ha hl
  simp only [modeAbs3, hbs, Option.map_some]

/-- **C81** for the logarithmic mode of the 2D driver. -/
theorem C81_log2 (L : VMode.LOps T D) (HL : VMode.LogLaws L) (c : Codec T) (E1 E2 : Env)
    (logBase thr : D) (r1 r2 : Nat) (base radius : Int)
    (bound : Online2D.Field T → Nat → Option D) {fs : FS} {files : List (String × List T)}
    (hin : Inputs c (r1 * r2) 2 fs files) {lossless} (hst : Stage lossless) (junk : T)
    (m0 : Nat → Nat → T) (s' : VMode.State T) (str : VMode.Streams T)
    (h : VMode.compress (VMode.mode2 L logBase thr r2 base radius) (VMode.plan2 L bound) (r1 * r2)
      (VMode.arr2 (toField (view junk (files.map Prod.snd)))) = some (s', str))
    (hn : 0 < r1 * r2) (hb : 0 ≤ base ∧ base < 2 ^ 31) (hr : 0 ≤ radius ∧ radius < 2 ^ 31)
    (f1 : Fits E1 (2 * 1024) str.eb) (f2 : Fits E2 (2 * (2 * radius).toNat) str.dq)
    (hun : str.un.length < 2 ^ 64)
    (hsmall : ∀ c q, c < 2 → q < r1 * r2 →
      L.isZero (view junk (files.map Prod.snd) 0 q) = false →
      L.isZero (view junk (files.map Prod.snd) 1 q) = false → L.ltM99 (s'.cod c q) = false) :
    ∃ bs, VMode.compressBytes L c E1 E2 (2 * 1024) false (VMode.mode2 L logBase thr r2) base radius
        (VMode.plan2 L bound) (r1 * r2) (VMode.arr2 (toField (view junk (files.map Prod.snd)))) =
        some (s'.val, bs) ∧
      (bs.length ≤ 2 * (r1 * r2) * c.size → (bs.length < 100 ∨ 320 < bs.length) →
        ∃ fs', drive (modeLog2 L c E1 E2 logBase thr r1 r2 base radius bound) c lossless junk m0
            (files.map Prod.fst) fs = some fs' ∧
          Wrote c (r1 * r2) s'.val (files.map Prod.fst) fs fs') := by
  obtain ⟨bs, hbs, hd⟩ := VMode.C18_log_roundtrip L HL c E1 E2 logBase thr r1 r2 base radius bound _ s'
    str h hn hb hr f1 f2 hun hsmall
  refine ⟨bs, hbs, fun ha hl => ?_⟩
  obtain ⟨d, hd, hA⟩ := hd [] m0
  rw [List.append_nil] at hd
  refine drive_mode (modeLog2 L c E1 E2 logBase thr r1 r2 base radius bound) c 2 hin (by omega) hn
    hst junk m0 s'.val bs (2 * (r1 * r2) * c.size) ?_ ⟨d, hd, hA⟩ ha hl
  simp only [modeLog2, hbs, Option.map_some]

/-- **C81** for the logarithmic mode of the 3D driver; the hypotheses `hcol` and `hsmall` are those of
C28, whose claim is false without them. -/
theorem C81_log3 (L : VMode.LOps T D) (HL : VMode.LogLaws L) (c : Codec T) (E1 E2 : Env)
    (logBase thr tiny : D) (r1 r2 r3 : Nat) (base radius : Int)
    (bound : VMode.Arr T → Nat → Option D) {fs : FS} {files : List (String × List T)}
    (hin : Inputs c (r1 * r2 * r3) 3 fs files) {lossless} (hst : Stage lossless) (junk : T)
    (m0 : Nat → Nat → T) (s' : VMode.State T) (str : VMode.Streams T)
    (h : VMode.compress (ThreeD.logMode3 L logBase thr (ThreeD.lorenzo3 L.toOps r2 r3) base radius)
      (ThreeD.planLog3 L tiny (ThreeD.escMax L.toDOps logBase thr) bound) (r1 * r2 * r3)
      (view junk (files.map Prod.snd)) = some (s', str))
    (hn : 0 < r1 * r2 * r3) (hb : 0 ≤ base ∧ base < 2 ^ 31) (hr : 0 ≤ radius ∧ radius < 2 ^ 31)
    (f1 : Fits E1 (2 * 256) str.eb) (f2 : Fits E2 (2 * (2 * radius).toNat) str.dq)
    (hun : str.un.length < 2 ^ 64)
    (hcol : ∀ s p a, p < r1 * r2 * r3 →
      ThreeD.planLog3 L tiny (ThreeD.escMax L.toDOps logBase thr) bound s p =
        some (.try a (ThreeD.escMax L.toDOps logBase thr)) →
      (ebQuant L.toDOps base logBase thr a).2 ≠ ThreeD.escMax L.toDOps logBase thr)
    (hsmall : ∀ c q e, c < 3 → q < r1 * r2 * r3 → str.eb[q]? = some e → e ≠ 0 →
      e ≠ ThreeD.escMax L.toDOps logBase thr → L.ltM99 (s'.cod c q) = false) :
    ∃ bs, VMode.compressBytes L c E1 E2 (2 * 256) true
        (ThreeD.logMode3 L logBase thr (ThreeD.lorenzo3 L.toOps r2 r3)) base radius
        (ThreeD.planLog3 L tiny (ThreeD.escMax L.toDOps logBase thr) bound) (r1 * r2 * r3)
        (view junk (files.map Prod.snd)) = some (s'.val, bs) ∧
      (bs.length ≤ 3 * (r1 * r2 * r3) * c.size → (bs.length < 100 ∨ 320 < bs.length) →
        ∃ fs', drive (modeLog3 L c E1 E2 logBase thr tiny r1 r2 r3 base radius bound) c lossless junk m0
            (files.map Prod.fst) fs = some fs' ∧
          Wrote c (r1 * r2 * r3) s'.val (files.map Prod.fst) fs fs') := by
  obtain ⟨bs, hbs, hd⟩ := ThreeD.C28_log3_roundtrip_partial L HL c E1 E2 logBase thr tiny r1 r2 r3 base
    radius bound _ s' str h hn hb hr f1 f2 hun hcol hsmall
  refine ⟨bs, hbs, fun ha hl => ?_⟩
  obtain ⟨d, hd, hA⟩ := hd [] m0
  rw [List.append_nil] at hd
  refine drive_mode (modeLog3 L c E1 E2 logBase thr tiny r1 r2 r3 base radius bound) c 3 hin (by omega)
    hn hst junk m0 s'.val bs (3 * (r1 * r2 * r3) * c.size) ?_ ⟨d, hd, hA⟩ ha hl
  simp only [modeLog3, hbs, Option.map_some]

/-! ### Examples -/

/-- A codec of zstd that keeps its promises, wrapped by the code. -/
theorem stage_strict : Stage (through strict (estimate (fl nearest 53)) (fun _ => 7#8) (fun _ => 9#8)) :=
  ⟨strict, _, _, _, _, strict_contract, fl_isFloat nearest_rounding (by norm_num), by norm_num, rfl⟩

def exU : List (BitVec 64) := [100#64, 101#64, 102#64, 100#64, 101#64, 102#64, 100#64, 101#64, 190#64]
def exV : List (BitVec 64) := [7#64, 7#64, 7#64, 7#64, 7#64, 7#64, 7#64, 7#64, 7#64]

/-- Two files of nine elements, and a third one. -/
def exFS : FS := fun name =>
  if name = "u" then some (writeArray toyCodec exU)
  else if name = "v" then some (writeArray toyCodec exV)
  else if name = "notes" then some [1#8] else none

def exBound : Online2D.Field (BitVec 64) → Nat → Option (BitVec 64) :=
  Mesh2D.requiredEb 3 3 8#64 (fun a _ => a) (fun _ _ _ _ _ _ _ => 8#64)

def exEnv : Env := ⟨fun _ => true, 0#64, 0, fun _ => 0#8⟩

theorem exInputs : Inputs toyCodec (3 * 3) 2 exFS [("u", exU), ("v", exV)] := by
  refine ⟨by decide, ?_, by decide, rfl, by decide⟩
  intro p hp
  simp only [List.mem_cons, List.not_mem_nil, or_false] at hp
  rcases hp with rfl | rfl
  · rfl
  · exact (if_neg (by decide)).trans (if_pos rfl)

/-- The 2D driver on a 3 by 3 grid, from two files to two files. -/
example : ∃ fs', drive (modeOnline toyOps toyCodec toyCodec exEnv exEnv Online2D.toyPar 3 3
      (fun req _ => req) exBound) toyCodec
      (through strict (estimate (fl nearest 53)) (fun _ => 7#8) (fun _ => 9#8)) 0#64
      (fun _ _ => 1#64) ["u", "v"] exFS = some fs' ∧
    fs'.read toyCodec "u.out" = some [96#64, 96#64, 96#64, 96#64, 96#64, 96#64, 96#64, 96#64, 192#64] ∧
    fs' "notes" = some [1#8] := by
  have hv : (Online2D.compress toyOps Online2D.toyPar 3 3 (fun req _ => req) exBound
      (toField (view 0#64 [exU, exV]))).map
      (fun r => (r.2.eb, r.2.dq, (List.range 9).map r.1.u)) =
      some (List.replicate 18 3,
        [38, 32, 32, 32, 32, 32, 32, 32, 32, 32, 32, 32, 32, 32, 32, 32, 38, 32],
        [96#64, 96#64, 96#64, 96#64, 96#64, 96#64, 96#64, 96#64, 192#64]) := by
    decide +kernel
  have hl : ((Online2D.compressBytes toyOps toyCodec toyCodec exEnv exEnv Online2D.toyPar 3 3
      (fun req _ => req) exBound (toField (view 0#64 [exU, exV]))).map fun x => x.2.length) =
      some 97 := by
    decide +kernel
  generalize hc : Online2D.compress toyOps Online2D.toyPar 3 3 (fun req _ => req) exBound
      (toField (view 0#64 [exU, exV])) = r at hv
  cases r with
  | none => cases hv
  | some r =>
    obtain ⟨m', s⟩ := r
    simp only [Option.map_some, Option.some.injEq, Prod.mk.injEq] at hv
    obtain ⟨h1, h2, h3⟩ := hv
    obtain ⟨bs, hb, hrun⟩ := C81_online toyOps toyCodec toyCodec exEnv exEnv Online2D.toyPar 3 3
      (fun req _ => req) exBound exInputs stage_strict 0#64 (fun _ _ => 1#64) m' s hc (by decide)
      (by decide) (by decide) (by decide)
      (by rw [h1]; exact fits_of_short _ _ _ (by decide) (by decide) (by decide) (by decide))
      (by rw [h2]; exact fits_of_short _ _ _ (by decide) (by decide) (by decide) (by decide))
    have hlen : bs.length = 97 := by
      have hb' : Online2D.compressBytes toyOps toyCodec toyCodec exEnv exEnv Online2D.toyPar 3 3
        (fun req _ => req) exBound (toField (view 0#64 [exU, exV])) = some (m', bs) := hb
      rw [hb'] at hl
      exact Option.some.inj hl
    obtain ⟨fs', hd, hw1, hw2⟩ := hrun (by rw [hlen]; decide) (by rw [hlen]; decide)
    refine ⟨fs', hd, ?_, ?_⟩
    · have := hw1 0 (by decide)
      exact this.trans (congrArg some h3)
    · exact hw2 "notes" (by decide)

/-- A grid size that does not fit the files. -/
example (M : Mode (BitVec 64)) (hM : M.n = 8) (lossless : List Byte → Option (List Byte))
    (m0 : Nat → Nat → BitVec 64) : drive M toyCodec lossless 0#64 m0 ["u", "v"] exFS = none := by
  cases h : drive M toyCodec lossless 0#64 m0 ["u", "v"] exFS with
  | none => rfl
  | some fs' =>
    obtain ⟨inputs, hi, -, hl, -⟩ := C81_sizes M toyCodec lossless 0#64 m0 _ exFS fs' h
    rw [show ["u", "v"] = [("u", exU), ("v", exV)].map Prod.fst from rfl,
      mapM_read toyCodec (by decide) exFS _ exInputs.present] at hi
    cases hi
    rw [hM] at hl
    exact absurd hl (by decide)

/-- Seven floats per component are too few for the relative mode; so is the driver of C81_online_small
with elements of eight bytes on a grid of three vertices. -/
example (bound : Online2D.Field (BitVec 64) → Nat → Option (BitVec 64))
    (lossless : List Byte → Option (List Byte)) (m0 : Nat → Nat → BitVec 64) (fs : FS) :
    2 * (1 * 7) * 4 < 64 ∧
    drive (modeOnline toyOps toyCodec toyCodec exEnv exEnv Online2D.toyPar 1 3 (fun req _ => req)
      bound) toyCodec lossless 0#64 m0 ["u", "v"] fs = none :=
  ⟨by decide, C81_online_small toyOps toyCodec toyCodec exEnv exEnv Online2D.toyPar 1 3 _ bound rfl
    (by decide) lossless 0#64 m0 _ fs⟩

end CpSZ.Drivers
