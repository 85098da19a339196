import Verif.Props.IeeeLog3
import Verif.Props.Unstructured
/-
Property C96: the unstructured log mode in IEEE-754 arithmetic, from bytes to bytes.
-/

namespace CpSZ.Ieee
open CpSZ.VMode CpSZ.ThreeD CpSZ.Mesh3D

/-- The mode of the unstructured log mode on bit patterns
(src/sz_compress_cp_preserve_3d.cpp L1023-1029): the prediction is the previous vertex. -/
def unstrMode (F : Fmt) (tr : Pat binary64 → Int) (lg : Pat binary64 → Pat binary64)
    (lgT exT : Pat F → Pat F) : Int → Int → Mode (Pat F) (Pat binary64) :=
  logMode3 (bitsL F tr lg lgT exT) (lbL lg) thrL (predPrev (bitsL F tr lg lgT exT).toOps)

/-- The bound of a vertex (src/sz_compress_cp_preserve_3d.cpp L1041-1057): bounds below `1e-10`
become 0. -/
def unstrPlan (F : Fmt) (tr : Pat binary64 → Int) (lg : Pat binary64 → Pat binary64)
    (lgT exT : Pat F → Pat F) (inds : Nat → Int) (adj : Nat → List (Nat × Nat))
    (maxEb : Pat binary64) : State (Pat F) → Nat → Option (Plan (Pat binary64)) :=
  planLog3 (bitsL F tr lg lgT exT) (enc binary64 false (round binary64 (1 / 10 ^ 10))) 0
    (fun f p => some (boundU (bitsOps F tr lg).toDOps inds adj maxEb
      (deriveLog3T (bitsOps F tr lg) (bitsE F tr lg false)) f p))

/-- `sz_compress_cp_preserve_3d_unstructured` (src/sz_compress_cp_preserve_3d.cpp L1009-1145): the run
on bit patterns. -/
def runUnstr (F : Fmt) (tr : Pat binary64 → Int) (lg : Pat binary64 → Pat binary64)
    (lgT exT : Pat F → Pat F) (n : Nat) (inds : Nat → Int) (adj : Nat → List (Nat × Nat))
    (maxEb : Pat binary64) (data : Arr (Pat F)) :
    Option (State (Pat F) × VMode.Streams (Pat F)) :=
  VMode.compress (unstrMode F tr lg lgT exT 2 32768) (unstrPlan F tr lg lgT exT inds adj maxEb) n data

theorem runUnstr_defined (F : Fmt) (tr lg) (lgT exT : Pat F → Pat F) (n : Nat) (inds : Nat → Int)
    (adj : Nat → List (Nat × Nat)) (maxEb : Pat binary64) (data : Arr (Pat F)) :
    ∃ s' str, runUnstr F tr lg lgT exT n inds adj maxEb data = some (s', str) :=
  VMode.compress_defined _ _ _ _ fun _ _ _ => planLog3_defined rfl

section
variable {F : Fmt} {tr : Pat binary64 → Int} {lg : Pat binary64 → Pat binary64}
  {lgT exT : Pat F → Pat F} {eps : ℚ}

/-- From the run to the bytes. -/
theorem unstr_core (hF : F.Ok) {lb thr tiny : Pat binary64}
    (h24 : escMax (bitsL F tr lg lgT exT).toDOps lb thr = 24)
    {bound : Arr (Pat F) → Nat → Option (Pat binary64)} {n : Nat} (hn : 0 < n)
    {data : Arr (Pat F)} (cT : Codec (Pat F)) (E1 E2 : Env) {s' : State (Pat F)}
    {str : VMode.Streams (Pat F)}
    (h : VMode.compress (logMode3 (bitsL F tr lg lgT exT) lb thr
        (predPrev (bitsL F tr lg lgT exT).toOps) 2 32768)
      (planLog3 (bitsL F tr lg lgT exT) tiny 0 bound) n data = some (s', str))
    (hg : VMode.compress (logMode3 (bitsL F tr lg lgT exT) lb thr
        (predPrev (bitsL F tr lg lgT exT).toOps) 2 32768)
      (guardPlan (logMode3 (bitsL F tr lg lgT exT) lb thr
        (predPrev (bitsL F tr lg lgT exT).toOps) 2 32768) 24
        (planLog3 (bitsL F tr lg lgT exT) tiny 0 bound)) n data = some (s', str))
    (hw : ∀ c q, c < 3 → q < n → ∃ l, dec F (s'.cod c q) = .fin l ∧ -99 ≤ l)
    (f1 : Fits E1 (2 * 256) str.eb) (f2 : Fits E2 (2 * 65536) str.dq)
    (hun : str.un.length < 2 ^ 64) :
    ∃ bs, compressBytesU (bitsL F tr lg lgT exT) cT E1 E2 (logMode3 (bitsL F tr lg lgT exT) lb thr
          (predPrev (bitsL F tr lg lgT exT).toOps)) 2 32768
        (planLog3 (bitsL F tr lg lgT exT) tiny 0 bound) n data = some (s'.val, bs) ∧
      ∀ rest m0, ∃ d, decompressBytesU (bitsL F tr lg lgT exT) cT
          (logMode3 (bitsL F tr lg lgT exT) lb thr (predPrev (bitsL F tr lg lgT exT).toOps)) n m0
          (bs ++ rest) = some d ∧ ∀ c q, c < 3 → q < n → d c q = s'.val c q := by
  obtain ⟨bs, hs, hp⟩ := serialize_parse cT E1 E2 (2 * 256) true 2 32768
    [signsU (bitsL F tr lg lgT exT) n data] str n 3 (3 * n) (by omega) (by
      intro m hm
      simp only [List.mem_singleton] at hm
      subst hm
      exact ⟨signsU_length _ n data, signsU_flags _ n data⟩)
    (fun h => by cases h) (fun h => by cases h) hun ⟨by norm_num, by norm_num⟩
    ⟨by norm_num, by norm_num⟩ f1 f2
  refine ⟨bs, by simp only [compressBytesU, h, hs], fun rest m0 => ?_⟩
  obtain ⟨d, hd, hA⟩ := lockstepU (bitsL F tr lg lgT exT) (bitsL_laws hF) _ rfl rfl _ n
    (good_guard3 hF h24 (Or.inl rfl) (predPrev_congr _) bound n) data m0 s' str hg (by
      intro c q _ hc hq _ _
      obtain ⟨l, m1, m2⟩ := hw c q hc hq
      change Fp.lt (dec F (s'.cod c q)) (.fin (-99)) = false
      rw [m1]
      simpa [Fp.lt] using m2)
  have hp := hp rest
  simp only [List.length_cons, List.length_nil, Nat.zero_add] at hp
  exact ⟨d, by simp only [decompressBytesU, hp]; exact hd, hA⟩

/-- The bound of the unstructured mode. -/
theorem boundU_le (hF : F.Ok) (hp : F.p ≤ binary64.p) (hu : binary64.umin ≤ F.umin)
    (hemax : F.emax ≤ binary64.emax) (hlg : LogOk lg eps) {r : Int} (h0 : 0 ≤ r)
    (h1 : 3 * r + 11 ≤ F.emax) (h2 : 3 * r + 18 ≤ 1023) {n m : Nat} {inds : Nat → Int}
    {adj : Nat → List (Nat × Nat)} (hadj : pointTets n m inds = some adj) {maxEb : Pat binary64}
    {e : ℚ} (hm : dec binary64 maxEb = .fin e) (f : Arr (Pat F)) (p : Nat)
    (hf : ∀ c q, c < 3 → q < n → Bd (dec F) (r + 2) (f c q)) :
    LeV e (dec binary64 (boundU (bitsOps F tr lg).toDOps inds adj maxEb
      (deriveLog3T (bitsOps F tr lg) (bitsE F tr lg false)) f p)) := by
  have hO := bits_ieee hF hp hu hemax tr hlg
  have hall := (C30_adjacency n m inds).1.1 ⟨adj, hadj⟩
  have hmem := (pointTets_isAdj hadj).mem p
  have hstart : LeV e (dec binary64 maxEb) := Or.inr ⟨e, hm, le_refl _⟩
  unfold boundU
  generalize adj p = l at hmem
  have hm' : ∀ x ∈ l, x.1 < m ∧ x.2 < 4 := fun x hx =>
    ⟨((hmem x.1 x.2).1 hx).1, ((hmem x.1 x.2).1 hx).2.1⟩
  clear hmem
  clear hm
  induction l generalizing maxEb with
  | nil => exact hstart
  | cons x l ih =>
    rw [List.foldl_cons]
    obtain ⟨x1, x2⟩ := hm' x (List.mem_cons_self ..)
    refine ih ?_ (fun y hy => hm' y (List.mem_cons_of_mem _ hy))
    have hq : ∀ k, (inds (4 * x.1 + (rotated x.2).getD k 0)).toNat < n := by
      intro k
      have h4 : (rotated x.2).getD k 0 < 4 := by
        have : ∀ j, j < 4 → ∀ y ∈ rotated j, y < 4 := by decide
        rw [List.getD_eq_getElem?_getD]
        cases hk : (rotated x.2)[k]? with
        | none => norm_num
        | some y => exact this _ x2 _ (List.mem_of_getElem? hk)
      have := hall (4 * x.1 + (rotated x.2).getD k 0) (by omega)
      omega
    exact minf_le hO hstart (deriveLog3_not_nan hO (bits_ieeeE hF hp hu hemax tr hlg false) hF
      (k := r + 2) (by omega) (by omega) (by omega) (fun i hi => hf i _ hi (hq 0))
      (fun i hi => hf i _ hi (hq 1)) (fun i hi => hf i _ hi (hq 2)) (fun i hi => hf i _ hi (hq 3)))

/-- The bytes, for data between `2^-97` and `2^r`. -/
theorem unstr_bytes (hF : F.Ok) (hp : F.p ≤ binary64.p) (hu : binary64.umin ≤ F.umin)
    (hemax : F.emax ≤ binary64.emax) (hemin : F.emin ≤ -23) (hlg : LogOk lg eps) (hup : LogUp lg)
    (H : ExpLogOk F lgT exT) (he0 : 0 ≤ eps) (he1 : eps ≤ p2 (-31)) {r : Int} (hr0 : 0 ≤ r)
    (h1 : r ≤ 124) (h2 : 3 * r + 11 ≤ F.emax)
    (hlb : dec binary64 (lbL lg) = .fin 1)
    (h23 : ∀ a, dec binary64 a = .fin (p2 23) → dec binary64 (lg a) = .fin 23)
    {n m : Nat} {inds : Nat → Int} {adj : Nat → List (Nat × Nat)}
    (hadj : pointTets n m inds = some adj) (hn : 0 < n) (hn2 : 3 * n < 2 ^ 31)
    {maxEb : Pat binary64} {e : ℚ} (hm : dec binary64 maxEb = .fin e) (hep : 0 ≤ e) (her : e ≤ 1)
    {data : Arr (Pat F)} (hf : ∀ c q, c < 3 → q < n → LogNz F r (data c q)) (cT : Codec (Pat F))
    (E1 E2 : Env) {s' : State (Pat F)} {str : VMode.Streams (Pat F)}
    (h : runUnstr F tr lg lgT exT n inds adj maxEb data = some (s', str))
    (hd : str.dq ≠ []) (hs : Shallow E2 (2 * 65536) str.dq) :
    ∃ bs, compressBytesU (bitsL F tr lg lgT exT) cT E1 E2 (unstrMode F tr lg lgT exT) 2 32768
        (unstrPlan F tr lg lgT exT inds adj maxEb) n data = some (s'.val, bs) ∧
      ∀ rest m0, ∃ d, decompressBytesU (bitsL F tr lg lgT exT) cT (unstrMode F tr lg lgT exT) n m0
          (bs ++ rest) = some d ∧
        ∀ c q, c < 3 → q < n → LogClose F (e + p2 (-14)) (d c q) (data c q) := by
  have hthr : dec binary64 thrL = .fin (p2 (-23)) := dec_enc ok64 _ (rep_p2 (by decide) (by decide))
  obtain ⟨hw, hc1, hc2, hg⟩ := log3_run hF hp hu hemax hemin hlg hup H he0 he1 h1 hlb hthr
    (esc := 0) (by norm_num) hep her (fun f p req _ hbd hr => by
      simp only [Option.some.injEq] at hr
      rw [← hr]
      exact boundU_le hF hp hu hemax hlg hr0 h2 (by omega) hadj hm f p hbd) hf h
  obtain ⟨l1, -, l3, l4⟩ := VMode.compress_lengths _ _ _ _ _ _ h
  change _ ≤ 3 * n at l3 l4
  have f1 : Fits E1 (2 * 256) str.eb := fits_of_low (ne_nil_of_length (by omega)) (by omega)
    (by norm_num) (by norm_num) (fun x hx => by have := hc1 x hx; omega)
  have f2 : Fits E2 (2 * 65536) str.dq := fits_of_range hd (by omega)
    (by norm_num) (fun x hx => by have := hc2 x hx; push_cast; omega) hs
  obtain ⟨bs, hbs, hd⟩ := unstr_core hF (escMax_bits hF hp hu hemax hlg hlb hthr h23) hn cT E1 E2 h hg
    (fun c q hc hq => (hw c q hc hq).2) f1 f2 (by omega)
  refine ⟨bs, hbs, fun rest m0 => ?_⟩
  obtain ⟨d, d1, d2⟩ := hd rest m0
  refine ⟨d, d1, fun c q hc hq => ?_⟩
  rw [d2 c q hc hq]
  obtain ⟨X, x1, x2, x3⟩ := hf c q hc hq
  exact logClose_of_cl hep her ⟨X, x1, Or.inr x2, x3⟩ (hw c q hc hq).1

end

/-- C96.  `n` vectors (three components in a row, `3 n` fits an `int`) and `m` tetrahedra with valid
vertex numbers; the components are bit patterns of numbers of magnitude between `2^-97` and `2^38`
(`float`) or `2^124` (`double`), and the relative bound of the user is at most 1.  Arithmetic and
library functions are as in `C95_log3`.  The compressor runs; if there is a data code and no code
word of the data codes is longer than 64 bits it produces a stream, and whatever the decompressor
finds behind it, every component it returns is a number with the sign of the original and a
relative error of at most the bound of the user plus `2^-14`. -/
theorem C96_unstructured (F : Fmt) (r : Int)
    (hFr : (F = binary32 ∧ r = 38) ∨ (F = binary64 ∧ r = 124)) (tr : Pat binary64 → Int)
    (lg : Pat binary64 → Pat binary64) (lgT exT : Pat F → Pat F) (eps : ℚ)
    (hlg : LogOk lg eps) (hup : LogUp lg) (H : ExpLogOk F lgT exT)
    (hlb : dec binary64 (lg (enc binary64 false (.fin 2))) = .fin 1)
    (h23 : ∀ a, dec binary64 a = .fin (p2 23) → dec binary64 (lg a) = .fin 23)
    (he0 : 0 ≤ eps) (he1 : eps ≤ p2 (-31)) (cT : Codec (Pat F)) (E1 E2 : Env)
    (n m : Nat) (inds : Nat → Int) (hind : ∀ k, k < 4 * m → 0 ≤ inds k ∧ inds k < n)
    (hn : 0 < n) (hn2 : 3 * n < 2 ^ 31)
    (maxEb : Pat binary64) (e : ℚ) (hm : dec binary64 maxEb = .fin e) (hep : 0 ≤ e)
    (her : e ≤ 1) (data : Arr (Pat F)) (hf : ∀ c q, c < 3 → q < n → LogNz F r (data c q)) :
    ∃ adj s' str, pointTets n m inds = some adj ∧
      runUnstr F tr lg lgT exT n inds adj maxEb data = some (s', str) ∧
      (str.dq ≠ [] → Shallow E2 (2 * 65536) str.dq →
        ∃ bs, compressBytesU (bitsL F tr lg lgT exT) cT E1 E2 (unstrMode F tr lg lgT exT) 2 32768
            (unstrPlan F tr lg lgT exT inds adj maxEb) n data = some (s'.val, bs) ∧
          ∀ rest m0, ∃ d, decompressBytesU (bitsL F tr lg lgT exT) cT (unstrMode F tr lg lgT exT) n
              m0 (bs ++ rest) = some d ∧
            ∀ c q, c < 3 → q < n → LogClose F (e + p2 (-14)) (d c q) (data c q)) := by
  obtain ⟨adj, hadj⟩ := (C30_adjacency n m inds).1.2 hind
  obtain ⟨s', str, h⟩ := runUnstr_defined F tr lg lgT exT n inds adj maxEb data
  refine ⟨adj, s', str, hadj, h, fun hd hs => ?_⟩
  rcases hFr with ⟨rfl, rfl⟩ | ⟨rfl, rfl⟩
  · exact unstr_bytes ok32 (by decide) (by decide) (by decide) (by decide) hlg hup H he0 he1
      (by norm_num) (by norm_num) (by decide) hlb h23 hadj hn hn2 hm hep her hf cT E1 E2 h hd hs
  · exact unstr_bytes ok64 (by decide) (by decide) (by decide) (by decide) hlg hup H he0 he1
      (by norm_num) (by norm_num) (by decide) hlb h23 hadj hn hn2 hm hep her hf cT E1 E2 h hd hs

/-! ### Example -/

/-- Five vectors of one octant. -/
def fiveVectors : Arr (Pat binary32) := fun c q =>
  f32 (([[3, 4, 4, 4, 4], [4, 1, 4, 2, 4], [4, 4, 2, 4, 4]].getD c []).getD q 0)

theorem five_seen : ∃ adj, pointTets 5 2 twoTets = some adj ∧
    seenL3 [0] (runUnstr binary32 (fun _ => 0) fineLog2 (libLog binary32) (libExp binary32) 5 twoTets
      adj ebUnit fiveVectors) =
    some (9, [23, 23, 0, 0, 0], [32769, 32769, 32769, 32768, 32767, 32768],
      [.fin 4, .fin 4, .fin 4, .fin 2, .fin 2, .fin 2]) := by
  refine ⟨_, rfl, ?_⟩
  decide +kernel

/-- The hypotheses of `C96_unstructured` are met by two tetrahedra with a common face and the
relative bound 1: two of the five vertices are coded, the first with a reconstruction that differs
from the data, and the bytes decode to numbers within the bound. -/
example (E1 E2 : Env) : ∃ adj s' str bs, pointTets 5 2 twoTets = some adj ∧
    runUnstr binary32 (fun _ => 0) fineLog2 (libLog binary32) (libExp binary32) 5 twoTets adj ebUnit
      fiveVectors = some (s', str) ∧ str.eb = [23, 23, 0, 0, 0] ∧
    dec binary32 (s'.val 0 0) ≠ dec binary32 (fiveVectors 0 0) ∧
    compressBytesU (bitsL binary32 (fun _ => 0) fineLog2 (libLog binary32) (libExp binary32))
      (wordCodec 4) E1 E2
      (unstrMode binary32 (fun _ => 0) fineLog2 (libLog binary32) (libExp binary32)) 2 32768
      (unstrPlan binary32 (fun _ => 0) fineLog2 (libLog binary32) (libExp binary32) twoTets adj ebUnit)
      5 fiveVectors = some (s'.val, bs) ∧
    ∀ m0, ∃ d, decompressBytesU
        (bitsL binary32 (fun _ => 0) fineLog2 (libLog binary32) (libExp binary32)) (wordCodec 4)
        (unstrMode binary32 (fun _ => 0) fineLog2 (libLog binary32) (libExp binary32)) 5 m0 bs =
          some d ∧
      ∀ c q, c < 3 → q < 5 → LogClose binary32 (1 + p2 (-14)) (d c q) (fiveVectors c q) := by
  have hm : dec binary64 ebUnit = .fin 1 := by decide +kernel
  obtain ⟨adj, s', str, hadj, h, hc⟩ := C96_unstructured binary32 38 (Or.inl ⟨rfl, rfl⟩) (fun _ => 0)
    fineLog2 (libLog binary32) (libExp binary32) 0 fineLog2_ok fineLog2_up
    (lib_ok ok32 (by decide) (by decide) (by decide)) fineLog2_two fineLog2_23 (le_refl 0)
    (p2_pos _).le (wordCodec 4) E1 E2 5 2 twoTets (by decide +kernel) (by norm_num) (by norm_num)
    ebUnit _ hm (by norm_num) (by norm_num) fiveVectors (by
      intro c q hc hq
      have : ∀ c ∈ List.range 3, ∀ q ∈ List.range 5,
        logSizeB binary32 38 (fiveVectors c q) = true := by decide +kernel
      exact logNz_of (this c (List.mem_range.2 hc) q (List.mem_range.2 hq)))
  obtain ⟨adj', hadj', hs⟩ := five_seen
  rw [hadj] at hadj'
  cases hadj'
  obtain ⟨f, t, h1, h2, h3, h4, h5⟩ := seenL3_some hs
  rw [h1] at h
  simp only [Option.some.injEq, Prod.mk.injEq] at h
  obtain ⟨rfl, rfl⟩ := h
  obtain ⟨bs, b1, b2⟩ := hc (by rw [h4]; simp)
    (shallow_of_short (by rw [h4]; simp) (by rw [h4]; simp) (by norm_num) (by rw [h4]; simp))
  refine ⟨adj, f, t, bs, hadj, h1, h3, ?_, b1, fun m0 => ?_⟩
  · have e : dec binary32 (f.val 0 0) = .fin 4 := by
      simp only [List.flatMap_cons, List.map_cons, List.cons_append, List.cons.injEq] at h5
      exact h5.1
    rw [e]
    decide +kernel
  · obtain ⟨d, d1, d2⟩ := b2 [] m0
    rw [List.append_nil] at d1
    exact ⟨d, d1, d2⟩

/-! ### Witness -/

theorem compressBytesU_eq {T D : Type} {L : LOps T D} {c : Codec T} {E1 E2 : Env}
    {mk : Int → Int → Mode T D} {base radius : Int} {plan : State T → Nat → Option (Plan D)}
    {n : Nat} {data : Arr T} {s' : State T} {str : VMode.Streams T} {bs : List Byte}
    (h : VMode.compress (mk base radius) plan n data = some (s', str))
    (hs : serialize c E1 E2 (2 * 256) true base radius [signsU L n data] str = some bs) :
    compressBytesU L c E1 E2 mk base radius plan n data = some (s'.val, bs) := by
  simp only [compressBytesU, h, hs]

theorem decompressBytesU_eq {T D : Type} {L : LOps T D} {c : Codec T}
    {mk : Int → Int → Mode T D} {base radius : Int} {n : Nat} {m0 d : Arr T} {l : List Byte}
    {str : VMode.Streams T} {bs : List Byte}
    (hp : parse c (2 * 256) true n 3 1 (3 * n) bs = some (base, radius, [l], str))
    (hd : decompressU L (mk base radius) n m0 l str = some d) :
    decompressBytesU L c mk n m0 bs = some d := by
  simp only [decompressBytesU, hp]
  exact hd

/-- One vertex, with the components 0, 3 and 3. -/
def zeroVertex3 : Arr (Pat binary32) := fun c _ => if c = 0 then 0#32 else f32 3

theorem zero_seen :
    seenL3 [] (runUnstr binary32 (fun _ => 0) fineLog2 (libLog binary32) (libExp binary32) 1 (fun _ => 0)
      (fun _ => []) ebUnit zeroVertex3) =
    some (0, [23], [32718, 32769, 32769], []) := by
  decide +kernel

theorem zero_decoded :
    (decompressU (bitsL binary32 (fun _ => 0) fineLog2 (libLog binary32) (libExp binary32))
      (unstrMode binary32 (fun _ => 0) fineLog2 (libLog binary32) (libExp binary32) 2 32768) 1
      (fun _ _ => 0#32)
      (signsU (bitsL binary32 (fun _ => 0) fineLog2 (libLog binary32) (libExp binary32)) 1 zeroVertex3)
      ⟨[23], [32718, 32769, 32769], []⟩).map
        (fun d => [dec binary32 (d 0 0), dec binary32 (d 1 0), dec binary32 (d 2 0)]) =
    some [.fin 0, .fin (-4), .fin 4] := by
  decide +kernel

/-- C96 for data with zeros is false: the vertex with the components 0, 3 and 3 and the relative
bound 1 comes back from the bytes as 0, -4 and 4, the second component with the wrong sign. -/
theorem C96_zero_flips_sign (E1 E2 : Env) (rest : List Byte) :
    ExpLogOk binary32 (libLog binary32) (libExp binary32) ∧
    pointTets 1 0 (fun _ => 0) = some (fun _ => []) ∧
    dec binary32 (zeroVertex3 0 0) = .fin 0 ∧ dec binary32 (zeroVertex3 1 0) = .fin 3 ∧
    dec binary64 ebUnit = .fin 1 ∧
    ∃ v bs d, compressBytesU
        (bitsL binary32 (fun _ => 0) fineLog2 (libLog binary32) (libExp binary32)) (wordCodec 4) E1 E2
        (unstrMode binary32 (fun _ => 0) fineLog2 (libLog binary32) (libExp binary32)) 2 32768
        (unstrPlan binary32 (fun _ => 0) fineLog2 (libLog binary32) (libExp binary32) (fun _ => 0)
          (fun _ => []) ebUnit) 1 zeroVertex3 = some (v, bs) ∧
      decompressBytesU
          (bitsL binary32 (fun _ => 0) fineLog2 (libLog binary32) (libExp binary32)) (wordCodec 4)
          (unstrMode binary32 (fun _ => 0) fineLog2 (libLog binary32) (libExp binary32)) 1
          (fun _ _ => 0#32) (bs ++ rest) = some d ∧
        dec binary32 (d 0 0) = .fin 0 ∧ dec binary32 (d 1 0) = .fin (-4) ∧
        dec binary32 (d 2 0) = .fin 4 := by
  refine ⟨lib_ok ok32 (by decide) (by decide) (by decide), rfl, by decide +kernel, by decide +kernel,
    by decide +kernel, ?_⟩
  obtain ⟨f, ⟨eb, dq, un⟩, h1, h2, h3, h4, -⟩ := seenL3_some zero_seen
  simp only at h2 h3 h4
  have h2 : un = [] := List.length_eq_zero_iff.1 h2
  subst h2 h3 h4
  obtain ⟨bs, hs, hp⟩ := serialize_parse (wordCodec 4) E1 E2 (2 * 256) true 2 32768
    [signsU (bitsL binary32 (fun _ => 0) fineLog2 (libLog binary32) (libExp binary32)) 1 zeroVertex3]
    ⟨[23], [32718, 32769, 32769], []⟩ 1 3 (3 * 1) (by omega) (by
      intro m hm
      simp only [List.mem_singleton] at hm
      subst hm
      exact ⟨signsU_length _ 1 _, signsU_flags _ 1 _⟩)
    (fun h => by cases h) (fun h => by cases h) (by simp) ⟨by norm_num, by norm_num⟩
    ⟨by norm_num, by norm_num⟩
    (fits_of_short _ _ _ (by simp) (by simp) (by norm_num) (by simp))
    (fits_of_short _ _ _ (by simp) (by simp) (by decide) (by simp))
  obtain ⟨d, hd, hv⟩ := Option.map_eq_some_iff.1 zero_decoded
  simp only [List.cons.injEq, and_true] at hv
  refine ⟨f.val, bs, d, ?_, ?_, hv⟩
  · have h1' : VMode.compress (unstrMode binary32 (fun _ => 0) fineLog2 (libLog binary32)
        (libExp binary32) 2 32768) (unstrPlan binary32 (fun _ => 0) fineLog2 (libLog binary32)
        (libExp binary32) (fun _ => 0) (fun _ => []) ebUnit) 1 zeroVertex3 =
          some (f, ⟨[23], [32718, 32769, 32769], []⟩) := h1
    exact compressBytesU_eq h1' hs
  · exact decompressBytesU_eq (hp rest) hd

end CpSZ.Ieee
