import Verif.Props.Ieee3
import Verif.Ieee.Keep
/-
Property C91: critical points of the 3D absolute mode in IEEE-754 arithmetic, from bytes to bytes.
-/

namespace CpSZ.Ieee
open CpSZ.VMode CpSZ.ThreeD CpSZ.Mesh3D

/-- The numbers the bit patterns of a field stand for. -/
noncomputable def real3 (F : Fmt) (f : Arr (Pat F)) : Nat → Nat → ℝ := fun c q => valR (dec F (f c q))

theorem zero_false {T D : Type} {O : Ops T D} {F : Fmt} {vT : T → Fp ℚ} {vD : D → Fp ℚ} {eps : ℚ}
    (hO : IsIeee O F vT vD eps) : (!eq0G O.toDOps (O.ofInt 0)) = false := by
  rw [hO.eq0_fin hO.zero]
  simp

theorem verts3_lt {r1 r2 r3 : Nat} {t : Tet} (ht : t.inGrid r1 r2 r3) {q : Nat}
    (hq : q ∈ t.verts r2 r3) : q < r1 * r2 * r3 := by
  obtain ⟨v, hv, rfl⟩ := List.mem_map.1 hq
  obtain ⟨a, b, c⟩ := corner_lt ht hv
  exact flat3_lt r1 r2 r3 v a b c

/-- Cells whose vertices are the same have the same critical points. -/
theorem cellCP_congr {F : Fmt} {f g : Arr (Pat F)} {cell : List Nat}
    (h : ∀ q ∈ cell, ∀ c, c < 3 → f c q = g c q) :
    cellCP (real3 F f) cell ↔ cellCP (real3 F g) cell := by
  unfold cellCP
  have : cell.map (vec (real3 F f)) = cell.map (vec (real3 F g)) := by
    refine List.map_congr_left fun q hq => ?_
    unfold vec real3
    rw [h q hq 0 (by norm_num), h q hq 1 (by norm_num), h q hq 2 (by norm_num)]
  rw [this]

theorem flaggedT {T D : Type} {O : Ops T D} {E : EOps T D} {logBase thr : D} {base radius : Int}
    {r1 r2 r3 : Nat} {maxEb : D} {check : List Nat → Bool} {data : Arr T} {s' : State T}
    {str : VMode.Streams T} (hz : (!eq0G O.toDOps (O.ofInt 0)) = false)
    (h : VMode.compress (absMode3 O logBase thr r2 r3 base radius)
      (planAbs3T O E r1 r2 r3 maxEb (computeCp check r1 r2 r3)) (r1 * r2 * r3) data =
        some (s', str))
    {t : Tet} (ht : t.inGrid r1 r2 r3) (hc : check (t.verts r2 r3) = true) {q : Nat}
    (hq : q ∈ t.verts r2 r3) (c : Nat) : s'.val c q = data c q :=
  C27_flagged_exact O logBase thr r1 r2 r3 base radius _ (fun x => !eq0G O.toDOps x) hz
    maxEb check _ data s' str h t ht hc q hq c

/-- The vertices of the flagged cells of a run are those of the data. -/
theorem flagged3 {F : Fmt} {tr : Pat binary64 → Int} {lg : Pat binary64 → Pat binary64}
    {r1 r2 r3 : Nat} {maxEb : Pat binary64} {check : List Nat → Bool} {data : Arr (Pat F)}
    {s' : State (Pat F)} {str : VMode.Streams (Pat F)}
    {eps : ℚ} (hO : IsIeee (bitsOps F tr lg) F (dec F) (dec binary64) eps)
    (h : runAbs3 F tr lg r1 r2 r3 maxEb (computeCp check r1 r2 r3) data = some (s', str))
    {t : Tet} (ht : t.inGrid r1 r2 r3) (hc : check (t.verts r2 r3) = true) {q : Nat}
    (hq : q ∈ t.verts r2 r3) (c : Nat) : s'.val c q = data c q := by
  have hz := zero_false hO
  exact flaggedT (O := bitsOps F tr lg) hz h ht hc hq c

/-- C91, `float`.  Data (finite, at most `2^38`, fewer than `2^58` vertices) and bound of the user
are bit patterns, the code computes with IEEE-754 arithmetic (assumptions as in C84), and the test
of `compute_cp` (a function of FTK, not in the repository) flags every tetrahedron in which the
interpolated field has a zero; it may flag others.  If there is a data code and no code word of the
data codes is longer than 64 bits, the compressor produces a stream, and whatever the decompressor
finds behind it, the vertices of every tetrahedron with a critical point come back bit for bit, so
the tetrahedron still has it. -/
theorem C91_float (tr : Pat binary64 → Int) (lg : Pat binary64 → Pat binary64) (eps : ℚ)
    (hlg : LogOk lg eps) (hlb : dec binary64 (lg (enc binary64 false (.fin 4))) = .fin 2)
    (he0 : 0 ≤ eps) (he1 : eps ≤ p2 (-30)) (E1 E2 : Env) (r1 r2 r3 : Nat)
    (hn : 0 < r1 * r2 * r3) (hn2 : r1 * r2 * r3 < 2 ^ 58)
    (maxEb : Pat binary64) (e : ℚ) (hm : dec binary64 maxEb = .fin e) (hep : 0 ≤ e)
    (her : e ≤ p2 38) (check : List Nat → Bool) (data : Arr (Pat binary32))
    (hck : ∀ t : Tet, t.inGrid r1 r2 r3 → cellCP (real3 binary32 data) (t.verts r2 r3) →
      check (t.verts r2 r3) = true)
    (hf : ∀ c q, c < 3 → q < r1 * r2 * r3 → Size binary32 (p2 38) (data c q)) :
    ∃ s' str, runAbs3 binary32 tr lg r1 r2 r3 maxEb (computeCp check r1 r2 r3) data =
        some (s', str) ∧
      (str.dq ≠ [] → Shallow E2 (2 * 65536) str.dq →
        ∃ bs, compressBytesAbs3 (wordCodec 4) (wordCodec 8) E1 E2 (bitsOps binary32 tr lg) (lb3 lg)
            thr3 r2 r3 4 32768
            (planBits3 binary32 tr lg r1 r2 r3 maxEb (computeCp check r1 r2 r3)) (r1 * r2 * r3)
            data = some (s'.val, bs) ∧
          ∀ rest m0 lb, ∃ d, decompressBytesAbs3 (wordCodec 4) (wordCodec 8)
              (bitsOps binary32 tr lg) lb r2 r3 (r1 * r2 * r3) m0 (bs ++ rest) = some d ∧
            ∀ t : Tet, t.inGrid r1 r2 r3 → cellCP (real3 binary32 data) (t.verts r2 r3) →
              (∀ q ∈ t.verts r2 r3, ∀ c, c < 3 → d c q = data c q) ∧
              cellCP (real3 binary32 d) (t.verts r2 r3)) := by
  obtain ⟨s', str, h, ⟨hc1, hc2⟩, -⟩ := abs3_bytes (F := binary32) ok32 (by decide) (by decide)
    (by decide) (by decide) (wordCodec 4) (tr := tr) hlg hlb he0 he1 (r := 38) (by norm_num)
    (by norm_num) (by decide) E1 E2 r1 r2 r3 maxEb hm hep her (computeCp check r1 r2 r3) data hf
  obtain ⟨l1, -, l2, l3⟩ := compress_lengths _ _ _ _ _ _ h
  change _ ≤ 3 * (r1 * r2 * r3) at l2 l3
  refine ⟨s', str, h, fun hd0 h2 => ?_⟩
  have f1 : Fits E1 (2 * 1024) str.eb := fits_of_low (ne_nil_of_length (by omega)) (by omega)
    (by norm_num) (by norm_num) (fun x hx => by have := hc1 x hx; omega)
  have f2 : Fits E2 (2 * 65536) str.dq := fits_of_range hd0 (by omega)
    (by norm_num) (fun x hx => by have := hc2 x hx; push_cast; omega) h2
  obtain ⟨bs, hbs, hd⟩ := roundtrip3 (wordCodec 4) E1 E2 h f1 f2 (by omega)
  refine ⟨bs, hbs, fun rest m0 lb => ?_⟩
  obtain ⟨d, hd1, hd2⟩ := hd rest m0 lb
  refine ⟨d, hd1, fun t ht hcp => ?_⟩
  have key : ∀ q ∈ t.verts r2 r3, ∀ c, c < 3 → d c q = data c q := by
    intro q hq c hc
    rw [hd2 c q hc (verts3_lt ht hq)]
    exact flagged3 (bits_ieee ok32 (by decide) (by decide) (by decide) tr hlg) h ht (hck t ht hcp) hq c
  exact ⟨key, (cellCP_congr key).2 hcp⟩

/-- C91, `double`: as above for data of at most `2^300`. -/
theorem C91_double (tr : Pat binary64 → Int) (lg : Pat binary64 → Pat binary64) (eps : ℚ)
    (hlg : LogOk lg eps) (hlb : dec binary64 (lg (enc binary64 false (.fin 4))) = .fin 2)
    (he0 : 0 ≤ eps) (he1 : eps ≤ p2 (-30)) (E1 E2 : Env) (r1 r2 r3 : Nat)
    (hn : 0 < r1 * r2 * r3) (hn2 : r1 * r2 * r3 < 2 ^ 58)
    (maxEb : Pat binary64) (e : ℚ) (hm : dec binary64 maxEb = .fin e) (hep : 0 ≤ e)
    (her : e ≤ p2 300) (check : List Nat → Bool) (data : Arr (Pat binary64))
    (hck : ∀ t : Tet, t.inGrid r1 r2 r3 → cellCP (real3 binary64 data) (t.verts r2 r3) →
      check (t.verts r2 r3) = true)
    (hf : ∀ c q, c < 3 → q < r1 * r2 * r3 → Size binary64 (p2 300) (data c q)) :
    ∃ s' str, runAbs3 binary64 tr lg r1 r2 r3 maxEb (computeCp check r1 r2 r3) data =
        some (s', str) ∧
      (str.dq ≠ [] → Shallow E1 (2 * 1024) str.eb → Shallow E2 (2 * 65536) str.dq →
        ∃ bs, compressBytesAbs3 (wordCodec 8) (wordCodec 8) E1 E2 (bitsOps binary64 tr lg) (lb3 lg)
            thr3 r2 r3 4 32768
            (planBits3 binary64 tr lg r1 r2 r3 maxEb (computeCp check r1 r2 r3)) (r1 * r2 * r3)
            data = some (s'.val, bs) ∧
          ∀ rest m0 lb, ∃ d, decompressBytesAbs3 (wordCodec 8) (wordCodec 8)
              (bitsOps binary64 tr lg) lb r2 r3 (r1 * r2 * r3) m0 (bs ++ rest) = some d ∧
            ∀ t : Tet, t.inGrid r1 r2 r3 → cellCP (real3 binary64 data) (t.verts r2 r3) →
              (∀ q ∈ t.verts r2 r3, ∀ c, c < 3 → d c q = data c q) ∧
              cellCP (real3 binary64 d) (t.verts r2 r3)) := by
  obtain ⟨s', str, h, ⟨hc1, hc2⟩, -⟩ := abs3_bytes (F := binary64) ok64 (by decide) (by decide)
    (by decide) (by decide) (wordCodec 8) (tr := tr) hlg hlb he0 he1 (r := 300) (by norm_num)
    (by norm_num) (by decide) E1 E2 r1 r2 r3 maxEb hm hep her (computeCp check r1 r2 r3) data hf
  obtain ⟨l1, -, l2, l3⟩ := compress_lengths _ _ _ _ _ _ h
  change _ ≤ 3 * (r1 * r2 * r3) at l2 l3
  refine ⟨s', str, h, fun hd0 h1 h2 => ?_⟩
  have f1 : Fits E1 (2 * 1024) str.eb := fits_of_range (ne_nil_of_length (by omega)) (by omega)
    (by norm_num) (fun x hx => by have := hc1 x hx; push_cast; omega) h1
  have f2 : Fits E2 (2 * 65536) str.dq := fits_of_range hd0 (by omega)
    (by norm_num) (fun x hx => by have := hc2 x hx; push_cast; omega) h2
  obtain ⟨bs, hbs, hd⟩ := roundtrip3 (wordCodec 8) E1 E2 h f1 f2 (by omega)
  refine ⟨bs, hbs, fun rest m0 lb => ?_⟩
  obtain ⟨d, hd1, hd2⟩ := hd rest m0 lb
  refine ⟨d, hd1, fun t ht hcp => ?_⟩
  have key : ∀ q ∈ t.verts r2 r3, ∀ c, c < 3 → d c q = data c q := by
    intro q hq c hc
    rw [hd2 c q hc (verts3_lt ht hq)]
    exact flagged3 (bits_ieee ok64 (by decide) (by decide) (by decide) tr hlg) h ht (hck t ht hcp) hq c
  exact ⟨key, (cellCP_congr key).2 hcp⟩

/-! ### Examples and witnesses -/

/-- The rational number of a bit pattern, 0 if there is none. -/
def valQ (F : Fmt) (a : Pat F) : ℚ :=
  match dec F a with
  | .fin x => x
  | _ => 0

theorem valR_valQ (F : Fmt) (a : Pat F) : valR (dec F a) = (valQ F a : ℝ) := by
  unfold valR valQ
  cases dec F a <;> simp

/-- Whether all vectors of a cell are on one side of a plane through 0. -/
def apartB (F : Fmt) (f : Arr (Pat F)) (n : ℚ × ℚ × ℚ) (cell : List Nat) : Bool :=
  cell.all fun q => decide (0 < n.1 * valQ F (f 0 q) + n.2.1 * valQ F (f 1 q) +
    n.2.2 * valQ F (f 2 q))

/-- Whether the vectors of a cell average to 0 with these weights. -/
def zeroB (F : Fmt) (f : Arr (Pat F)) (w : List (ℚ × Nat)) : Bool :=
  w.all (fun p => decide (0 ≤ p.1)) && decide ((w.map (·.1)).sum = 1) &&
    decide ((w.map fun p => p.1 * valQ F (f 0 p.2)).sum = 0) &&
    decide ((w.map fun p => p.1 * valQ F (f 1 p.2)).sum = 0) &&
    decide ((w.map fun p => p.1 * valQ F (f 2 p.2)).sum = 0)

theorem sum_cast {α : Type} (l : List α) (g : α → ℚ) :
    (l.map fun p => ((g p : ℚ) : ℝ)).sum = (((l.map g).sum : ℚ) : ℝ) := by
  induction l with
  | nil => simp
  | cons a l ih => simp [ih]

theorem cp_of_zeroB {F : Fmt} {f : Arr (Pat F)} {w : List (ℚ × Nat)} (h : zeroB F f w = true) :
    cellCP (real3 F f) (w.map (·.2)) := by
  simp only [zeroB, Bool.and_eq_true, List.all_eq_true, decide_eq_true_eq] at h
  obtain ⟨⟨⟨⟨h0, h1⟩, h2⟩, h3⟩, h4⟩ := h
  refine ⟨w.map fun p => ((p.1 : ℝ), vec (real3 F f) p.2), by simp, ?_, ?_, ?_, ?_, ?_⟩
  · intro p hp
    obtain ⟨x, hx, rfl⟩ := List.mem_map.1 hp
    simpa using h0 x hx
  · rw [List.map_map]
    have := sum_cast w (·.1)
    rw [h1] at this
    simpa [Function.comp_def] using this
  · rw [List.map_map]
    have := sum_cast w (fun p => p.1 * valQ F (f 0 p.2))
    rw [h2] at this
    simpa [Function.comp_def, vec, real3, valR_valQ] using this
  · rw [List.map_map]
    have := sum_cast w (fun p => p.1 * valQ F (f 1 p.2))
    rw [h3] at this
    simpa [Function.comp_def, vec, real3, valR_valQ] using this
  · rw [List.map_map]
    have := sum_cast w (fun p => p.1 * valQ F (f 2 p.2))
    rw [h4] at this
    simpa [Function.comp_def, vec, real3, valR_valQ] using this

theorem not_cp_of_apart {F : Fmt} {f : Arr (Pat F)} {n : ℚ × ℚ × ℚ} {a b c d : Nat}
    (h : apartB F f n [a, b, c, d] = true) : ¬ cellCP (real3 F f) [a, b, c, d] := by
  simp only [apartB, List.all_cons, List.all_nil, Bool.and_true, Bool.and_eq_true,
    decide_eq_true_eq] at h
  obtain ⟨ha, hb, hc, hd⟩ := h
  intro hcp
  obtain ⟨x, y, z, t, W⟩ := (hasCP_four _ _ _ _).1 hcp
  have key : ∀ q, 0 < n.1 * valQ F (f 0 q) + n.2.1 * valQ F (f 1 q) + n.2.2 * valQ F (f 2 q) →
      (0 : ℝ) < n.1 * (vec (real3 F f) q).u + n.2.1 * (vec (real3 F f) q).v +
        n.2.2 * (vec (real3 F f) q).w := by
    intro q hq
    simp only [vec, real3, valR_valQ]
    exact_mod_cast hq
  have ka := key a ha
  have kb := key b hb
  have kc := key c hc
  have kd := key d hd
  have s : x * (n.1 * (vec (real3 F f) a).u + n.2.1 * (vec (real3 F f) a).v +
        n.2.2 * (vec (real3 F f) a).w) +
      y * (n.1 * (vec (real3 F f) b).u + n.2.1 * (vec (real3 F f) b).v +
        n.2.2 * (vec (real3 F f) b).w) +
      z * (n.1 * (vec (real3 F f) c).u + n.2.1 * (vec (real3 F f) c).v +
        n.2.2 * (vec (real3 F f) c).w) +
      t * (n.1 * (vec (real3 F f) d).u + n.2.1 * (vec (real3 F f) d).v +
        n.2.2 * (vec (real3 F f) d).w) = 0 := by
    linear_combination (n.1 : ℝ) * W.hu + (n.2.1 : ℝ) * W.hv + (n.2.2 : ℝ) * W.hw
  have pa := mul_nonneg W.x0 ka.le
  have pb := mul_nonneg W.y0 kb.le
  have pc := mul_nonneg W.z0 kc.le
  have pd := mul_nonneg W.t0 kd.le
  have z0 : ∀ (x : ℝ) {k : ℝ}, 0 < k → x * k = 0 → x = 0 := fun _ _ hk h =>
    (mul_eq_zero.1 h).resolve_right hk.ne'
  have zx := z0 x ka (by linarith)
  have zy := z0 y kb (by linarith)
  have zz := z0 z kc (by linarith)
  have zt := z0 t kd (by linarith)
  have := W.sum
  rw [zx, zy, zz, zt] at this
  norm_num at this

/-- A field of eight vectors. -/
def rows3 (l : List (List ℚ)) : Arr (Pat binary32) := fun c q => f32 ((l.getD q []).getD c 0)

/-- Exactly one tetrahedron has a critical point. -/
def oneCube : Arr (Pat binary32) := rows3 [[-106, 192, -235], [-126, 279, 193], [-61, 68, -254],
  [176, -252, 9], [-246, 101, 196], [-149, 46, -152], [173, -266, 26], [-216, -139, -75]]

/-- No tetrahedron has a critical point. -/
def madeCube : Arr (Pat binary32) := rows3 [[0, 453640, -1808757], [-224278, 873320, 1835201],
  [0, -1033500, 400135], [199786, 1712811, 0], [98126, -1949091, 0], [-1135400, -1545556, 0],
  [-436147, 0, -1004201], [-171245, -1468124, -1]]

/-- Exactly one tetrahedron has a critical point. -/
def lostCube : Arr (Pat binary32) := rows3 [[643189, 5000568, 0], [-5528267, -8520801, 9059919],
  [5623480, 8778582, 0], [8094025, 10336427, 0], [-5961760, 0, -15563723], [5104158, 8522749, 0],
  [0, -11430643, 7042947], [-9250314, -11813059, -1]]

/-- The bound 100. -/
def ebHundred : Pat binary64 := enc binary64 false (.fin 100)

/-- The bound 4194304. -/
def ebHuge : Pat binary64 := enc binary64 false (.fin 4194304)

/-- Observations of a run on 2×2×2 vertices: number of values stored verbatim, indices, and
whatever `g` finds in the reconstruction. -/
def seenG {α : Type} (g : Arr (Pat binary32) → α)
    (r : Option (State (Pat binary32) × VMode.Streams (Pat binary32))) :
    Option (Nat × List Int × List Int × α) :=
  r.map fun (f, s) => (s.un.length, s.eb, s.dq, g f.val)

theorem seenG_some {α : Type} {g : Arr (Pat binary32) → α}
    {r : Option (State (Pat binary32) × VMode.Streams (Pat binary32))} {k a b x}
    (h : seenG g r = some (k, a, b, x)) :
    ∃ f s, r = some (f, s) ∧ s.un.length = k ∧ s.eb = a ∧ s.dq = b ∧ g f.val = x := by
  unfold seenG at h
  obtain ⟨⟨f, s⟩, hr, h1⟩ := Option.map_eq_some_iff.1 h
  simp only [Prod.mk.injEq] at h1
  exact ⟨f, s, hr, h1.1, h1.2.1, h1.2.2.1, h1.2.2.2⟩

/-- The tetrahedra of one cube. -/
theorem tets_cube {P : List Nat → Prop} (h0 : P [0, 4, 6, 7]) (h1 : P [0, 2, 6, 7])
    (h2 : P [0, 4, 5, 7]) (h3 : P [0, 1, 5, 7]) (h4 : P [0, 2, 3, 7]) (h5 : P [0, 1, 3, 7])
    (t : Tet) (ht : t.inGrid 2 2 2) : P (t.verts 2 2) := by
  obtain ⟨a, b, c, s⟩ := t
  unfold Tet.inGrid at ht
  obtain ⟨ha, hb, hc, hs⟩ := ht
  simp only at ha hb hc hs
  obtain rfl : a = 0 := by omega
  obtain rfl : b = 0 := by omega
  obtain rfl : c = 0 := by omega
  match s, hs with
  | 0, _ => exact h0
  | 1, _ => exact h1
  | 2, _ => exact h2
  | 3, _ => exact h3
  | 4, _ => exact h4
  | 5, _ => exact h5
  | n + 6, h => omega

/-- A run whose indices are few, from bytes to bytes. -/
theorem observed3 (E1 E2 : Env) {maxEb : Pat binary64} {cp : Nat → Bool} {data : Arr (Pat binary32)}
    {s' : State (Pat binary32)} {str : VMode.Streams (Pat binary32)}
    (h : runAbs3 binary32 (fun _ => 0) floorLog2 2 2 2 maxEb cp data = some (s', str))
    (r1 : ∀ x ∈ str.eb, 0 ≤ x ∧ x < 1024) (n2 : str.dq.length ≤ 24)
    (d0 : str.dq ≠ []) (r2 : ∀ x ∈ str.dq, 0 ≤ x ∧ x < 65536) (n3 : str.un.length ≤ 24) :
    ∃ v bs, compressBytesAbs3 (wordCodec 4) (wordCodec 8) E1 E2
        (bitsOps binary32 (fun _ => 0) floorLog2) (lb3 floorLog2) thr3 2 2 4 32768
        (planBits3 binary32 (fun _ => 0) floorLog2 2 2 2 maxEb cp) (2 * 2 * 2) data =
          some (v, bs) ∧
      ∀ m0 lb, ∃ d, decompressBytesAbs3 (wordCodec 4) (wordCodec 8)
          (bitsOps binary32 (fun _ => 0) floorLog2) lb 2 2 (2 * 2 * 2) m0 bs = some d ∧
        ∀ c q, c < 3 → q < 8 → d c q = s'.val c q := by
  obtain ⟨l1, -, -, -⟩ := compress_lengths _ _ _ _ _ _ h
  have f1 : Fits E1 (2 * 1024) str.eb := fits_of_short _ _ _ (ne_nil_of_length (by omega))
    (by omega) (by norm_num) (fun x hx => by have := r1 x hx; push_cast; omega)
  have f2 : Fits E2 (2 * 65536) str.dq := fits_of_short _ _ _ d0
    (by omega) (by norm_num) (fun x hx => by have := r2 x hx; push_cast; omega)
  obtain ⟨bs, hbs, hd⟩ := roundtrip3 (wordCodec 4) E1 E2 h f1 f2 (by omega)
  refine ⟨s'.val, bs, hbs, fun m0 lb => ?_⟩
  obtain ⟨d, d1, d2⟩ := hd [] m0 lb
  rw [List.append_nil] at d1
  exact ⟨d, d1, d2⟩

theorem one_cells (t : Tet) (ht : t.inGrid 2 2 2) :
    cellCP (real3 binary32 oneCube) (t.verts 2 2) ↔ (t.verts 2 2 == [0, 1, 3, 7]) = true := by
  have no : ∀ {cell : List Nat}, ¬ cellCP (real3 binary32 oneCube) cell →
      (cell == [0, 1, 3, 7]) = false →
      (cellCP (real3 binary32 oneCube) cell ↔ (cell == [0, 1, 3, 7]) = true) := by
    intro cell h1 h2
    rw [h2]
    exact ⟨fun h => absurd h h1, fun h => absurd h Bool.false_ne_true⟩
  refine tets_cube (P := fun cell => cellCP (real3 binary32 oneCube) cell ↔
    (cell == [0, 1, 3, 7]) = true) ?_ ?_ ?_ ?_ ?_ ?_ t ht
  · exact no (not_cp_of_apart (n := (-10, -9, -5)) (by decide +kernel)) (by decide)
  · exact no (not_cp_of_apart (n := (0, -9, -10)) (by decide +kernel)) (by decide)
  · exact no (not_cp_of_apart (n := (-10, 2, -3)) (by decide +kernel)) (by decide)
  · exact no (not_cp_of_apart (n := (-10, 3, -1)) (by decide +kernel)) (by decide)
  · exact no (not_cp_of_apart (n := (0, -8, -10)) (by decide +kernel)) (by decide)
  · exact iff_of_true (cp_of_zeroB (w := [(7312765 / 33654448, 0), (9282853 / 33654448, 1),
      (14360969 / 33654448, 3), (2697861 / 33654448, 7)]) (by decide +kernel)) (by decide)

theorem one_seen3 :
    seenG (fun f => (List.range 8).map fun q => valQ binary32 (f 0 q))
      (runAbs3 binary32 (fun _ => 0) floorLog2 2 2 2 ebHundred
        (computeCp (fun cell => cell == [0, 1, 3, 7]) 2 2 2) oneCube) =
    some (12, [0, 0, 29, 0, 29, 29, 29, 0], [32768, 32767, 32768, 32767, 32767, 32771, 32769, 32767,
        32762, 32771, 32766, 32767], [-106, -126, -106, 176, -234, -126, 150, -216]) := by
  decide +kernel

/-- The hypotheses of `C91_float` are met by eight vectors with exactly one critical point and the
bound 100: the four vertices of its tetrahedron come back bit for bit, the first component of the
other four changes. -/
example (E1 E2 : Env) : ∃ s' str bs,
    runAbs3 binary32 (fun _ => 0) floorLog2 2 2 2 ebHundred
      (computeCp (fun cell => cell == [0, 1, 3, 7]) 2 2 2) oneCube = some (s', str) ∧
    ((List.range 8).map fun q => valQ binary32 (s'.val 0 q)) =
      [-106, -126, -106, 176, -234, -126, 150, -216] ∧
    compressBytesAbs3 (wordCodec 4) (wordCodec 8) E1 E2 (bitsOps binary32 (fun _ => 0) floorLog2)
      (lb3 floorLog2) thr3 2 2 4 32768
      (planBits3 binary32 (fun _ => 0) floorLog2 2 2 2 ebHundred
        (computeCp (fun cell => cell == [0, 1, 3, 7]) 2 2 2)) (2 * 2 * 2)
      oneCube = some (s'.val, bs) ∧
    ∀ m0 lb, ∃ d, decompressBytesAbs3 (wordCodec 4) (wordCodec 8)
        (bitsOps binary32 (fun _ => 0) floorLog2) lb 2 2 (2 * 2 * 2) m0 bs = some d ∧
      cellCP (real3 binary32 d) [0, 1, 3, 7] := by
  obtain ⟨s', str, h, hc⟩ := C91_float (fun _ => 0) floorLog2 0 (floorLog2_ok (le_refl 0))
    floorLog2_four (le_refl 0) (p2_pos _).le E1 E2 2 2 2 (by norm_num)
    (by norm_num) ebHundred 100 (by decide +kernel) (by norm_num)
    (by decide +kernel) (fun cell => cell == [0, 1, 3, 7]) oneCube
    (fun t ht h => (one_cells t ht).1 h) (by
      intro c q hc hq
      have : ∀ c ∈ List.range 3, ∀ q ∈ List.range 8,
        sizeB binary32 (p2 38) (oneCube c q) = true := by decide +kernel
      exact size_of (this c (List.mem_range.2 hc) q (List.mem_range.2 hq)))
  obtain ⟨f, t, h1, h2, h3, h4, h5⟩ := seenG_some one_seen3
  rw [h1] at h
  simp only [Option.some.injEq, Prod.mk.injEq] at h
  obtain ⟨rfl, rfl⟩ := h
  obtain ⟨bs, b1, b2⟩ := hc (by rw [h4]; simp)
    (shallow_of_short (by rw [h4]; simp) (by rw [h4]; simp) (by norm_num) (by rw [h4]; simp))
  refine ⟨f, t, bs, h1, h5, b1, fun m0 lb => ?_⟩
  obtain ⟨d, d1, d2⟩ := b2 [] m0 lb
  rw [List.append_nil] at d1
  have ht : (⟨0, 0, 0, 5⟩ : Tet).inGrid 2 2 2 := by unfold Tet.inGrid; norm_num
  exact ⟨d, d1, (d2 ⟨0, 0, 0, 5⟩ ht ((one_cells _ ht).2 (by decide))).2⟩

/-- The hypotheses of `C91_double` are met by the same numbers. -/
example (E1 E2 : Env) : ∃ s' str,
    runAbs3 binary64 (fun _ => 0) floorLog2 2 2 2 ebHundred (computeCp (fun _ => true) 2 2 2)
      (fun c q => enc binary64 false (dec binary32 (oneCube c q))) = some (s', str) := by
  obtain ⟨s', str, h, -⟩ := C91_double (fun _ => 0) floorLog2 0 (floorLog2_ok (le_refl 0))
    floorLog2_four (le_refl 0) (p2_pos _).le E1 E2 2 2 2 (by norm_num)
    (by norm_num) ebHundred 100 (by decide +kernel) (by norm_num)
    (by decide +kernel) (fun _ => true) (fun c q => enc binary64 false (dec binary32 (oneCube c q)))
    (fun _ _ _ => rfl) (by
      intro c q hc hq
      have : ∀ c ∈ List.range 3, ∀ q ∈ List.range 8, sizeB binary64 (p2 300)
        (enc binary64 false (dec binary32 (oneCube c q))) = true := by decide +kernel
      exact size_of (this c (List.mem_range.2 hc) q (List.mem_range.2 hq)))
  exact ⟨s', str, h⟩

/-- The weights of the critical point that the run creates. -/
def madeW : List (ℚ × Nat) := [(1307690451 / 2166554073469616128, 0),
  (636457712173 / 2166554073469616128, 1), (122063924535431 / 264471932796584, 3),
  (142407930408931 / 264471932796584, 7)]

theorem made_seen3 :
    seenG (fun f => zeroB binary32 f madeW)
      (runAbs3 binary32 (fun _ => 0) floorLog2 2 2 2 ebHuge
        (computeCp (fun _ => false) 2 2 2) madeCube) =
    some (21, [0, 32, 0, 0, 0, 0, 0, 0], [32741, 32819, 33213], true) := by
  decide +kernel

theorem lost_seen3 :
    seenG (fun f => apartB binary32 f (-1000000000, 783058305, 34469420) [0, 1, 3, 7])
      (runAbs3 binary32 (fun _ => 0) floorLog2 2 2 2 ebHuge
        (computeCp (fun _ => false) 2 2 2) lostCube) =
    some (21, [0, 36, 0, 0, 0, 0, 0, 0], [32765, 32762, 32772], true) := by
  decide +kernel

/-- Critical points can be created, also with data below `2^24` and a test that is right about
every tetrahedron: no tetrahedron of the data has one, and what comes back from the bytes has one
in the tetrahedron of the vertices 0, 1, 3 and 7.  The products of elements are rounded to
`float`, so the determinants from which the bound of vertex 1 is computed have the wrong values. -/
theorem C91_created (E1 E2 : Env) :
    (∀ c q, c < 3 → q < 8 → Size binary32 (p2 24) (madeCube c q)) ∧
    (∀ t : Tet, t.inGrid 2 2 2 → ¬ cellCP (real3 binary32 madeCube) (t.verts 2 2)) ∧
    ∃ v bs, compressBytesAbs3 (wordCodec 4) (wordCodec 8) E1 E2
        (bitsOps binary32 (fun _ => 0) floorLog2) (lb3 floorLog2) thr3 2 2 4 32768
        (planBits3 binary32 (fun _ => 0) floorLog2 2 2 2 ebHuge
          (computeCp (fun _ => false) 2 2 2)) (2 * 2 * 2) madeCube = some (v, bs) ∧
      ∀ m0 lb, ∃ d, decompressBytesAbs3 (wordCodec 4) (wordCodec 8)
          (bitsOps binary32 (fun _ => 0) floorLog2) lb 2 2 (2 * 2 * 2) m0 bs = some d ∧
        cellCP (real3 binary32 d) ((⟨0, 0, 0, 5⟩ : Tet).verts 2 2) := by
  refine ⟨?_, ?_, ?_⟩
  · intro c q hc hq
    have : ∀ c ∈ List.range 3, ∀ q ∈ List.range 8,
      sizeB binary32 (p2 24) (madeCube c q) = true := by decide +kernel
    exact size_of (this c (List.mem_range.2 hc) q (List.mem_range.2 hq))
  · refine tets_cube (P := fun cell => ¬ cellCP (real3 binary32 madeCube) cell) ?_ ?_ ?_ ?_ ?_ ?_
    · exact not_cp_of_apart (n := (-10, -6, -6)) (by decide +kernel)
    · exact not_cp_of_apart (n := (-10, -9, -10)) (by decide +kernel)
    · exact not_cp_of_apart (n := (-1, -3, -1000000)) (by decide +kernel)
    · exact not_cp_of_apart (n := (-10, 0, -1)) (by decide +kernel)
    · exact not_cp_of_apart (n := (1000000, -116642, -301272)) (by decide +kernel)
    · exact not_cp_of_apart (n := (-1000000000, 116642175, -177715653)) (by decide +kernel)
  · obtain ⟨f, t, h1, h2, h3, h4, h5⟩ := seenG_some made_seen3
    obtain ⟨v, bs, hbs, hd⟩ := observed3 E1 E2 h1 (by rw [h3]; simp)
      (by rw [h4]; simp) (by rw [h4]; simp) (by rw [h4]; simp) (by rw [h2]; norm_num)
    refine ⟨v, bs, hbs, fun m0 lb => ?_⟩
    obtain ⟨d, d1, d2⟩ := hd m0 lb
    refine ⟨d, d1, ?_⟩
    have hcp : cellCP (real3 binary32 f.val) [0, 1, 3, 7] := cp_of_zeroB (w := madeW) h5
    refine (cellCP_congr (cell := [0, 1, 3, 7]) fun q hq c hc => d2 c q hc ?_).2 hcp
    simp only [List.mem_cons, List.not_mem_nil, or_false] at hq
    omega

/-- If the test misses the tetrahedron with a critical point, the error bounds do not save it,
also with data below `2^24` (they do in 2D, C88, and in exact arithmetic): the tetrahedron of the
vertices 0, 1, 3 and 7 has a critical point in the data and none in what comes back from the
bytes. -/
theorem C91_missed_lost (E1 E2 : Env) :
    (∀ c q, c < 3 → q < 8 → Size binary32 (p2 24) (lostCube c q)) ∧
    cellCP (real3 binary32 lostCube) ((⟨0, 0, 0, 5⟩ : Tet).verts 2 2) ∧
    ∃ v bs, compressBytesAbs3 (wordCodec 4) (wordCodec 8) E1 E2
        (bitsOps binary32 (fun _ => 0) floorLog2) (lb3 floorLog2) thr3 2 2 4 32768
        (planBits3 binary32 (fun _ => 0) floorLog2 2 2 2 ebHuge
          (computeCp (fun _ => false) 2 2 2)) (2 * 2 * 2) lostCube = some (v, bs) ∧
      ∀ m0 lb, ∃ d, decompressBytesAbs3 (wordCodec 4) (wordCodec 8)
          (bitsOps binary32 (fun _ => 0) floorLog2) lb 2 2 (2 * 2 * 2) m0 bs = some d ∧
        ¬ cellCP (real3 binary32 d) ((⟨0, 0, 0, 5⟩ : Tet).verts 2 2) := by
  refine ⟨?_, ?_, ?_⟩
  · intro c q hc hq
    have : ∀ c ∈ List.range 3, ∀ q ∈ List.range 8,
      sizeB binary32 (p2 24) (lostCube c q) = true := by decide +kernel
    exact size_of (this c (List.mem_range.2 hc) q (List.mem_range.2 hq))
  · exact cp_of_zeroB (w := [(7153726615859 / 656710473792958808085, 0),
      (33826446260497 / 656710473792958808085, 1),
      (38916174403870023554 / 72967830421439867565, 3),
      (102154954392651906581 / 218903491264319602695, 7)]) (by decide +kernel)
  · obtain ⟨f, t, h1, h2, h3, h4, h5⟩ := seenG_some lost_seen3
    obtain ⟨v, bs, hbs, hd⟩ := observed3 E1 E2 h1 (by rw [h3]; simp)
      (by rw [h4]; simp) (by rw [h4]; simp) (by rw [h4]; simp) (by rw [h2]; norm_num)
    refine ⟨v, bs, hbs, fun m0 lb => ?_⟩
    obtain ⟨d, d1, d2⟩ := hd m0 lb
    refine ⟨d, d1, fun hc => ?_⟩
    have hcp := not_cp_of_apart h5
    refine hcp ((cellCP_congr (cell := [0, 1, 3, 7]) fun q hq c hc => d2 c q hc ?_).1 hc)
    simp only [List.mem_cons, List.not_mem_nil, or_false] at hq
    omega

end CpSZ.Ieee
