import Verif.Special
import Verif.Spec2D
import Verif.Props.Online2D
import Verif.Props.ThreeD
import Verif.Props.Log2D
import Verif.Props.Block
import Verif.Props.Sz3
/-
Property C82: values that are not finite (NaN, infinities).
-/

namespace CpSZ
open Online2D

/-! ### 2D online modes -/

section online
variable {T D : Type}

/-- Position `k` is `q` itself or one of the neighbours of `q` that were visited before: left,
above, above left. -/
def Near (r2 q k : Nat) : Prop :=
  k = q ∨ (q % r2 ≠ 0 ∧ k = q - 1) ∨ (q / r2 ≠ 0 ∧ k = q - r2) ∨
    (q / r2 ≠ 0 ∧ q % r2 ≠ 0 ∧ k = q - 1 - r2)

theorem near_diff {O : Ops T D} {bad : T → Prop} {top nn : D → Prop} (hO : NonFin O bad top nn)
    (r2 q k : Nat) (h : Near r2 q k) (f : Nat → T) (hk : bad (f k)) :
    bad (O.subT (f q) (lorenzo O r2 f q)) := by
  rcases h with rfl | ⟨hj, rfl⟩ | ⟨hi, rfl⟩ | ⟨hi, hj, rfl⟩
  · exact hO.sub_left _ _ hk
  · refine hO.sub_right _ _ ?_
    simp only [lorenzo, hj, ne_eq, not_false_eq_true, if_true]
    exact hO.sub_left _ _ (hO.add_right _ _ hk)
  · refine hO.sub_right _ _ ?_
    simp only [lorenzo, hi, ne_eq, not_false_eq_true, if_true]
    exact hO.sub_left _ _ (hO.add_left _ _ hk)
  · refine hO.sub_right _ _ ?_
    simp only [lorenzo, hi, hj, ne_eq, not_false_eq_true, if_true, and_self]
    exact hO.sub_right _ _ hk

theorem near_lt {r2 q k : Nat} (h : Near r2 q k) : k ≤ q := by
  rcases h with rfl | ⟨_, rfl⟩ | ⟨_, rfl⟩ | ⟨_, _, rfl⟩ <;> omega

/-- No step of the quantiser accepts a component whose value or prediction is not finite. -/
theorem encComp_bad {O : Ops T D} {bad : T → Prop} {top nn : D → Prop} (hO : NonFin O bad top nn)
    (P : Online2D.Par D) (hb : 0 ≤ P.base) (ht : nn P.thr) (r2 q k : Nat) (h : Near r2 q k)
    (f : Nat → T) (hk : bad (f k)) (a : D) : Online2D.encComp O P r2 f q a = none := by
  cases hc : Online2D.encComp O P r2 f q a with
  | none => rfl
  | some r =>
    obtain ⟨id, x, y⟩ := r
    obtain ⟨h1, h2, h3, -, -⟩ := Online2D.encComp_some O P r2 f q a id x y hc
    rw [h2] at h1
    rw [ebQuant_pos _ _ _ _ _ h1, linQuant_bad hO hb ht (near_diff hO r2 q k h f hk)] at h3
    cases h3

/-- C82, 2D online modes (relative and absolute bound, any bound formula).  In any arithmetic
that follows the rules for NaN and infinities, and whatever the undefined conversions to `int`
yield: a vertex with a component that is not finite keeps both components, and so does a
vertex one of whose predictors (left, above, above left) is not finite. -/
theorem C82_online (O : Ops T D) (bad : T → Prop) (top nn : D → Prop) (hO : NonFin O bad top nn)
    (P : Online2D.Par D) (hb : 0 ≤ P.base) (ht : nn P.thr) (r1 r2 : Nat) (absEb : D → T → D)
    (bound : Online2D.Field T → Nat → Option D) (m m' : Online2D.Field T) (s : Online2D.Streams T)
    (h : Online2D.compress O P r1 r2 absEb bound m = some (m', s)) (q k : Nat) (hq : q < r1 * r2)
    (hk : Near r2 q k) (hbad : bad (m.u k) ∨ bad (m.v k)) :
    m'.u q = m.u q ∧ m'.v q = m.v q := by
  have key := Online2D.compress_inv O P r1 r2 absEb bound m m' s h
    (fun p f => (∀ j, p ≤ j → f.u j = m.u j ∧ f.v j = m.v j) ∧
      ∀ j, j < p → ∀ i, Near r2 j i → bad (m.u i) ∨ bad (m.v i) →
        f.u j = m.u j ∧ f.v j = m.v j)
    ⟨fun _ _ => ⟨rfl, rfl⟩, fun j hj => absurd hj (by omega)⟩
    (fun p f _ ⟨h1, h2⟩ => ⟨fun j hj => h1 j (by omega), fun j hj i hi hbi => by
      rcases Nat.lt_succ_iff_lt_or_eq.1 hj with hlt | rfl
      · exact h2 j hlt i hi hbi
      · exact h1 j (le_refl _)⟩)
    (fun p f x y _ ⟨h1, h2⟩ hst => by
      obtain ⟨req, e0, q0, e1, q1, -, -, c0, c1⟩ := hst
      have hnone : ∀ i, Near r2 p i → ¬ (bad (m.u i) ∨ bad (m.v i)) := by
        intro i hi hbi
        have hfi : f.u i = m.u i ∧ f.v i = m.v i := by
          rcases Nat.lt_or_eq_of_le (near_lt hi) with hlt | rfl
          · exact h2 i hlt i (Or.inl rfl) hbi
          · exact h1 i (le_refl _)
        rcases hbi with hbi | hbi
        · rw [encComp_bad hO P hb ht r2 p i hi f.u (by rw [hfi.1]; exact hbi)] at c0
          cases c0
        · rw [encComp_bad hO P hb ht r2 p i hi f.v (by rw [hfi.2]; exact hbi)] at c1
          cases c1
      refine ⟨fun j hj => ?_, fun j hj i hi hbi => ?_⟩
      · simp only [Online2D.Field.set, setAt_ne _ _ _ _ (show j ≠ p by omega)]
        exact h1 j (by omega)
      · rcases Nat.lt_succ_iff_lt_or_eq.1 hj with hlt | rfl
        · simp only [Online2D.Field.set, setAt_ne _ _ _ _ (show j ≠ p by omega)]
          exact h2 j hlt i hi hbi
        · exact absurd hbi (hnone i hi))
  exact key.2 q hq k hk hbad

/-- C82, from the bytes: what the 2D online decompressor returns at such a vertex is the
original, bit for bit. -/
theorem C82_online_bytes (O : Ops T D) (bad : T → Prop) (top nn : D → Prop)
    (hO : NonFin O bad top nn) (c : Codec T) (cD : Codec D) (E1 E2 : Env) (P : Online2D.Par D)
    (ht : nn P.thr) (r1 r2 : Nat) (absEb : D → T → D)
    (bound : Online2D.Field T → Nat → Option D) (m m' : Online2D.Field T) (s : Online2D.Streams T)
    (h : Online2D.compress O P r1 r2 absEb bound m = some (m', s))
    (hb : 0 ≤ P.base ∧ P.base < 2 ^ 31) (hr : 0 ≤ P.radius ∧ P.radius < 2 ^ 31)
    (hcap : P.capacity = 2 * P.radius)
    (f1 : Fits E1 (2 * 1024) s.eb) (f2 : Fits E2 (2 * P.capacity.toNat) s.dq) :
    ∃ bs, Online2D.compressBytes O c cD E1 E2 P r1 r2 absEb bound m = some (m', bs) ∧
      ∀ rest m0, ∃ d,
        Online2D.decompressBytes O c cD P.logBase r1 r2 m0 (bs ++ rest) = some d ∧
        ∀ q k, q < r1 * r2 → Near r2 q k → bad (m.u k) ∨ bad (m.v k) →
          d.u q = m.u q ∧ d.v q = m.v q := by
  obtain ⟨bs, h1, h2⟩ := C13_online_roundtrip O c cD E1 E2 P r1 r2 absEb bound m m' s h hb hr hcap
    f1 f2
  refine ⟨bs, h1, fun rest m0 => ?_⟩
  obtain ⟨d, hd, hA⟩ := h2 rest m0
  refine ⟨d, hd, fun q k hq hk hbad => ?_⟩
  obtain ⟨a1, a2⟩ := C82_online O bad top nn hO P hb.1 ht r1 r2 absEb bound m m' s h q k hq hk hbad
  obtain ⟨b1, b2⟩ := hA q hq
  exact ⟨b1.trans a1, b2.trans a2⟩

end online

/-! ### The modes with one bound per vertex -/

section vmode
variable {T D : Type}
open VMode

/-- C82, the 2D logarithmic mode and all 3D modes: a vertex with a component that is not finite
(in the coded domain: the logarithm of NaN or an infinity) keeps all its components. -/
theorem C82_vmode (M : Mode T D) (bad : T → Prop) (top nn : D → Prop)
    (hO : NonFin M.O bad top nn) (hb : 0 ≤ M.base) (ht : nn M.thr)
    (plan : State T → Nat → Option (Plan D)) (n : Nat) (data : Arr T) (s' : State T)
    (str : VMode.Streams T) (h : VMode.compress M plan n data = some (s', str)) (q c : Nat)
    (hq : q < n) (hc : c < M.K) (hbad : bad (M.fwd (data c q))) (c' : Nat) :
    s'.val c' q = data c' q := by
  obtain ⟨st, ws, R, rfl, rfl⟩ := compress_run M plan n data s' str h
  obtain ⟨w, hw⟩ := R.get hq
  cases w with
  | esc id xs => exact ((R.esc_final hw hq).2 c').2
  | coded e qs =>
    exfalso
    rcases VMode.encVertex_cases M plan _ _ _ _ (R.step q _ hw) with ⟨id, -, h2, -⟩ | ⟨e', qs', h1, C⟩
    · cases h2
    · obtain ⟨a, id, rs, -, he, hpos, hcs, -, -, -⟩ := C.ex
      obtain ⟨l1, l2⟩ := encComps_spec M _ _ _ _ _ hcs
      have h3 := l2 c (by simpa using hc) (by rw [l1]; simpa using hc)
      rw [he] at hpos
      rw [ebQuant_pos _ _ _ _ _ hpos] at h3
      simp only [List.getElem_range, VMode.encComp] at h3
      have hcur := (R.later q (by omega) c q (le_refl _)).1
      have hb' : bad (M.O.subT ((st q).cod c q) (M.pred ((st q).cod c) q)) := by
        rw [hcur]; exact hO.sub_left _ _ hbad
      rw [linQuant_bad hO hb ht hb'] at h3
      cases h3

/-- C82, 3D absolute mode from the bytes. -/
theorem C82_abs3_bytes (O : Ops T D) (bad : T → Prop) (top nn : D → Prop)
    (hO : NonFin O bad top nn) (c : Codec T) (cD : Codec D) (E1 E2 : Env)
    (logBase thr : D) (ht : nn thr) (r1 r2 r3 : Nat) (base radius : Int) (isZero : T → Bool)
    (nz : D → Bool) (maxEb : D) (cp : Nat → Bool)
    (derive : (Nat → T) → (Nat → T) → (Nat → T) → (Nat → T) → D)
    (data : Arr T) (s' : State T) (str : VMode.Streams T)
    (h : VMode.compress (ThreeD.absMode3 O logBase thr r2 r3 base radius)
      (ThreeD.planAbs3 O isZero nz r1 r2 r3 maxEb cp derive) (r1 * r2 * r3) data = some (s', str))
    (hb : 0 ≤ base ∧ base < 2 ^ 31) (hr : 0 ≤ radius ∧ radius < 2 ^ 31)
    (f1 : Fits E1 (2 * 1024) str.eb) (f2 : Fits E2 (2 * (2 * radius).toNat) str.dq)
    (hun : str.un.length < 2 ^ 64) :
    ∃ bs, ThreeD.compressBytesAbs3 c cD E1 E2 O logBase thr r2 r3 base radius
        (ThreeD.planAbs3 O isZero nz r1 r2 r3 maxEb cp derive) (r1 * r2 * r3) data =
          some (s'.val, bs) ∧
      ∀ rest m0 lb, ∃ d,
        ThreeD.decompressBytesAbs3 c cD O lb r2 r3 (r1 * r2 * r3) m0 (bs ++ rest) = some d ∧
        ∀ q k, q < r1 * r2 * r3 → k < 3 → bad (data k q) → ∀ j, j < 3 → d j q = data j q := by
  obtain ⟨bs, h1, h2⟩ := ThreeD.C27_abs3_roundtrip O c cD E1 E2 logBase thr r1 r2 r3 base radius
    isZero nz maxEb cp derive data s' str h hb hr f1 f2 hun
  refine ⟨bs, h1, fun rest m0 lb => ?_⟩
  obtain ⟨d, hd, hA⟩ := h2 rest m0 lb
  refine ⟨d, hd, fun q k hq hk hbad j hj => (hA j q hj hq).trans ?_⟩
  exact C82_vmode (ThreeD.absMode3 O logBase thr r2 r3 base radius) bad top nn hO hb.1 ht _ _ data
    s' str h q k hq hk hbad j

/-- The rules about the logarithm: that of a value that is not finite (made positive first if
it is not) is not finite, and such a value is not zero. -/
structure NonFinLog (L : LOps T D) (bad : T → Prop) : Prop where
  nz : ∀ x, bad x → L.isZero x = false
  neg : ∀ x, bad x → bad (L.negT x)
  log : ∀ x, bad x → bad (L.log2T x)

theorem logFwd_bad {L : LOps T D} {bad : T → Prop} (hL : NonFinLog L bad) {x : T} (h : bad x) :
    bad (logFwd L x) := by
  unfold logFwd
  simp only [hL.nz x h, Bool.false_eq_true, if_false]
  cases L.pos x
  · exact hL.log _ (hL.neg x h)
  · exact hL.log _ h

/-- C82, 2D logarithmic mode: the compressor's reconstruction (which C18 recovers from the
bytes). -/
theorem C82_log2 (L : LOps T D) (bad : T → Prop) (top nn : D → Prop)
    (hO : NonFin L.toOps bad top nn) (hL : NonFinLog L bad) (logBase thr : D) (ht : nn thr)
    (r1 r2 : Nat) (base radius : Int) (hb : 0 ≤ base)
    (bound : Online2D.Field T → Nat → Option D) (m : Online2D.Field T) (s' : State T)
    (str : VMode.Streams T)
    (h : VMode.compress (mode2 L logBase thr r2 base radius) (plan2 L bound) (r1 * r2) (arr2 m) =
      some (s', str)) (q : Nat) (hq : q < r1 * r2) (hbad : bad (m.u q) ∨ bad (m.v q)) :
    s'.val 0 q = m.u q ∧ s'.val 1 q = m.v q := by
  have key : ∀ c, c < 2 → bad (arr2 m c q) → ∀ c', s'.val c' q = arr2 m c' q := fun c hc hx c' =>
    C82_vmode (mode2 L logBase thr r2 base radius) bad top nn hO hb ht (plan2 L bound) _ _ _ _ h q c
      hq hc (logFwd_bad hL hx) c'
  rcases hbad with hx | hx
  · exact ⟨key 0 (by omega) hx 0, key 0 (by omega) hx 1⟩
  · exact ⟨key 1 (by omega) hx 0, key 1 (by omega) hx 1⟩

/-- C82, 3D logarithmic modes (structured and unstructured). -/
theorem C82_log3 (L : LOps T D) (bad : T → Prop) (top nn : D → Prop)
    (hO : NonFin L.toOps bad top nn) (hL : NonFinLog L bad) (logBase thr : D) (ht : nn thr)
    (pred : (Nat → T) → Nat → T) (base radius : Int) (hb : 0 ≤ base)
    (plan : State T → Nat → Option (Plan D)) (n : Nat) (data : Arr T) (s' : State T)
    (str : VMode.Streams T)
    (h : VMode.compress (ThreeD.logMode3 L logBase thr pred base radius) plan n data =
      some (s', str)) (q k : Nat) (hq : q < n) (hk : k < 3) (hbad : bad (data k q)) (j : Nat) :
    s'.val j q = data j q :=
  C82_vmode (ThreeD.logMode3 L logBase thr pred base radius) bad top nn hO hb ht plan n data s' str
    h q k hq hk (logFwd_bad hL hbad) j

end vmode

/-! ### Block codecs -/

section block
open Block
variable {T F D : Type}

/-- The rules the block codecs rely on: the distance between a value that is not finite and
anything else is not below a finite precision. -/
structure NonFinBlock (O : QOps T F D) (bad : T → Prop) (finite : D → Prop) : Prop where
  le_dist : ∀ v x p, bad x → finite p → O.le (O.dist v x) p = false
  lt_dist : ∀ v x p, bad x → finite p → O.lt (O.dist x v) p = false

/-- The distance of two floating-point numbers follows them. -/
theorem Fp.nonFinBlock {K : Type} [_root_.Field K] [LinearOrder K] (O : QOps (Fp K) F (Fp K))
    (rnd : K → Fp K) (hd : ∀ a b, O.dist a b = Fp.abs (Fp.sub rnd a b)) (hle : O.le = Fp.le)
    (hlt : O.lt = Fp.lt) : NonFinBlock O Fp.Bad (fun p => ¬ Fp.Bad p) := by
  have top : ∀ a b, Fp.Bad a ∨ Fp.Bad b → Fp.Top (Fp.abs (Fp.sub rnd a b)) := by
    intro a b h
    have h1 : Fp.Bad (Fp.sub rnd a b) :=
      Fp.bad_add rnd _ _ (h.imp_right fun hb => by cases b <;> simp_all [Fp.neg, Fp.Bad])
    generalize Fp.sub rnd a b = z at h1
    cases z <;> simp_all [Fp.Bad, Fp.abs, Fp.Top]
  constructor
  · intro v x p hx hp
    rw [hd, hle]
    have := top v x (Or.inr hx)
    generalize Fp.abs (Fp.sub rnd v x) = z at this
    cases z <;> cases p <;> simp_all [Fp.Bad, Fp.Top, Fp.le]
  · intro v x p hx hp
    rw [hd, hlt]
    have := top x v (Or.inl hx)
    generalize Fp.abs (Fp.sub rnd x v) = z at this
    cases z <;> cases p <;> simp_all [Fp.Bad, Fp.Top, Fp.lt]

/-- C82, block codecs: whatever the mean, the regression coefficients and the undefined
conversions are, a value that is not finite is never accepted. -/
theorem C82_block (G : Cfg T F D) (bad : T → Prop) (finite : D → Prop)
    (hO : NonFinBlock G.O bad finite) (data : Nat → T) (p : Nat) (hp : finite (G.prec p))
    (hbad : bad (data p)) (v : T) (h : Accept G data p v) : v = data p := by
  rcases h with h | ⟨-, h | ⟨-, h⟩⟩
  · exact h
  · rw [hO.le_dist _ _ _ hbad hp] at h; cases h
  · rw [hO.lt_dist _ _ _ hbad hp] at h; cases h

/-- C82, `sz_compress_2d_with_eb` from the bytes. -/
theorem C82_block_eb2 (B : BOps T F D) (bad : T → Prop) (finite : D → Prop)
    (hO : NonFinBlock B.O bad finite) (f : Fmt T F D) (hskip : f.skip = f.cT.size)
    (E1 E2 : Env) (data : Nat → T) (prec : Nat → D) (r1 r2 bs : Nat) (indep : Bool)
    (h1 : 0 < r1) (h2 : 0 < r2) (hb : 0 < bs) (hb31 : bs < 2 ^ 31) (hn : r1 * r2 < 2 ^ 58)
    (hcode : ∀ p < r1 * r2, B.isZero (prec p) = false → ∀ diff q,
      linQuant B.O.toDOps diff (prec p) 65536 32768 = some q → 0 < q ∧ q < 65536)
    (hd : DepthOK E2 131072 (outEb2 B data prec r1 r2 bs).ty)
    (hprec : ∀ p < r1 * r2, finite (prec p)) :
    ∃ bytes, compressEb2 B f E1 E2 data prec r1 r2 bs indep = some bytes ∧
      ∀ rest out0, ∃ out, decompressEb2 B f prec r1 r2 out0 (bytes ++ rest) = some out ∧
        ∀ p < r1 * r2, bad (data p) → out p = data p := by
  obtain ⟨bytes, e1, e2⟩ := eb2_roundtrip B f hskip E1 E2 data prec r1 r2 bs indep h1 h2 hb hb31 hn
    hcode hd
  refine ⟨bytes, e1, fun rest out0 => ?_⟩
  obtain ⟨out, e3, e4, -, -⟩ := e2 rest out0
  exact ⟨out, e3, fun p hp hx => C82_block _ bad finite hO data p (hprec p hp) hx _ (e4 p hp)⟩

end block

/-! ### What goes wrong -/

/-- Exact arithmetic on the rationals with NaN and infinities.  `t` is what the processor makes
of the undefined conversion of such a number to `int`; the logarithm is replaced by its integer
part, which yields the same bound codes. -/
def xops (t : Int) : Ops (Fp ℚ) (Fp ℚ) :=
  Fp.ops .fin .fin (fun x => match x with
    | .fin x => if 0 ≤ x then ⌊x⌋ else ⌈x⌉
    | _ => t) (fun x => match x with
    | .fin x => if 1 ≤ x then .fin (Nat.log2 ⌊x⌋.toNat) else .fin 0
    | a => a)

theorem xops_nonFin (t : Int) : NonFin (xops t) Fp.Bad Fp.Top Fp.NN :=
  Fp.nonFin _ _ _ _ fun _ h => h

/-- The constants of the 2D online modes. -/
def xpar : Online2D.Par (Fp ℚ) where
  base := 4
  logBase := .fin 2
  thr := .fin (1 / 2 ^ 52)
  capacity := 65536
  radius := 32768

/-- A 3×3 field with one missing vertex (NaN in both components). -/
def xfield : Online2D.Field (Fp ℚ) where
  u q := [.fin (-1), .fin (-2), .fin 3, .fin 0, .fin 1, .fin (-4), .fin 1, .nan, .fin 2].getD q .nan
  v q := [.fin 0, .fin 0, .fin 2, .fin 2, .fin (-5), .fin (-1), .fin 4, .nan, .fin (-1)].getD q .nan

/-- The same field with the missing vertex filled by a number. -/
def xfilled : Online2D.Field (Fp ℚ) where
  u q := if q = 7 then .fin 1 else xfield.u q
  v q := if q = 7 then .fin 1 else xfield.v q

/-- The 2D online mode with absolute bound `1/64` on a 3×3 grid: what is reconstructed. -/
def xrun (t : Int) (m : Online2D.Field (Fp ℚ)) : Option (List (Fp ℚ × Fp ℚ)) :=
  (Online2D.compress (xops t) xpar 3 3 (fun req _ => req)
    (boundAbsG (xops t).toDOps 3 3 (.fin (1 / 64))) m).map fun r =>
      (List.range 9).map fun q => (r.1.u q, r.1.v q)

set_option maxRecDepth 100000 in
theorem xrun_nan : xrun (-2 ^ 31) xfield = some
    [(.fin (-1), .fin 0), (.fin (-2), .fin 0), (.fin 3, .fin 2), (.fin 0, .fin 2),
      (.fin (-1), .fin (-6)), (.fin (-4), .fin (-1)), (.fin 1, .fin 4), (.nan, .nan),
      (.fin 2, .fin (-1))] := by
  decide +kernel

/-- C82 is false of the finite values: the missing vertex makes the bound of one triangle NaN,
and `MINF` then forgets all the bounds collected before, the user's included.  The middle
vertex, stored exactly if the missing vertex is a number, is off by 2 with the user bound
`1/64`, and a triangle of finite vertices loses its critical point. -/
theorem C82_neighbours_not_kept :
    (∃ l, xrun (-2 ^ 31) xfilled = some l ∧ l[4]? = some (.fin 1, .fin (-5))) ∧
    (∃ l, xrun (-2 ^ 31) xfield = some l ∧ l[0]? = some (.fin (-1), .fin 0) ∧
      l[3]? = some (.fin 0, .fin 2) ∧ l[4]? = some (.fin (-1), .fin (-6))) ∧
    (xfield.u 0, xfield.v 0) = (.fin (-1), .fin 0) ∧ (xfield.u 3, xfield.v 3) = (.fin 0, .fin 2) ∧
    (xfield.u 4, xfield.v 4) = (.fin 1, .fin (-5)) ∧
    HasCP (-1, 0) (0, 2) (1, -5) ∧ ¬ HasCP (-1, 0) (0, 2) (-1, -6) := by
  refine ⟨?_, ⟨_, xrun_nan, rfl, rfl, rfl⟩, rfl, rfl, rfl, ?_, ?_⟩
  · obtain ⟨l, hl⟩ : ∃ l, xrun (-2 ^ 31) xfilled = some l :=
      Option.isSome_iff_exists.1 (by decide +kernel)
    refine ⟨l, hl, ?_⟩
    have : (xrun (-2 ^ 31) xfilled).bind (·[4]?) = some (.fin 1, .fin (-5)) := by decide +kernel
    rwa [hl] at this
  · rw [hasCP_iff (M0 := _) (M1 := _) (M2 := _) (M := _) rfl rfl rfl rfl (by norm_num)]
    norm_num
  · rw [hasCP_iff (M0 := _) (M1 := _) (M2 := _) (M := _) rfl rfl rfl rfl (by norm_num)]
    norm_num

/-! ### The interpolation based mode -/

section sz3
open Sz3

/-- C82 is false of the interpolation based mode: it converts to `int` before it compares, and
whatever the conversion of NaN yields, unless it exceeds the capacity, NaN is accepted, nothing
is stored, and the value that replaces it is the prediction plus a multiple of the bound. -/
theorem C82_sz3_lost {K : Type} [_root_.Field K] [LinearOrder K] (rnd : K → Fp K)
    (tr : Fp K → Int) (lg : Fp K → Fp K) (h0 : rnd 0 = .fin 0) (radius : Int) (pred : Fp K)
    (e : K) (he : e ≠ 0) (ht : tr .nan + 1 < radius * 2) :
    quantT (Fp.dops rnd tr lg) radius .nan pred (.fin e) =
      (radius + (tr .nan + 1) / 2,
        Fp.add rnd pred (Fp.mul rnd (rnd ((2 * ((tr .nan + 1) / 2) : Int) : K)) (.fin e)), []) := by
  have z : isZero (Fp.dops rnd tr lg) (.fin e) = false := by
    simp only [isZero, Fp.dops, Int.cast_zero, h0, Fp.le, ← Bool.decide_and, decide_eq_false_iff_not]
    exact fun h => he (le_antisymm h.1 h.2)
  have d : (Fp.dops rnd tr lg).sub .nan pred = .nan := by cases pred <;> rfl
  have l : ∀ x, (Fp.dops rnd tr lg).lt .nan x = false := by intro x; cases x <;> rfl
  have l2 : ∀ x, (Fp.dops rnd tr lg).lt x .nan = false := by intro x; cases x <;> rfl
  have q : (Fp.dops rnd tr lg).trunc ((Fp.dops rnd tr lg).div ((Fp.dops rnd tr lg).abs .nan)
      (.fin e)) = tr .nan := rfl
  have s : ∀ x, (Fp.dops rnd tr lg).abs ((Fp.dops rnd tr lg).sub x .nan) = .nan := by
    intro x; cases x <;> rfl
  unfold quantT
  simp only [z, d, q, ht, l, l2, s, if_true, Bool.false_eq_true, if_false]
  rfl

/-- On x86 the conversion yields `-2^31`: the code is negative, and no index array that contains
it can be entropy coded. -/
theorem C82_sz3_negative {K : Type} [_root_.Field K] [LinearOrder K] (rnd : K → Fp K)
    (tr : Fp K → Int) (lg : Fp K → Fp K) (h0 : rnd 0 = .fin 0) (pred : Fp K)
    (e : K) (he : e ≠ 0) (ht : tr .nan = -2 ^ 31) :
    (quantT (Fp.dops rnd tr lg) 32768 .nan pred (.fin e)).1 = 32768 - 2 ^ 30 ∧
    ∀ (E : Env) (n : Nat) (l : List Int),
      (quantT (Fp.dops rnd tr lg) 32768 .nan pred (.fin e)).1 ∈ l → ¬ Fits E n l := by
  have hq : (quantT (Fp.dops rnd tr lg) 32768 .nan pred (.fin e)).1 = 32768 - 2 ^ 30 := by
    rw [C82_sz3_lost rnd tr lg h0 32768 pred e he (by rw [ht]; decide), ht]
    show (32768 + (-2 ^ 31 + 1) / 2 : Int) = 32768 - 2 ^ 30
    decide
  refine ⟨hq, fun E n l hl hf => ?_⟩
  have := (hf.2.2.2.1 _ hl).1
  rw [hq] at this
  exact absurd this (by decide)

/-- The arithmetic of the interpolation based mode on rationals with NaN and infinities. -/
def xS (t : Int) : SOps (Fp ℚ) (Fp ℚ) := ⟨(xops t).toDOps, (xops t).toDOps, id⟩

/-- Its constants, with the user bound `1/64`. -/
def xparSz3 : Sz3.Par (Fp ℚ) where
  base := 4
  logBase := .fin 2
  thr := .fin (1 / 2 ^ 52)
  capacity := 65536
  ebFull := .fin (1 / 64)
  ebHalf := .fin (1 / 128)

/-- A 2×2 field whose first vertex is missing. -/
def xfield2 : Fld (Fp ℚ) where
  u q := [.nan, .fin 1, .fin 2, .fin 3].getD q .nan
  v q := [.nan, .fin 1, .fin 1, .fin 2].getD q .nan

/-- The derived bounds in that arithmetic. -/
def xboundSz3 (t : Int) : Fld (Fp ℚ) → Ev → Fp ℚ → Option (Fp ℚ) :=
  deriveEb 2 2 (minfG (xops t).toDOps) (deriveAbsG (xops t).toDOps)

/-- On a processor that converts NaN to 0 the missing vertex comes back as a number: nothing in
the stream tells that it was missing. -/
theorem C82_sz3_run : ∃ f s d, Sz3.compress (xS 0) xparSz3 2 2 (xboundSz3 0) xfield2 = some (f, s) ∧
    Sz3.decompress (xS 0) 4 (.fin (1 / 2 ^ 52)) 32768 2 2 ⟨fun _ => .nan, fun _ => .nan⟩ s = some d ∧
    xfield2.u 0 = .nan ∧ d.u 0 = .fin 0 ∧ .nan ∉ s.un := by
  have h : ∃ x, Sz3.compress (xS 0) xparSz3 2 2 (xboundSz3 0) xfield2 = some x ∧
      (Sz3.decompress (xS 0) 4 (.fin (1 / 2 ^ 52)) 32768 2 2 ⟨fun _ => .nan, fun _ => .nan⟩ x.2).map
        (fun d => d.u 0) = some (.fin 0) ∧ .nan ∉ x.2.un := by
    unfold Sz3.compress Sz3.decompress
    rw [planDec_eq, plan22]
    exact ⟨_, rfl, by decide +kernel, by decide +kernel⟩
  obtain ⟨⟨f, s⟩, h1, h2, h3⟩ := h
  obtain ⟨d, hd, hu⟩ := Option.map_eq_some_iff.1 h2
  exact ⟨f, s, d, h1, hd, rfl, hu, h3⟩

end sz3

/-! ### Examples -/

section examples

/-- The rules hold in floating-point arithmetic over the reals with any rounding that keeps
numbers that are not negative so. -/
example (r : ℝ → ℝ) (M : ℝ) (hr : ∀ x, 0 ≤ x → 0 ≤ r x) (tr : Fp ℝ → Int) (lg : Fp ℝ → Fp ℝ) :
    NonFin (Fp.ops (fun x => if M ≤ |r x| then Fp.inf (decide (r x < 0)) else .fin (r x))
      (fun x => if M ≤ |r x| then Fp.inf (decide (r x < 0)) else .fin (r x)) tr lg)
      Fp.Bad Fp.Top Fp.NN := by
  apply Fp.nonFin
  intro x hx
  have := hr x hx
  by_cases h : M ≤ |r x| <;> simp [h, Fp.NN, this]

/-- In the field with a missing vertex, that vertex and the one to its right keep their
values. -/
example : ∃ m' s, Online2D.compress (xops 5) xpar 3 3 (fun req _ => req)
      (boundAbsG (xops 5).toDOps 3 3 (.fin (1 / 64))) xfield = some (m', s) ∧
    m'.u 7 = .nan ∧ m'.u 8 = .fin 2 ∧ m'.v 8 = .fin (-1) := by
  obtain ⟨⟨m', s⟩, h⟩ : ∃ x, Online2D.compress (xops 5) xpar 3 3 (fun req _ => req)
      (boundAbsG (xops 5).toDOps 3 3 (.fin (1 / 64))) xfield = some x :=
    Option.isSome_iff_exists.1 (by decide +kernel)
  have h7 := C82_online (xops 5) _ _ _ (xops_nonFin 5) xpar (by decide) (by simp [xpar, Fp.NN]) 3 3 _ _
    xfield m' s h 7 7 (by decide) (Or.inl rfl) (Or.inl trivial)
  have h8 := C82_online (xops 5) _ _ _ (xops_nonFin 5) xpar (by decide) (by simp [xpar, Fp.NN]) 3 3 _ _
    xfield m' s h 8 7 (by decide) (Or.inr (Or.inl ⟨by decide, rfl⟩)) (Or.inl trivial)
  exact ⟨m', s, h, h7.1, h8.1, h8.2⟩

/-- 64-bit integers in which one pattern plays the role of NaN. -/
def NaN64 : BitVec 64 := 9223372036854775808#64

def lift2 (f : BitVec 64 → BitVec 64 → BitVec 64) (a b : BitVec 64) : BitVec 64 :=
  if a = NaN64 ∨ b = NaN64 then NaN64 else f a b

def nanOps : Ops (BitVec 64) (BitVec 64) :=
  { toyOps with
    add := lift2 toyOps.add, sub := lift2 toyOps.sub, mul := lift2 toyOps.mul
    div := lift2 toyOps.div, addT := lift2 toyOps.addT, subT := lift2 toyOps.subT
    abs := fun a => if a = NaN64 then NaN64 else toyOps.abs a
    lt := fun a b => if a = NaN64 ∨ b = NaN64 then false else toyOps.lt a b
    le := fun a b => if a = NaN64 ∨ b = NaN64 then false else toyOps.le a b }

theorem nanOps_nonFin : NonFin nanOps (· = NaN64) (· = NaN64) (fun _ => True) := by
  constructor <;> intros <;> simp_all [nanOps, lift2, toyOps]

/-- A field on a 2 by 2 grid whose third vertex is missing. -/
def nanField : Online2D.Field (BitVec 64) :=
  ⟨fun q => [100#64, 103#64, NaN64, 107#64].getD q 0#64,
   fun q => [50#64, 53#64, 7#64, 48#64].getD q 0#64⟩

/-- From the bytes: the first two vertices are lossy, the missing one and its right neighbour
come back exactly. -/
example : ∃ m' s, Online2D.compress nanOps Online2D.toyPar 2 2 (fun req _ => req)
      (fun _ _ => some 8#64) nanField = some (m', s) ∧ m'.u 0 ≠ nanField.u 0 ∧
    ∃ bs, Online2D.compressBytes nanOps toyCodec toyCodec ⟨fun _ => true, 0#64, 0, fun _ => 0#8⟩
      ⟨fun _ => true, 0#64, 0, fun _ => 0#8⟩ Online2D.toyPar 2 2 (fun req _ => req)
      (fun _ _ => some 8#64) nanField = some (m', bs) ∧
      ∀ rest m0, ∃ d, Online2D.decompressBytes nanOps toyCodec toyCodec 1#64 2 2 m0 (bs ++ rest) =
          some d ∧ d.u 2 = NaN64 ∧ d.v 2 = 7#64 ∧ d.u 3 = 107#64 ∧ d.v 3 = 48#64 := by
  obtain ⟨⟨m', s⟩, h⟩ : ∃ x, Online2D.compress nanOps Online2D.toyPar 2 2 (fun req _ => req)
      (fun _ _ => some 8#64) nanField = some x := Option.isSome_iff_exists.1 (by decide +kernel)
  have hv : (Online2D.compress nanOps Online2D.toyPar 2 2 (fun req _ => req)
      (fun _ _ => some 8#64) nanField).map (fun r => (r.2.eb, r.2.dq, r.1.u 0)) =
      some ([3, 3, 3, 3, 0, 0, 0, 0], [38, 35, 32, 32, 32, 32, 32, 32], 96#64) := by
    decide +kernel
  rw [h] at hv
  simp only [Option.map_some, Option.some.injEq, Prod.mk.injEq] at hv
  obtain ⟨v1, v2, v3⟩ := hv
  obtain ⟨bs, hbs, hdec⟩ := C82_online_bytes nanOps _ _ _ nanOps_nonFin toyCodec toyCodec
    ⟨fun _ => true, 0#64, 0, fun _ => 0#8⟩ ⟨fun _ => true, 0#64, 0, fun _ => 0#8⟩ Online2D.toyPar
    trivial 2 2 (fun req _ => req) (fun _ _ => some 8#64) nanField m' s h (by decide) (by decide)
    (by decide)
    (by rw [v1]; exact fits_of_short _ _ _ (by decide) (by decide) (by decide) (by decide))
    (by rw [v2]; exact fits_of_short _ _ _ (by decide) (by decide) (by decide) (by decide))
  refine ⟨m', s, h, by rw [v3]; decide, bs, hbs, fun rest m0 => ?_⟩
  obtain ⟨d, hd, hA⟩ := hdec rest m0
  obtain ⟨a1, a2⟩ := hA 2 2 (by decide) (Or.inl rfl) (Or.inl rfl)
  obtain ⟨a3, a4⟩ := hA 3 2 (by decide) (Or.inr (Or.inl ⟨by decide, rfl⟩)) (Or.inl rfl)
  exact ⟨d, hd, a1, a2, a3, a4⟩

/-- The rules about the logarithm hold of floating-point numbers when `log2` maps NaN to NaN and
`±inf` to something that is not finite. -/
example (L : VMode.LOps (Fp ℝ) (Fp ℝ)) (hz : ∀ x, L.isZero x = true ↔ x = .fin 0)
    (hn : L.negT = Fp.neg) (h1 : L.log2T .nan = .nan) (h2 : L.log2T (.inf false) = .inf false)
    (h3 : L.log2T (.inf true) = .nan) : NonFinLog L Fp.Bad := by
  refine ⟨fun x hx => ?_, fun x hx => ?_, fun x hx => ?_⟩
  · rw [Bool.eq_false_iff, ne_eq, hz]
    rintro rfl
    exact hx
  · rw [hn]; cases x <;> simp_all [Fp.neg, Fp.Bad]
  · cases x with
    | nan => rw [h1]; trivial
    | inf s => cases s <;> simp [h2, h3, Fp.Bad]
    | fin x => exact absurd hx (by simp [Fp.Bad])

/-- One point of a block codec: NaN is stored. -/
example (G : Block.Cfg (Fp ℚ) (Fp ℚ) (Fp ℚ)) (hd : ∀ a b, G.O.dist a b = Fp.abs (Fp.sub .fin a b))
    (hle : G.O.le = Fp.le) (hlt : G.O.lt = Fp.lt) (hp : G.prec 0 = .fin (1 / 8))
    (s : Block.St (Fp ℚ) (Fp ℚ)) (pt : Block.Pt) (h0 : pt.pos = 0) :
    (Block.encPt G (fun _ => .nan) s pt).2.2 = .nan :=
  C82_block G _ _ (Fp.nonFinBlock G.O _ hd hle hlt) (fun _ => .nan) 0 (by rw [hp]; exact id) trivial _
    (by have := Block.encPt_accept G (fun _ => .nan) s pt; rwa [h0] at this)

end examples

end CpSZ
