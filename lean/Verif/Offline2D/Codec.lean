import Verif.Offline2D.Model
import Verif.Props.Block
import Verif.Props.Bytes
/-
The 2D offline modes: dependence on the bounds, and the stream formats.
-/

namespace CpSZ.Offline2D

open CpSZ.Block

variable {T F D : Type}

/-! ### Only the bounds at grid points matter -/

theorem encEv_prec (G : Cfg T F D) (prec : Nat → D) (data : Nat → T) (s : St T F) (e : Ev)
    (h : ∀ p, e = .pt p → prec p.pos = G.prec p.pos) :
    encEv { G with prec := prec } data s e = encEv G data s e := by
  cases e with
  | start => rfl
  | copy => rfl
  | pt p =>
    have hp := h p rfl
    unfold encEv encPt
    simp only [hp]
    rfl

theorem runEnc_prec (G : Cfg T F D) (prec : Nat → D) (data : Nat → T) (es : List Ev)
    (s : St T F) (h : ∀ p ∈ positions es, prec p = G.prec p) :
    runEnc { G with prec := prec } data es s = runEnc G data es s := by
  induction es generalizing s with
  | nil => rfl
  | cons e es ih =>
    unfold runEnc
    rw [encEv_prec]
    · simp only
      rw [ih]
      intro p hp
      apply h
      cases e <;> simp [positions, hp]
    · rintro p rfl
      exact h _ (by simp [positions])

theorem outEb2_congr (B : BOps T F D) (data : Nat → T) (prec prec' : Nat → D) (r1 r2 bs : Nat)
    (h1 : 0 < r1) (h2 : 0 < r2) (hb : 0 < bs) (h : ∀ p < r1 * r2, prec' p = prec p) :
    outEb2 B data prec' r1 r2 bs = outEb2 B data prec r1 r2 bs :=
  runEnc_prec (cfg2 B r2 bs (false, B.zeroT) 32768 prec true B.tenth (fun _ _ _ _ => none))
    prec' data _ _ fun p hp =>
      h p (List.mem_range.1 ((tiling2 r1 r2 bs h1 h2 hb).mem_iff.1 hp))

theorem compressEb2_congr (B : BOps T F D) (f : Fmt T F D) (E1 E2 : Env) (data : Nat → T)
    (prec prec' : Nat → D) (r1 r2 bs : Nat) (indep : Bool)
    (h1 : 0 < r1) (h2 : 0 < r2) (hb : 0 < bs) (h : ∀ p < r1 * r2, prec' p = prec p) :
    compressEb2 B f E1 E2 data prec' r1 r2 bs indep =
      compressEb2 B f E1 E2 data prec r1 r2 bs indep := by
  unfold compressEb2
  rw [outEb2_congr B data prec prec' r1 r2 bs h1 h2 hb h]

/-- The block codec when the decompressor's bounds agree with the compressor's at all grid
points. -/
theorem eb2_agree (B : BOps T F D) (f : Fmt T F D) (hskip : f.skip = f.cT.size)
    (E1 E2 : Env) (data : Nat → T) (prec prec' : Nat → D) (r1 r2 bs : Nat) (indep : Bool)
    (h1 : 0 < r1) (h2 : 0 < r2) (hb : 0 < bs) (hb31 : bs < 2 ^ 31) (hn : r1 * r2 < 2 ^ 58)
    (h : ∀ p < r1 * r2, prec' p = prec p)
    (hcode : ∀ p < r1 * r2, B.isZero (prec p) = false → ∀ diff q,
      linQuant B.O.toDOps diff (prec p) 65536 32768 = some q → 0 < q ∧ q < 65536)
    (hd : DepthOK E2 131072 (outEb2 B data prec r1 r2 bs).ty) :
    ∃ bytes, compressEb2 B f E1 E2 data prec r1 r2 bs indep = some bytes ∧
      ∀ rest out0, ∃ out, decompressEb2 B f prec' r1 r2 out0 (bytes ++ rest) = some out ∧
        ∀ p < r1 * r2, (B.isZero (prec p) = true → out p = data p) ∧
          (out p = data p ∨ B.O.le (B.O.dist (out p) (data p)) (prec p) = true) := by
  obtain ⟨bytes, e, r⟩ := C31_roundtrip B f hskip E1 E2 data prec' r1 r2 bs indep h1 h2 hb hb31
    hn (fun p hp hz => by rw [h p hp] at hz ⊢; exact hcode p hp hz)
    (by rw [outEb2_congr B data prec prec' r1 r2 bs h1 h2 hb h]; exact hd)
  rw [compressEb2_congr B f E1 E2 data prec prec' r1 r2 bs indep h1 h2 hb h] at e
  refine ⟨bytes, e, fun rest out0 => ?_⟩
  obtain ⟨out, ho, ha⟩ := r rest out0
  refine ⟨out, ho, fun p hp => ?_⟩
  have := ha p hp
  rwa [h p hp] at this

/-! ### Sign maps -/

theorem signs_length (O : OOps T D) (data : Nat → T) (n : Nat) : (signs O data n).length = n := by
  simp [signs]

theorem signs_ne (O : OOps T D) (data : Nat → T) (n : Nat) (h : 0 < n) : signs O data n ≠ [] := by
  intro h'
  have := signs_length O data n
  rw [h'] at this
  simp at this
  omega

theorem signs_read (O : OOps T D) (data : Nat → T) (n : Nat) (h : 0 < n) (rest : List Byte) :
    unpackFlags n ((n - 1) / 8 + 1) (packFlags (signs O data n) ++ rest) =
      some (signs O data n, rest) := by
  have := C08_sign_bitmap_exact (signs O data n) rest (signs_ne O data n h) (by
    intro f hf
    simp only [signs, List.mem_map] at hf
    obtain ⟨i, -, rfl⟩ := hf
    split <;> simp)
  rw [signs_length] at this
  have e : (n - 1) / 8 + 1 = flagBytes n := by
    unfold flagBytes
    split <;> omega
  rwa [e]

theorem signs_bytes (O : OOps T D) (data : Nat → T) (n : Nat) (h : 0 < n) :
    (packFlags (signs O data n)).length = (n - 1) / 8 + 1 := by
  have hl := (C08_sign_bitmap_roundtrip (signs O data n) [] (signs_ne O data n h)).1
  rw [signs_length] at hl
  omega

theorem signs_get (O : OOps T D) (data : Nat → T) (n p : Nat) (h : p < n) :
    ((signs O data n).getD p 0#8 != 0#8) = signOf O (data p) := by
  simp only [signs, List.getD_eq_getElem?_getD, List.getElem?_map, List.getElem?_range h,
    Option.map_some, Option.getD_some]
  cases signOf O (data p) <;> rfl

theorem codesRel_length (O : OOps T D) (Q : QPar D) (U V : Nat → T) (eb : Nat → D) (n : Nat) :
    (codesRel O Q U V eb n).length = 2 * n := by
  simp [codesRel]; omega

theorem codesRel_u (O : OOps T D) (Q : QPar D) (U V : Nat → T) (eb : Nat → D) (n p : Nat)
    (h : p < n) : (codesRel O Q U V eb n).getD p 0 = (quantRel O Q (U p) (eb p)).2 := by
  unfold codesRel
  rw [List.getD_eq_getElem?_getD, List.getElem?_append_left (by simpa using h)]
  simp [List.getElem?_range h]

theorem codesRel_v (O : OOps T D) (Q : QPar D) (U V : Nat → T) (eb : Nat → D) (n p : Nat)
    (h : p < n) : (codesRel O Q U V eb n).getD (n + p) 0 = (quantRel O Q (V p) (eb p)).2 := by
  unfold codesRel
  rw [List.getD_eq_getElem?_getD, List.getElem?_append_right (by simp)]
  simp [List.getElem?_range h]

theorem codesLog_length (O : OOps T D) (Q : QPar D) (eb : Nat → D) (n : Nat) :
    (codesLog O Q eb n).length = n := by
  simp [codesLog]

theorem codesLog_get (O : OOps T D) (Q : QPar D) (eb : Nat → D) (n p : Nat)
    (h : p < n) : (codesLog O Q eb n).getD p 0 = (quantLog O Q (eb p)).2 := by
  unfold codesLog
  simp [List.getD_eq_getElem?_getD, List.getElem?_range h]

/-! ### The streams -/

theorem rel_stream (O : OOps T D) (Q : QPar D) (B : BOps T F D) (f : Fmt T F D)
    (hskip : f.skip = f.cT.size) (E : Envs) (U V : Nat → T) (eb : Nat → D) (r1 r2 bs : Nat)
    (indep : Bool) (hbase : Q.base < 2 ^ 32)
    (h1 : 0 < r1) (h2 : 0 < r2) (hb : 0 < bs) (hb31 : bs < 2 ^ 31) (hn : r1 * r2 < 2 ^ 58)
    (hfit : Fits E.eb 2048 (codesRel O Q U V eb (r1 * r2)))
    (hU : ∀ p < r1 * r2, decBound O.d Q (quantRel O Q (U p) (eb p)).2 =
      (quantRel O Q (U p) (eb p)).1)
    (hV : ∀ p < r1 * r2, decBound O.d Q (quantRel O Q (V p) (eb p)).2 =
      (quantRel O Q (V p) (eb p)).1)
    (hcU : ∀ p < r1 * r2, B.isZero (quantRel O Q (U p) (eb p)).1 = false → ∀ diff q,
      linQuant B.O.toDOps diff (quantRel O Q (U p) (eb p)).1 65536 32768 = some q →
        0 < q ∧ q < 65536)
    (hcV : ∀ p < r1 * r2, B.isZero (quantRel O Q (V p) (eb p)).1 = false → ∀ diff q,
      linQuant B.O.toDOps diff (quantRel O Q (V p) (eb p)).1 65536 32768 = some q →
        0 < q ∧ q < 65536)
    (hdU : DepthOK E.u2 131072 (outEb2 B U (fun i => (quantRel O Q (U i) (eb i)).1) r1 r2 bs).ty)
    (hdV : DepthOK E.v2 131072 (outEb2 B V (fun i => (quantRel O Q (V i) (eb i)).1) r1 r2 bs).ty) :
    ∃ res, compressOff O Q B f E U V eb r1 r2 bs indep = some res ∧
      res.bytes.length = res.size + f.cD.size ∧
      (res.bytes.length < 2 ^ 64 → ∀ rest o1 o2, ∃ U' V',
        decompressOff O Q.logBase B f r1 r2 o1 o2 (res.bytes ++ rest) = some (U', V') ∧
        ∀ p < r1 * r2,
          (B.isZero (quantRel O Q (U p) (eb p)).1 = true → U' p = U p) ∧
          (U' p = U p ∨ B.O.le (B.O.dist (U' p) (U p)) (quantRel O Q (U p) (eb p)).1 = true) ∧
          (B.isZero (quantRel O Q (V p) (eb p)).1 = true → V' p = V p) ∧
          (V' p = V p ∨ B.O.le (B.O.dist (V' p) (V p)) (quantRel O Q (V p) (eb p)).1 = true)) := by
  obtain ⟨c, ec, rc⟩ := ints_roundtrip E.eb 2048 _ hfit
  obtain ⟨u, eu, ru⟩ := eb2_agree B f hskip E.u1 E.u2 U (fun i => (quantRel O Q (U i) (eb i)).1)
    (fun i => decBound O.d Q ((codesRel O Q U V eb (r1 * r2)).getD i 0)) r1 r2 bs indep
    h1 h2 hb hb31 hn (fun p hp => by rw [codesRel_u O Q U V eb _ p hp]; exact hU p hp) hcU hdU
  obtain ⟨v, ev, rv⟩ := eb2_agree B f hskip E.v1 E.v2 V (fun i => (quantRel O Q (V i) (eb i)).1)
    (fun i => decBound O.d Q ((codesRel O Q U V eb (r1 * r2)).getD (r1 * r2 + i) 0)) r1 r2 bs indep
    h1 h2 hb hb31 hn (fun p hp => by rw [codesRel_v O Q U V eb _ p hp]; exact hV p hp) hcV hdV
  refine ⟨_, by
    unfold compressOff
    rw [ec, eu, ev]
    rfl, ?_, fun hlen rest o1 o2 => ?_⟩
  · simp only [List.length_append, leBytes_length, f.cD.enc_length]
    omega
  · have hu64 : u.length < 2 ^ 64 ∧ c.length < 2 ^ 64 ∧ v.length < 2 ^ 64 := by
      simp only [List.length_append, leBytes_length, f.cD.enc_length] at hlen
      omega
    obtain ⟨U', hU', aU⟩ := ru (v ++ rest) o1
    obtain ⟨V', hV', aV⟩ := rv rest o2
    refine ⟨U', V', ?_, fun p hp => ⟨(aU p hp).1, (aU p hp).2, (aV p hp).1, (aV p hp).2⟩⟩
    unfold decompressOff
    simp only [List.append_assoc]
    rw [readLE_leBytes (by omega)]
    simp only [Option.bind_eq_bind, Option.bind_some]
    rw [readVar_enc]
    simp only [Option.bind_some]
    rw [readLE_leBytes (by omega)]
    simp only [Option.bind_some]
    rw [readLE_leBytes (by omega)]
    simp only [Option.bind_some]
    rw [readLE_leBytes (by omega)]
    simp only [Option.bind_some]
    rw [← codesRel_length O Q U V eb, rc]
    simp only [Option.bind_some]
    rw [hU']
    simp only [Option.bind_some]
    rw [List.drop_left, hV']
    rfl

theorem log_stream (O : OOps T D) (Q : QPar D) (B : BOps T F D) (f : Fmt T F D)
    (hskip : f.skip = f.cT.size) (E : Envs) (U V : Nat → T) (eb : Nat → D) (r1 r2 bs : Nat)
    (indep : Bool) (hbase : Q.base < 2 ^ 32)
    (h1 : 0 < r1) (h2 : 0 < r2) (hb : 0 < bs) (hb31 : bs < 2 ^ 31) (hn : r1 * r2 < 2 ^ 58)
    (hfit : Fits E.eb 2048 (codesLog O Q eb (r1 * r2)))
    (hE : ∀ p < r1 * r2, decBound O.d Q (quantLog O Q (eb p)).2 = (quantLog O Q (eb p)).1)
    (hc : ∀ p < r1 * r2, B.isZero (quantLog O Q (eb p)).1 = false → ∀ diff q,
      linQuant B.O.toDOps diff (quantLog O Q (eb p)).1 65536 32768 = some q → 0 < q ∧ q < 65536)
    (hdU : DepthOK E.u2 131072 (outEb2 B (fun i => logOf O (U i))
      (fun i => (quantLog O Q (eb i)).1) r1 r2 bs).ty)
    (hdV : DepthOK E.v2 131072 (outEb2 B (fun i => logOf O (V i))
      (fun i => (quantLog O Q (eb i)).1) r1 r2 bs).ty) :
    ∃ res, compressLog O Q B f E U V eb r1 r2 bs indep = some res ∧
      res.bytes.length + 8 = res.size + f.cD.size ∧
      (res.bytes.length < 2 ^ 64 → ∀ rest o1 o2, ∃ U' V',
        decompressLog O Q.logBase B f r1 r2 o1 o2 (res.bytes ++ rest) = some (U', V') ∧
        ∀ p < r1 * r2, ∃ l m, U' p = post O (signOf O (U p)) l ∧ V' p = post O (signOf O (V p)) m ∧
          (B.isZero (quantLog O Q (eb p)).1 = true → l = logOf O (U p) ∧ m = logOf O (V p)) ∧
          (l = logOf O (U p) ∨
            B.O.le (B.O.dist l (logOf O (U p))) (quantLog O Q (eb p)).1 = true) ∧
          (m = logOf O (V p) ∨
            B.O.le (B.O.dist m (logOf O (V p))) (quantLog O Q (eb p)).1 = true)) := by
  have hn0 : 0 < r1 * r2 := Nat.mul_pos h1 h2
  obtain ⟨c, ec, rc⟩ := ints_roundtrip E.eb 2048 _ hfit
  have hag : ∀ p < r1 * r2, (fun i => decBound O.d Q ((codesLog O Q eb (r1 * r2)).getD i 0)) p =
      (fun i => (quantLog O Q (eb i)).1) p :=
    fun p hp => by
      beta_reduce
      rw [codesLog_get O Q eb _ p hp]; exact hE p hp
  obtain ⟨u, eu, ru⟩ := eb2_agree B f hskip E.u1 E.u2 (fun i => logOf O (U i))
    (fun i => (quantLog O Q (eb i)).1) _ r1 r2 bs indep h1 h2 hb hb31 hn hag hc hdU
  obtain ⟨v, ev, rv⟩ := eb2_agree B f hskip E.v1 E.v2 (fun i => logOf O (V i))
    (fun i => (quantLog O Q (eb i)).1) _ r1 r2 bs indep h1 h2 hb hb31 hn hag hc hdV
  refine ⟨_, by
    unfold compressLog
    rw [ec, eu, ev]
    rfl, ?_, fun hlen rest o1 o2 => ?_⟩
  · simp only [List.length_append, leBytes_length, f.cD.enc_length, signs_bytes O _ _ hn0]
    omega
  · have hu64 : u.length < 2 ^ 64 ∧ c.length < 2 ^ 64 ∧ v.length < 2 ^ 64 := by
      simp only [List.length_append, leBytes_length, f.cD.enc_length] at hlen
      omega
    obtain ⟨U', hU', aU⟩ := ru (v ++ rest) o1
    obtain ⟨V', hV', aV⟩ := rv rest o2
    refine ⟨_, _, by
      unfold decompressLog
      simp only [List.append_assoc]
      rw [readLE_leBytes (by omega)]
      simp only [Option.bind_eq_bind, Option.bind_some]
      rw [readVar_enc]
      simp only [Option.bind_some]
      rw [readLE_leBytes (by omega)]
      simp only [Option.bind_some]
      rw [readLE_leBytes (by omega)]
      simp only [Option.bind_some]
      rw [readLE_leBytes (by omega)]
      simp only [Option.bind_some]
      have rc' := rc (packFlags (signs O U (r1 * r2)) ++ (packFlags (signs O V (r1 * r2)) ++
        (u ++ (v ++ rest))))
      rw [codesLog_length] at rc'
      rw [rc']
      simp only [Option.bind_some]
      rw [signs_read O U _ hn0]
      simp only [Option.bind_some]
      rw [signs_read O V _ hn0]
      simp only [Option.bind_some]
      rw [hU']
      simp only [Option.bind_some]
      rw [List.drop_left, hV']
      rfl, fun p hp => ⟨U' p, V' p, ?_, ?_, fun h => ⟨(aU p hp).1 h, (aV p hp).1 h⟩,
        (aU p hp).2, (aV p hp).2⟩⟩
    · rw [signs_get O U _ p hp]
    · rw [signs_get O V _ p hp]

end CpSZ.Offline2D
