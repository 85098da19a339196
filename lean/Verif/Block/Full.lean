import Verif.Block.Codec
/-
Round trips of the block codecs from input to output, in any arithmetic, and the bounds of
the buffer accesses.
-/

namespace CpSZ.Block

variable {T F D : Type}

theorem runEnc_no_coefs (G : Cfg T F D) (h : ∀ o sx sy sz, G.sel o sx sy sz = none)
    (data : Nat → T) (es : List Ev) (s : St T F) :
    (runEnc G data es s).coefs = [] ∧ (runEnc G data es s).rty = [] ∧
      (runEnc G data es s).run = [] := by
  induction es generalizing s with
  | nil => simp [runEnc, Out.nil]
  | cons e es ih =>
    cases e with
    | start o sx sy sz => simp [runEnc, encEv, h, Out.app, Out.nil, ih]
    | copy src len => simp [runEnc, encEv, Out.app, Out.nil, ih]
    | pt p => simp [runEnc, encEv, Out.app, Out.nil, ih]

/-- The stream produced from a complete run is read back. -/
theorem codec_roundtrip (f : Fmt T F D) (hskip : f.skip = f.cT.size) (G : Cfg T F D)
    (zeroF : F) (E1 E2 : Env) (h : Hdr T D) (n : Nat) (nb : Nat → Nat)
    (precs : Nat → Option D → List D) (data : Nat → T) (es : List Ev) (s : St T F)
    (hG : Good G (· < n)) (hperm : (positions es).Perm (List.range n))
    (hprev : s.prev = List.replicate G.regPrecs.length zeroF)
    (hrr : G.regRadius = 32768) (hrad : G.radius = h.radius) (hr26 : 4 * h.radius ≤ 2 ^ 26)
    (hbs : h.bs < 2 ^ 31) (hn : n < 2 ^ 60) (hn0 : 0 < n)
    (hnb : nb h.bs = starts es) (hst : 0 < starts es)
    (hpl : 0 < G.regPrecs.length) (hsz : G.regPrecs.length * starts es < 2 ^ 60)
    (hprecs : precs h.bs h.prec = G.regPrecs)
    (hd1 : (runEnc G data es s).coefs.length ≠ 0 →
      DepthOK E1 (2 * 65536) (runEnc G data es s).rty)
    (hd2 : DepthOK E2 (4 * h.radius) (runEnc G data es s).ty) :
    ∃ bytes, encodeStream f E1 E2 (2 * h.radius) 65536 h (runEnc G data es s) = some bytes ∧
      ∀ rest, decodeStream f G.C zeroF 32768 65536 h.prec.isSome n nb precs (bytes ++ rest) =
        some ⟨h, (runEnc G data es s).ind, (runEnc G data es s).coefs,
          (runEnc G data es s).ty, (runEnc G data es s).un⟩ := by
  have hpos : ∀ p ∈ positions es, p < n := fun p hp => List.mem_range.1 (hperm.mem_iff.1 hp)
  have hlen : (positions es).length = n := by rw [hperm.length_eq, List.length_range]
  obtain ⟨a1, a2, a3, a4, a5⟩ := runEnc_codes G (· < n) hG data es hpos s
  obtain ⟨c1, c2, c3, c4⟩ := coefs_roundtrip G (· < n) hG data es s (by rw [hprev]; simp)
  have hcl : (runEnc G data es s).coefs.length ≤ starts es := by
    rw [a5, ← a4]; exact List.count_le_length
  have hmul : G.regPrecs.length * (runEnc G data es s).coefs.length ≤
      G.regPrecs.length * starts es := Nat.mul_le_mul_left _ hcl
  have hself : (runEnc G data es s).coefs.length ≤
      G.regPrecs.length * (runEnc G data es s).coefs.length :=
    Nat.le_mul_of_pos_left _ hpl
  refine stream_roundtrip f hskip G.C zeroF 32768 65536 E1 E2 (2 * h.radius) h _ n nb precs hbs
    (by omega) rfl (by omega) (by norm_num) hn (by omega) (by omega) ?_ ?_ (by omega)
    (by rw [a4, hnb]) ?_ (by rw [hprecs]; omega) (by omega) (by rw [hprecs]; exact hpl)
    (by rw [hprecs]; exact c2) ?_ c4 hd1 ?_
  · intro t ht
    have := a1 t ht
    rw [hrad] at this
    have hr := hG.radius
    rw [hrad] at hr
    push_cast
    omega
  · rw [show 2 * (2 * h.radius) = 4 * h.radius by omega]
    exact hd2
  · intro h0
    rw [h0] at a4
    simp at a4
    omega
  · intro t ht
    have := c3 t ht
    rw [hrr] at this
    push_cast
    omega
  · rw [hprecs, ← hprev, ← hrr]
    exact c1

/-- `sz_compress_2d_with_eb` and `sz_decompress_2d_with_eb`. -/
theorem eb2_roundtrip (B : BOps T F D) (f : Fmt T F D) (hskip : f.skip = f.cT.size)
    (E1 E2 : Env) (data : Nat → T) (prec : Nat → D) (r1 r2 bs : Nat) (indep : Bool)
    (h1 : 0 < r1) (h2 : 0 < r2) (hb : 0 < bs) (hb31 : bs < 2 ^ 31) (hn : r1 * r2 < 2 ^ 58)
    (hcode : ∀ p < r1 * r2, B.isZero (prec p) = false → ∀ diff q,
      linQuant B.O.toDOps diff (prec p) 65536 32768 = some q → 0 < q ∧ q < 65536)
    (hd : DepthOK E2 131072 (outEb2 B data prec r1 r2 bs).ty) :
    ∃ bytes, compressEb2 B f E1 E2 data prec r1 r2 bs indep = some bytes ∧
      ∀ rest out0, ∃ out, decompressEb2 B f prec r1 r2 out0 (bytes ++ rest) = some out ∧
        (∀ p < r1 * r2, Accept (cfg2 B r2 bs (false, B.zeroT) 32768 prec true B.tenth
          (fun _ _ _ _ => none)) data p (out p)) ∧
        (∀ p, r1 * r2 ≤ p → out p = out0 p) ∧
        out = writes out0 (outEb2 B data prec r1 r2 bs).recon := by
  have hG : Good (cfg2 B r2 bs (false, B.zeroT) 32768 prec true B.tenth (fun _ _ _ _ => none))
      (· < r1 * r2) := by
    refine ⟨?_, ?_, ?_, ?_, ?_, ?_⟩
    · intro p hp hz diff q hq
      have := hcode p hp (by simpa [cfg2] using hz) diff q hq
      refine ⟨this.1, ?_, fun h => ?_⟩
      · show q < 2 * ((32768 : Nat) : Int)
        omega
      · simp [cfg2] at h
    · intro p hp hz diff q hq
      have := hcode p hp (by simpa [cfg2] using hz) diff q hq
      refine ⟨this.1, ?_⟩
      show q < 2 * ((32768 : Nat) : Int)
      omega
    · show (1 : Int) < 2 * ((32768 : Nat) : Int)
      omega
    · rintro ⟨_, _, _, _, _, h⟩
      cases h
    · show (0 : Int) < 2 * 32768
      omega
    · intro _ _ _ _ _ h
      cases h
  have hperm : (positions (planC2 r1 r2 bs)).Perm (List.range (r1 * r2)) := tiling2 _ _ _ h1 h2 hb
  have hst := starts2 r1 r2 bs
  have hst0 : 0 < starts (planC2 r1 r2 bs) := by
    rw [hst]; unfold numBlk; positivity
  have hstn : starts (planC2 r1 r2 bs) ≤ r1 * r2 := by
    rw [hst]; exact Nat.mul_le_mul (numBlk_le _ _ h1) (numBlk_le _ _ h2)
  have hl3 := regPrecs_length B 3 (by omega) B.tenth bs
  obtain ⟨bytes, e, r⟩ := codec_roundtrip f hskip
    (cfg2 B r2 bs (false, B.zeroT) 32768 prec true B.tenth (fun _ _ _ _ => none))
    B.zeroF E1 E2 ⟨bs, none, indep, 32768, (false, B.zeroT)⟩ (r1 * r2)
    (fun b => numBlk r1 b * numBlk r2 b) (fun b _ => regPrecs B 3 B.tenth b) data
    (planC2 r1 r2 bs) (initSt B 3) hG hperm
    (by show _ = List.replicate (regPrecs B 3 B.tenth bs).length _; rw [hl3]; rfl)
    rfl rfl (by norm_num) hb31 (by omega) (Nat.mul_pos h1 h2) hst.symm hst0
    (by show 0 < (regPrecs B 3 B.tenth bs).length; omega)
    (by show (regPrecs B 3 B.tenth bs).length * _ < _; rw [hl3]; omega) rfl
    (by
      rw [(runEnc_no_coefs _ (fun _ _ _ _ => rfl) _ _ _).1]
      exact fun h => absurd rfl h) hd
  refine ⟨bytes, e, fun rest out0 => ?_⟩
  obtain ⟨d, hd1, hd2, hd3, hd4⟩ := run_roundtrip
    (cfg2 B r2 bs (false, B.zeroT) 32768 prec true B.tenth (fun _ _ _ _ => none))
    (cfg2 B r2 bs (false, B.zeroT) 32768 prec true B.tenth (fun _ _ _ _ => none))
    (r1 * r2) hG rfl rfl rfl rfl rfl rfl rfl data (planC2 r1 r2 bs) hperm (initSt B 3) out0
  refine ⟨d.out, ?_, hd2, hd3, hd4⟩
  have hplan : planD2 r1 r2 bs = planC2 r1 r2 bs := by
    rw [planD2_closed _ _ _ h2 hb, planC2_closed]
  have r' := r rest
  simp only [Option.isSome_none] at r'
  unfold decompressEb2
  rw [show B.C = (cfg2 B r2 bs (false, B.zeroT) 32768 prec true B.tenth
    (fun _ _ _ _ => none)).C from rfl, r']
  simp only [hplan]
  rw [show (initSt B 3 : St T F).buf = fun _ => B.zeroT from rfl,
    show (initSt B 3 : St T F).mode = none from rfl] at hd1
  rw [hd1]

/-- `sz_compress_2d` and `sz_decompress_2d`. -/
theorem two_roundtrip (B : BOps T F D) (f : Fmt T F D) (hskip : f.skip = f.cT.size)
    (E1 E2 : Env) (data : Nat → T) (prec : D) (r1 r2 bs : Nat) (indep : Bool)
    (sel : Nat → Nat → Nat → Nat → Option (List F))
    (h1 : 0 < r1) (h2 : 0 < r2) (hb : 0 < bs) (hb31 : bs < 2 ^ 31) (hn : r1 * r2 < 2 ^ 58)
    (hsel : ∀ o sx sy sz c, sel o sx sy sz = some c → c.length = 3)
    (hcode : ∀ diff q,
      linQuant B.O.toDOps diff prec 32768 16384 = some q → 0 < q ∧ q < 32768)
    (hcoef : ∀ p ∈ regPrecs B 3 prec bs, ∀ diff q,
      linQuant B.C.toDOps diff p 65536 32768 = some q → 0 < q ∧ q < 65536)
    (hd1 : (out2 B data prec r1 r2 bs sel).coefs.length ≠ 0 →
      DepthOK E1 131072 (out2 B data prec r1 r2 bs sel).rty)
    (hd2 : DepthOK E2 65536 (out2 B data prec r1 r2 bs sel).ty) :
    ∃ bytes, compress2 B f E1 E2 data prec r1 r2 bs indep sel = some bytes ∧
      ∀ rest out0, ∃ out, decompress2 B f r1 r2 out0 (bytes ++ rest) = some out ∧
        (∀ p < r1 * r2, Accept (cfg2 B r2 bs (false, B.zeroT) 16384 (fun _ => prec) false prec
          sel) data p (out p)) ∧
        (∀ p, r1 * r2 ≤ p → out p = out0 p) ∧
        out = writes out0 (out2 B data prec r1 r2 bs sel).recon := by
  have hG : Good (cfg2 B r2 bs (false, B.zeroT) 16384 (fun _ => prec) false prec sel)
      (· < r1 * r2) := by
    refine ⟨?_, ?_, ?_, ?_, ?_, ?_⟩
    · intro p hp hz diff q hq
      have := hcode diff q hq
      refine ⟨this.1, ?_, fun h => ?_⟩
      · show q < 2 * ((16384 : Nat) : Int)
        omega
      · simp [cfg2] at h
    · intro p hp hz diff q hq
      have := hcode diff q hq
      refine ⟨this.1, ?_⟩
      show q < 2 * ((16384 : Nat) : Int)
      omega
    · show (1 : Int) < 2 * ((16384 : Nat) : Int)
      omega
    · intro _ p hp diff q hq
      exact hcoef p hp diff q hq
    · show (0 : Int) < 2 * 32768
      omega
    · intro o sx sy sz c h
      rw [hsel o sx sy sz c h]
      exact (regPrecs_length B 3 (by omega) prec bs).symm
  have hperm : (positions (planC2 r1 r2 bs)).Perm (List.range (r1 * r2)) := tiling2 _ _ _ h1 h2 hb
  have hst := starts2 r1 r2 bs
  have hst0 : 0 < starts (planC2 r1 r2 bs) := by
    rw [hst]; unfold numBlk; positivity
  have hstn : starts (planC2 r1 r2 bs) ≤ r1 * r2 := by
    rw [hst]; exact Nat.mul_le_mul (numBlk_le _ _ h1) (numBlk_le _ _ h2)
  have hl3 := regPrecs_length B 3 (by omega) prec bs
  obtain ⟨bytes, e, r⟩ := codec_roundtrip f hskip
    (cfg2 B r2 bs (false, B.zeroT) 16384 (fun _ => prec) false prec sel)
    B.zeroF E1 E2 ⟨bs, some prec, indep, 16384, (false, B.zeroT)⟩ (r1 * r2)
    (fun b => numBlk r1 b * numBlk r2 b) (fun b p => regPrecs B 3 (p.getD B.zeroD) b) data
    (planC2 r1 r2 bs) (initSt B 3) hG hperm
    (by show _ = List.replicate (regPrecs B 3 prec bs).length _; rw [hl3]; rfl)
    rfl rfl (by norm_num) hb31 (by omega) (Nat.mul_pos h1 h2) hst.symm hst0
    (by show 0 < (regPrecs B 3 prec bs).length; omega)
    (by show (regPrecs B 3 prec bs).length * _ < _; rw [hl3]; omega) rfl hd1 hd2
  refine ⟨bytes, e, fun rest out0 => ?_⟩
  obtain ⟨d, hd1, hd2, hd3, hd4⟩ := run_roundtrip
    (cfg2 B r2 bs (false, B.zeroT) 16384 (fun _ => prec) false prec sel)
    (cfg2 B r2 bs (false, B.zeroT) 16384 (fun _ => prec) false prec (fun _ _ _ _ => none))
    (r1 * r2) hG rfl rfl rfl rfl rfl rfl rfl data (planC2 r1 r2 bs) hperm (initSt B 3) out0
  refine ⟨d.out, ?_, hd2, hd3, hd4⟩
  have hplan : planD2 r1 r2 bs = planC2 r1 r2 bs := by
    rw [planD2_closed _ _ _ h2 hb, planC2_closed]
  have r' := r rest
  simp only [Option.isSome_some] at r'
  unfold decompress2
  rw [show B.C = (cfg2 B r2 bs (false, B.zeroT) 16384 (fun _ => prec) false prec sel).C from rfl,
    r']
  simp only [hplan, Option.getD_some]
  rw [show (initSt B 3 : St T F).buf = fun _ => B.zeroT from rfl,
    show (initSt B 3 : St T F).mode = none from rfl] at hd1
  rw [hd1]

/-- `sz_compress_3d` and `sz_decompress_3d`, for any radius and mean. -/
theorem three_roundtrip (B : BOps T F D) (f : Fmt T F D) (hskip : f.skip = f.cT.size)
    (E1 E2 : Env) (data : Nat → T) (prec : D) (r1 r2 r3 bs : Nat) (indep : Bool) (radius : Nat)
    (mean : Bool × T) (sel : Nat → Nat → Nat → Nat → Option (List F))
    (h1 : 0 < r1) (h2 : 0 < r2) (h3 : 0 < r3) (hb : 0 < bs) (hb31 : bs < 2 ^ 31)
    (hn : r1 * r2 * r3 < 2 ^ 58) (hrad0 : 0 < radius) (hrad : radius ≤ 2 ^ 24)
    (hsel : ∀ o sx sy sz c, sel o sx sy sz = some c → c.length = 4)
    (hcode : ∀ diff q,
      linQuant B.O.toDOps diff prec (2 * radius) radius = some q → 0 < q ∧ q < 2 * radius)
    (hmean : mean.1 = true → ∀ diff q,
      linQuant B.O.toDOps diff prec (2 * radius - 2) radius = some q → 1 < q ∧ q < 2 * radius)
    (hcoef : ∀ p ∈ regPrecs B 4 prec bs, ∀ diff q,
      linQuant B.C.toDOps diff p 65536 32768 = some q → 0 < q ∧ q < 65536)
    (hd1 : (out3 B data prec r1 r2 r3 bs indep radius mean sel).coefs.length ≠ 0 →
      DepthOK E1 131072 (out3 B data prec r1 r2 r3 bs indep radius mean sel).rty)
    (hd2 : DepthOK E2 (4 * radius) (out3 B data prec r1 r2 r3 bs indep radius mean sel).ty) :
    ∃ bytes, compress3 B f E1 E2 data prec r1 r2 r3 bs indep radius mean sel = some bytes ∧
      ∀ rest out0, ∃ out, decompress3 B f r1 r2 r3 out0 (bytes ++ rest) = some out ∧
        (∀ p < r1 * r2 * r3, Accept (cfg3 B r2 r3 bs indep mean radius (fun _ => prec) prec
          sel) data p (out p)) ∧
        (∀ p, r1 * r2 * r3 ≤ p → out p = out0 p) ∧
        out = writes out0 (out3 B data prec r1 r2 r3 bs indep radius mean sel).recon := by
  have hG : Good (cfg3 B r2 r3 bs indep mean radius (fun _ => prec) prec sel)
      (· < r1 * r2 * r3) := by
    refine ⟨?_, ?_, ?_, ?_, ?_, ?_⟩
    · intro p hp hz diff q hq
      cases hm : mean.1 with
      | true =>
        simp only [cfg3, hm, if_true] at hq
        have := hmean hm diff q hq
        exact ⟨by omega, this.2, fun _ => this.1⟩
      | false =>
        simp only [cfg3, hm, Bool.false_eq_true, if_false] at hq
        have := hcode diff q hq
        exact ⟨this.1, this.2, fun h => by simp [cfg3, hm] at h⟩
    · intro p hp hz diff q hq
      exact hcode diff q hq
    · show (1 : Int) < 2 * (radius : Int)
      omega
    · intro _ p hp diff q hq
      exact hcoef p hp diff q hq
    · show (0 : Int) < 2 * 32768
      omega
    · intro o sx sy sz c h
      rw [hsel o sx sy sz c h]
      exact (regPrecs_length B 4 (by omega) prec bs).symm
  have hperm : (positions (plan3d indep r1 r2 r3 bs)).Perm (List.range (r1 * r2 * r3)) := by
    unfold plan3d
    cases indep
    · exact tiling3 _ _ _ _ h1 h2 h3 hb
    · exact tiling3i _ _ _ _ h1 h2 h3 hb
  have hst := starts3 indep r1 r2 r3 bs h3 hb
  have hst0 : 0 < starts (plan3d indep r1 r2 r3 bs) := by
    rw [hst]; unfold numBlk; positivity
  have hstn : starts (plan3d indep r1 r2 r3 bs) ≤ r1 * r2 * r3 := by
    rw [hst]
    exact Nat.mul_le_mul (Nat.mul_le_mul (numBlk_le _ _ h1) (numBlk_le _ _ h2))
      (numBlk_le _ _ h3)
  have hl4 := regPrecs_length B 4 (by omega) prec bs
  obtain ⟨bytes, e, r⟩ := codec_roundtrip f hskip
    (cfg3 B r2 r3 bs indep mean radius (fun _ => prec) prec sel)
    B.zeroF E1 E2 ⟨bs, some prec, indep, radius, mean⟩ (r1 * r2 * r3)
    (fun b => numBlk r1 b * numBlk r2 b * numBlk r3 b)
    (fun b p => regPrecs B 4 (p.getD B.zeroD) b) data
    (plan3d indep r1 r2 r3 bs) (initSt B 4) hG hperm
    (by show _ = List.replicate (regPrecs B 4 prec bs).length _; rw [hl4]; rfl)
    rfl rfl (by show 4 * radius ≤ _; omega) hb31 (by omega)
    (Nat.mul_pos (Nat.mul_pos h1 h2) h3) hst.symm hst0
    (by show 0 < (regPrecs B 4 prec bs).length; omega)
    (by show (regPrecs B 4 prec bs).length * _ < _; rw [hl4]; omega) rfl hd1 hd2
  refine ⟨bytes, e, fun rest out0 => ?_⟩
  obtain ⟨d, hd1, hd2, hd3, hd4⟩ := run_roundtrip
    (cfg3 B r2 r3 bs indep mean radius (fun _ => prec) prec sel)
    (cfg3 B r2 r3 bs indep mean radius (fun _ => prec) prec (fun _ _ _ _ => none))
    (r1 * r2 * r3) hG rfl rfl rfl rfl rfl rfl rfl data (plan3d indep r1 r2 r3 bs) hperm
    (initSt B 4) out0
  refine ⟨d.out, ?_, hd2, hd3, hd4⟩
  have r' := r rest
  simp only [Option.isSome_some] at r'
  unfold decompress3
  rw [show B.C = (cfg3 B r2 r3 bs indep mean radius (fun _ => prec) prec sel).C from rfl, r']
  simp only [Option.getD_some]
  rw [show (initSt B 4 : St T F).buf = fun _ => B.zeroT from rfl,
    show (initSt B 4 : St T F).mode = none from rfl] at hd1
  rw [hd1]

/-! ### Buffer accesses -/

theorem plan2_bounds (r1 r2 bs : Nat) (hb : 0 < bs) :
    ∀ e ∈ planC2 r1 r2 bs, match e with
      | .pt p => r2 + 2 ≤ p.buf ∧ p.buf < (bs + 1) * (r2 + 1)
      | .copy src len => src + len ≤ (bs + 1) * (r2 + 1) ∧ len ≤ src
      | .start .. => True := by
  intro e he
  rw [planC2_closed] at he
  obtain ⟨i, hi, he⟩ := List.mem_flatMap.1 he
  rcases List.mem_append.1 he with he | he
  · obtain ⟨j, hj, he⟩ := List.mem_flatMap.1 he
    unfold blk2 at he
    rcases List.mem_cons.1 he with rfl | he
    · trivial
    · obtain ⟨x, hx, he⟩ := List.mem_flatMap.1 he
      obtain ⟨y, hy, he⟩ := List.mem_flatMap.1 he
      rw [List.mem_singleton] at he
      subst he
      rw [List.mem_range, blkSize_eq] at hx hy
      have : (x + 1) * (r2 + 1) ≤ bs * (r2 + 1) := Nat.mul_le_mul_right _ (by omega)
      have h1 : 1 * (r2 + 1) ≤ (x + 1) * (r2 + 1) := Nat.mul_le_mul_right _ (by omega)
      show r2 + 2 ≤ j * bs + (x + 1) * (r2 + 1) + 1 + y ∧ _ < (bs + 1) * (r2 + 1)
      rw [Nat.add_mul bs]
      constructor
      · omega
      · simp only; omega
  · rw [List.mem_singleton] at he
    subst he
    have h1 : 1 * (r2 + 1) ≤ bs * (r2 + 1) := Nat.mul_le_mul_right _ (by omega)
    show bs * (r2 + 1) + (r2 + 1) ≤ (bs + 1) * (r2 + 1) ∧ _
    rw [Nat.add_mul bs]
    omega

theorem blk3_bounds (d1 d2 d3 bs off0 off1 base i j k n2 n3 : Nat) (h0 : off0 = n2 * off1)
    (h1 : off1 = n3)
    (hy : ∀ y < blkSize d2 bs j, ∀ z < blkSize d3 bs k, ∃ a b, base + y * off1 + z = a * off1 + b ∧
      a + 1 < n2 ∧ b + 1 < n3) :
    ∀ e ∈ blk3 d1 d2 d3 bs off0 off1 base i j k, match e with
      | .pt p => off0 + off1 + 1 ≤ p.buf ∧ p.buf < (bs + 1) * off0
      | .copy _ _ => False
      | .start _ sx sy sz => sx ≤ bs ∧ sy ≤ bs ∧ sz ≤ bs := by
  intro e he
  unfold blk3 at he
  rcases List.mem_cons.1 he with rfl | he
  · simp only [blkSize_eq]; omega
  · obtain ⟨x, hx, he⟩ := List.mem_flatMap.1 he
    obtain ⟨y, hy', he⟩ := List.mem_flatMap.1 he
    obtain ⟨z, hz', he⟩ := List.mem_flatMap.1 he
    rw [List.mem_singleton] at he
    subst he
    obtain ⟨a, b, e, ha, hb⟩ := hy y (List.mem_range.1 hy') z (List.mem_range.1 hz')
    rw [List.mem_range, blkSize_eq] at hx
    have g1 : 1 * off0 ≤ (x + 1) * off0 := Nat.mul_le_mul_right _ (by omega)
    have g2 : (x + 1) * off0 ≤ bs * off0 := Nat.mul_le_mul_right _ (by omega)
    have g3 : (a + 2) * off1 ≤ n2 * off1 := Nat.mul_le_mul_right _ (by omega)
    simp only
    rw [Nat.add_mul bs, Nat.add_mul y]
    rw [Nat.add_mul a] at g3
    constructor <;> omega

theorem plan3_bounds (d1 d2 d3 bs : Nat) (h3 : 0 < d3) (hb : 0 < bs) :
    ∀ e ∈ plan3 d1 d2 d3 bs, match e with
      | .pt p => (d2 + 1) * (d3 + 1) + (d3 + 1) + 1 ≤ p.buf ∧
          p.buf < (bs + 1) * ((d2 + 1) * (d3 + 1))
      | .copy src len => src + len ≤ (bs + 1) * ((d2 + 1) * (d3 + 1)) ∧ len ≤ src
      | .start _ sx sy sz => sx ≤ bs ∧ sy ≤ bs ∧ sz ≤ bs := by
  intro e he
  rw [plan3_closed _ _ _ _ h3 hb] at he
  obtain ⟨i, hi, he⟩ := List.mem_flatMap.1 he
  rcases List.mem_append.1 he with he | he
  · obtain ⟨j, hj, he⟩ := List.mem_flatMap.1 he
    obtain ⟨k, hk, he⟩ := List.mem_flatMap.1 he
    have := blk3_bounds d1 d2 d3 bs ((d2 + 1) * (d3 + 1)) (d3 + 1)
      (j * (bs * (d3 + 1)) + k * bs) i j k (d2 + 1) (d3 + 1) rfl rfl (by
        intro y hy z hz
        rw [blkSize_eq] at hy hz
        refine ⟨j * bs + y, k * bs + z, by rw [Nat.add_mul, Nat.mul_assoc]; omega, ?_, ?_⟩ <;>
          omega) e he
    cases e with
    | copy => exact this.elim
    | pt => exact this
    | start => exact this
  · rw [List.mem_singleton] at he
    subst he
    have h1 : 1 * ((d2 + 1) * (d3 + 1)) ≤ bs * ((d2 + 1) * (d3 + 1)) :=
      Nat.mul_le_mul_right _ (by omega)
    simp only
    rw [Nat.add_mul bs]
    omega

theorem plan3i_bounds (d1 d2 d3 bs : Nat) (h3 : 0 < d3) (hb : 0 < bs) :
    ∀ e ∈ plan3i d1 d2 d3 bs, match e with
      | .pt p => (bs + 1) * (bs + 1) + (bs + 1) + 1 ≤ p.buf ∧
          p.buf < (bs + 1) * ((bs + 1) * (bs + 1))
      | .copy _ _ => False
      | .start _ sx sy sz => sx ≤ bs ∧ sy ≤ bs ∧ sz ≤ bs := by
  intro e he
  rw [plan3i_closed _ _ _ _ h3 hb] at he
  obtain ⟨i, hi, he⟩ := List.mem_flatMap.1 he
  obtain ⟨j, hj, he⟩ := List.mem_flatMap.1 he
  obtain ⟨k, hk, he⟩ := List.mem_flatMap.1 he
  exact blk3_bounds d1 d2 d3 bs ((bs + 1) * (bs + 1)) (bs + 1) 0 i j k (bs + 1) (bs + 1) rfl rfl (by
    intro y hy z hz
    rw [blkSize_eq] at hy hz
    exact ⟨y, z, by omega, by omega, by omega⟩) e he

end CpSZ.Block
