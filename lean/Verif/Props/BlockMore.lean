import Verif.Props.Block
/-
Property theorems for the block codecs, continued: C36, C37, C39, C42, C44.
-/

namespace CpSZ.Block

variable {T F D : Type}

/-! ### C36: the buffer of unpredictable values -/

/-- Number of bytes allocated for the unpredictable values by `sz_compress_2d`,
`sz_compress_3d` and `sz_compress_3d_with_eb`: `(0.05*num_elements) * sizeof(T)`, converted to
`size_t` (src/sz_compress_3d.cpp L89, L404, L536). -/
noncomputable def unpredAlloc (n size : Nat) : Nat := ⌊(5 / 100 : ℝ) * n * size⌋₊

theorem unpredAlloc_lt (n size : Nat) (hn : 0 < n) (hs : 0 < size) :
    unpredAlloc n size < n * size := by
  unfold unpredAlloc
  rw [Nat.floor_lt (by positivity)]
  have h1 : (0 : ℝ) < n := by exact_mod_cast hn
  have h2 : (0 : ℝ) < size := by exact_mod_cast hs
  push_cast
  have : (0 : ℝ) < n * size := mul_pos h1 h2
  nlinarith

/-- The claim is false for `sz_compress_2d`: for every grid, every positive precision and
every block size below the regression threshold 8 there is a field all of whose values
are unpredictable, so more bytes are stored than were allocated. -/
theorem C36_overflow_2d (r1 r2 bs size : Nat) (prec : ℝ) (h1 : 0 < r1) (h2 : 0 < r2)
    (hb : 0 < bs) (hb8 : bs < 8) (hp : 0 < prec) (hsz : 0 < size)
    (sel : Nat → Nat → Nat → Nat → Option (List ℝ))
    (hsel : ∀ o sx sy sz, min sx sy < 8 → sel o sx sy sz = none) :
    ∃ data : Nat → ℝ, (out2 realB data prec r1 r2 bs sel).un.length = r1 * r2 ∧
      unpredAlloc (r1 * r2) size < (out2 realB data prec r1 r2 bs sel).un.length * size := by
  let M : ℝ := 32768 * prec
  have hM : 0 ≤ M := by positivity
  let data : Nat → ℝ := fun p => chk M (p / r2) (p % r2)
  refine ⟨data, ?_⟩
  suffices h : (out2 realB data prec r1 r2 bs sel).un.length = r1 * r2 by
    refine ⟨h, ?_⟩
    rw [h]
    exact unpredAlloc_lt _ _ (Nat.mul_pos h1 h2) hsz
  have e : out2 realB data prec r1 r2 bs sel =
      out2 realB data prec r1 r2 bs (fun _ _ _ _ => none) := by
    refine runEnc_sel_congr _ data _ _ (fun _ _ _ _ => none) ?_
    intro o sx sy sz h
    have := planC2_starts r1 r2 bs o sx sy sz h
    exact hsel o sx sy sz (by omega)
  rw [e]
  have hG : Good (cfg2 realB r2 bs (false, 0) 16384 (fun _ => prec) false prec
      (fun _ _ _ _ => none)) (· < r1 * r2) := by
    have key : ∀ diff q, linQuant realB.O.toDOps diff prec 32768 16384 = some q →
        0 < q ∧ q < 32768 := fun diff q h =>
      linQuant_range (rT := id) (lg := Real.logb 2) IsRounding.id diff prec 16384 hp
        (by norm_num) q h
    refine ⟨?_, ?_, ?_, ?_, ?_, ?_⟩
    · intro p _ _ diff q hq
      have := key diff q hq
      refine ⟨this.1, ?_, fun h => by simp [cfg2] at h⟩
      show q < 2 * ((16384 : Nat) : Int)
      omega
    · intro p _ _ diff q hq
      have := key diff q hq
      refine ⟨this.1, ?_⟩
      show q < 2 * ((16384 : Nat) : Int)
      omega
    · show (1 : Int) < 2 * ((16384 : Nat) : Int)
      omega
    · rintro ⟨_, _, _, _, _, h⟩
      cases h
    · show (0 : Int) < 2 * 32768
      omega
    · intro _ _ _ _ _ h
      cases h
  have hperm := tiling2 r1 r2 bs h1 h2 hb
  -- every step on the checkerboard itself is unpredictable
  have hstep : ∀ (R : Nat → ℝ), (∀ p < r1 * r2, R p = data p) → ∀ p < r1 * r2,
      lorStep (cfg2 realB r2 bs (false, 0) 16384 (fun _ => prec) false prec
        (fun _ _ _ _ => none)) (lorGrid2 realB r2 R (p / r2) (p % r2)) (data p) prec =
        (0, [data p], data p) := by
    intro R hR p hpn
    have hdm : p = (p / r2) * r2 + p % r2 := by
      rw [Nat.mul_comm]; exact (Nat.div_add_mod p r2).symm
    have hlt := Nat.mod_lt p h2
    have hX : p / r2 < r1 := (Nat.div_lt_iff_lt_mul h2).2 hpn
    have hl : lorGrid2 realB r2 R (p / r2) (p % r2) =
        lorGrid2 realB r2 data (p / r2) (p % r2) := by
      generalize hXe : p / r2 = X at *
      generalize hYe : p % r2 = Y at *
      refine lorGrid2_congr realB r2 R data X Y (fun h => hR _ (by omega)) (fun h => hR _ ?_)
        (fun h h' => hR _ ?_)
      all_goals
        obtain ⟨X, rfl⟩ : ∃ k, X = k + 1 := ⟨X - 1, by omega⟩
        rw [Nat.add_sub_cancel]
        rw [Nat.add_mul] at hdm
        omega
    have hbig := chk_lor M hM r2 (p / r2) (p % r2) hlt
    have hn := linQuant_none (data p - lorGrid2 realB r2 R (p / r2) (p % r2)) prec hp 32768 16384
      (by rw [hl]; push_cast; exact hbig)
    unfold lorStep
    simp only [cfg2, Bool.false_and, Bool.false_eq_true, if_false]
    unfold quantize
    have hd : realB.O.diff (data p) (lorGrid2 realB r2 R (p / r2) (p % r2)) =
        data p - lorGrid2 realB r2 R (p / r2) (p % r2) := rfl
    rw [hd]
    have hn' : linQuant realB.O.toDOps (data p - lorGrid2 realB r2 R (p / r2) (p % r2)) prec
      (2 * ((16384 : Nat) : Int)) ((16384 : Nat) : Int) = none := hn
    rw [hn']
  obtain ⟨hrec, hall⟩ := plan_recon realB r1 r2 bs h1 h2 hb
    (cfg2 realB r2 bs (false, 0) 16384 (fun _ => prec) false prec (fun _ _ _ _ => none)) rfl rfl
    (regAt2_buf realB) (fun _ _ _ _ => rfl) data (List.replicate 3 realB.zeroF) data
  have hdata : IsRecon realB (cfg2 realB r2 bs (false, 0) 16384 (fun _ => prec) false prec
      (fun _ _ _ _ => none)) r2 (r1 * r2) data data := by
    intro p hpn
    rw [show (cfg2 realB r2 bs (false, 0) 16384 (fun _ => prec) false prec
      (fun _ _ _ _ => none)).prec p = prec from rfl, hstep data (fun _ _ => rfl) p hpn]
  have heq := isRecon_unique realB _ r2 (r1 * r2) h2 data _ _ hrec hdata
  have hrp := runEnc_recon_pos (cfg2 realB r2 bs (false, 0) 16384 (fun _ => prec) false prec
    (fun _ _ _ _ => none)) data (planC2 r1 r2 bs)
    ⟨fun _ => realB.zeroT, none, List.replicate 3 realB.zeroF⟩
  have hz : ∀ t ∈ (runEnc (cfg2 realB r2 bs (false, 0) 16384 (fun _ => prec) false prec
      (fun _ _ _ _ => none)) data (planC2 r1 r2 bs)
      ⟨fun _ => realB.zeroT, none, List.replicate 3 realB.zeroF⟩).ty, t = 0 := by
    intro t ht
    obtain ⟨i, hi, rfl⟩ := List.mem_iff_getElem.1 ht
    have hlen := hall.length_eq
    have hi' := hi
    rw [← hlen] at hi'
    have := (List.forall₂_iff_get.1 hall).2 i hi' hi
    obtain ⟨un, hu⟩ := this
    have hmem : ((runEnc (cfg2 realB r2 bs (false, 0) 16384 (fun _ => prec) false prec
      (fun _ _ _ _ => none)) data (planC2 r1 r2 bs)
      ⟨fun _ => realB.zeroT, none, List.replicate 3 realB.zeroF⟩).recon.get ⟨i, hi'⟩).1 <
        r1 * r2 := by
      have hm := List.mem_map_of_mem (f := Prod.fst) (List.get_mem _ ⟨i, hi'⟩)
      rw [hrp] at hm
      exact List.mem_range.1 (hperm.mem_iff.1 hm)
    rw [show (cfg2 realB r2 bs (false, 0) 16384 (fun _ => prec) false prec
      (fun _ _ _ _ => none)).prec _ = prec from rfl, hstep _ heq _ hmem] at hu
    injection hu with hu
    exact hu.symm
  have hc := runEnc_un_count (cfg2 realB r2 bs (false, 0) 16384 (fun _ => prec) false prec
    (fun _ _ _ _ => none)) (· < r1 * r2) hG data (planC2 r1 r2 bs)
    (fun p hp => List.mem_range.1 (hperm.mem_iff.1 hp))
    ⟨fun _ => realB.zeroT, none, List.replicate 3 realB.zeroF⟩
  show (runEnc (cfg2 realB r2 bs (false, 0) 16384 (fun _ => prec) false prec
    (fun _ _ _ _ => none)) data (planC2 r1 r2 bs)
    ⟨fun _ => realB.zeroT, none, List.replicate 3 realB.zeroF⟩).un.length = r1 * r2
  rw [hc, List.count_eq_length.2 (fun t ht => (hz t ht).symm), ← hall.length_eq,
    ← List.length_map (f := Prod.fst), hrp, hperm.length_eq, List.length_range]

/-- `data` grows so fast along `l` that no value can be predicted: each value exceeds eight
times the bound of the earlier ones. -/
def Growing (prec M : ℝ) (data : Nat → ℝ) : ℝ → List Nat → Prop
  | _, [] => True
  | b, p :: ps => 8 * (b + prec) + M ≤ data p ∧ Growing prec M data (data p) ps

theorem growing_congr (prec M : ℝ) (data data' : Nat → ℝ) (l : List Nat) (b : ℝ)
    (h : ∀ p ∈ l, data p = data' p) (hg : Growing prec M data b l) :
    Growing prec M data' b l := by
  induction l generalizing b with
  | nil => trivial
  | cons p ps ih =>
    obtain ⟨h1, h2⟩ := hg
    rw [h p (by simp)] at h1 h2
    exact ⟨h1, ih _ (fun q hq => h q (by simp [hq])) h2⟩

theorem growing_exists (prec M : ℝ) (l : List Nat) (hl : l.Nodup) (b : ℝ) :
    ∃ data, Growing prec M data b l := by
  induction l generalizing b with
  | nil => exact ⟨fun _ => 0, trivial⟩
  | cons p ps ih =>
    rw [List.nodup_cons] at hl
    obtain ⟨d, hd⟩ := ih hl.2 (8 * (b + prec) + M)
    refine ⟨upd d p (8 * (b + prec) + M), ?_⟩
    constructor
    · simp [upd]
    · have e : upd d p (8 * (b + prec) + M) p = 8 * (b + prec) + M := by simp [upd]
      rw [e]
      refine growing_congr prec M d _ ps _ ?_ hd
      intro q hq
      have : q ≠ p := fun h => hl.1 (h ▸ hq)
      simp [upd, this]

theorem growing_un (G : Cfg ℝ ℝ ℝ) (prec : ℝ) (hp : 0 < prec) (hO : G.O = realB.O)
    (hprec : ∀ p, G.prec p = prec) (hzc : G.zeroCheck = false) (C : Nat) (hc : G.capL ≤ C)
    (hlor : ∀ buf p c, (∀ q, |buf q| ≤ c) → |G.lor buf p| ≤ 7 * c)
    (data : Nat → ℝ) (es : List Ev)
    (hsel : ∀ o sx sy sz, Ev.start o sx sy sz ∈ es → G.sel o sx sy sz = none)
    (s : St ℝ ℝ) (hm : s.mode = none) (b : ℝ) (hb : 0 ≤ b) (hbuf : ∀ q, |s.buf q| ≤ b + prec)
    (hg : Growing prec (C * prec) data b (positions es)) :
    (positions es).length ≤ (runEnc G data es s).un.length + 1 ∧
    ((∀ m, G.mean = some m → m < b + prec) →
      (positions es).length ≤ (runEnc G data es s).un.length) := by
  induction es generalizing s b with
  | nil => simp [positions, runEnc, Out.nil]
  | cons e es ih =>
    cases e with
    | start o sx sy sz =>
      have hs := hsel o sx sy sz (by simp)
      have := ih (fun o sx sy sz h => hsel o sx sy sz (by simp [h])) { s with mode := none } rfl b
        hb hbuf hg
      simpa only [positions, runEnc, encEv, hs, Out.app, Out.nil, List.nil_append] using this
    | copy src len =>
      have := ih (fun o sx sy sz h => hsel o sx sy sz (by simp [h]))
        { s with buf := copyBuf s.buf src len } hm b hb
        (fun q => by simp only [copyBuf]; split <;> exact hbuf _) hg
      simpa only [positions, runEnc, encEv, Out.app, Out.nil, List.nil_append] using this
    | pt p =>
      obtain ⟨hg1, hg2⟩ := hg
      have hC : (0 : ℝ) ≤ C * prec := by positivity
      have hd0 : 0 ≤ data p.pos := by nlinarith
      -- a quantised value is unpredictable
      have hq : ∀ r, r = quantize G.O (G.lor s.buf p.buf) (data p.pos) (G.prec p.pos) G.capL
          G.radius → r = (0, data p.pos, [data p.pos]) := by
        intro r hr
        have h7 := hlor s.buf p.buf _ hbuf
        have : (G.capL : ℝ) * prec ≤ |data p.pos - G.lor s.buf p.buf| := by
          have h1 : (G.capL : ℝ) * prec ≤ C * prec :=
            mul_le_mul_of_nonneg_right (by exact_mod_cast hc) hp.le
          have h2 := le_abs_self (G.lor s.buf p.buf)
          refine h1.trans (le_trans ?_ (le_abs_self _))
          linarith
        rw [hr, hO, hprec]
        unfold quantize
        have hn := linQuant_none _ prec hp G.capL G.radius this
        rw [show realB.O.diff (data p.pos) (G.lor s.buf p.buf) =
          data p.pos - G.lor s.buf p.buf from rfl, show linQuant realB.O.toDOps _ prec G.capL
          G.radius = none from hn]
      have hnext : ∀ v, |v| ≤ data p.pos + prec →
          ∀ q, |(if G.stores s.mode then upd s.buf p.buf v else s.buf) q| ≤ data p.pos + prec := by
        intro v hv q
        have hold : |s.buf q| ≤ data p.pos + prec := (hbuf q).trans (by linarith)
        split
        · simp only [upd]; split
          · exact hv
          · exact hold
        · exact hold
      have hsel' : ∀ o sx sy sz, Ev.start o sx sy sz ∈ es → G.sel o sx sy sz = none :=
        fun o sx sy sz h => hsel o sx sy sz (by simp [h])
      rcases encPt_cases G data s p with ⟨hz, _⟩ | ⟨_, ⟨c, hmc, _⟩ | ⟨_, m, hme, hlt, h⟩ | ⟨_, h⟩⟩
      · simp [hzc] at hz
      · rw [hm] at hmc; cases hmc
      · have hlt' : |data p.pos - m| < prec := by
          rw [hO, hprec] at hlt
          simpa [realB, roundedB, roundedQ, roundedOps] using hlt
        have hab := abs_lt.1 hlt'
        have hmv : |m| ≤ data p.pos + prec := abs_le.2 ⟨by linarith, by linarith⟩
        have := ih hsel' { s with buf := if G.stores s.mode then upd s.buf p.buf m else s.buf } hm
          (data p.pos) hd0 (hnext m hmv) hg2
        simp only [positions, runEnc, encEv, h, Out.app, List.length_cons, List.nil_append]
        have h2 := this.2 (fun m' hm' => by
          rw [hme] at hm'; injection hm' with hm'; rw [← hm']; linarith)
        refine ⟨by omega, fun hlow => ?_⟩
        have := hlow m hme
        linarith
      · have hv : |data p.pos| ≤ data p.pos + prec := by rw [abs_of_nonneg hd0]; linarith
        have := ih hsel'
          { s with buf := if G.stores s.mode then upd s.buf p.buf (data p.pos) else s.buf } hm
          (data p.pos) hd0 (hnext _ hv) hg2
        rw [hq _ rfl] at h
        simp only [positions, runEnc, encEv, h, Out.app, List.length_append, List.length_cons,
          List.length_nil]
        refine ⟨by omega, fun hlow => ?_⟩
        have h2 := this.2 (fun m hm => by have := hlow m hm; linarith)
        omega

theorem lorAt3_bound (o0 o1 : Nat) (buf : Nat → ℝ) (p : Nat) (c : ℝ) (h : ∀ q, |buf q| ≤ c) :
    |lorAt3 realB o0 o1 buf p| ≤ 7 * c := by
  simp only [lorAt3, realB, roundedB, id]
  have h1 := abs_le.1 (h (p - 1))
  have h2 := abs_le.1 (h (p - o1))
  have h3 := abs_le.1 (h (p - o0))
  have h4 := abs_le.1 (h (p - o1 - 1))
  have h5 := abs_le.1 (h (p - o0 - 1))
  have h6 := abs_le.1 (h (p - o0 - o1))
  have h7 := abs_le.1 (h (p - o0 - o1 - 1))
  exact abs_le.2 ⟨by linarith, by linarith⟩

theorem plan3d_starts (indep : Bool) (r1 r2 r3 bs : Nat) (h3 : 0 < r3)
    (hb : 0 < bs) (o sx sy sz : Nat) (h : Ev.start o sx sy sz ∈ plan3d indep r1 r2 r3 bs) :
    sx ≤ bs := by
  unfold plan3d at h
  cases indep
  · exact (plan3_bounds r1 r2 r3 bs h3 hb _ h).1
  · exact (plan3i_bounds r1 r2 r3 bs h3 hb _ h).1

/-- The claim is false for `sz_compress_3d`: for every grid, every precision, every block size
below the regression threshold 4 and whatever mean and capacity (at most 131072) the interval
optimisation chooses for a field, there is a field with at most one value that is not
unpredictable. -/
theorem C36_overflow_3d (r1 r2 r3 bs size : Nat) (indep : Bool) (prec : ℝ) (h1 : 0 < r1)
    (h2 : 0 < r2) (h3 : 0 < r3) (hb : 0 < bs) (hb4 : bs < 4) (hp : 0 < prec) (hsz : 0 < size)
    (h2n : 2 ≤ r1 * r2 * r3)
    (opt : (Nat → ℝ) → Nat × (Bool × ℝ)) (hopt : ∀ d, (opt d).1 ≤ 65536)
    (sel : (Nat → ℝ) → Nat → Nat → Nat → Nat → Option (List ℝ))
    (hsel : ∀ d o sx sy sz, min sx (min sy sz) < 4 → sel d o sx sy sz = none) :
    ∃ data : Nat → ℝ,
      r1 * r2 * r3 ≤
        (out3 realB data prec r1 r2 r3 bs indep (opt data).1 (opt data).2 (sel data)).un.length + 1
      ∧ unpredAlloc (r1 * r2 * r3) size <
        (out3 realB data prec r1 r2 r3 bs indep (opt data).1 (opt data).2 (sel data)).un.length *
          size := by
  have hperm : (positions (plan3d indep r1 r2 r3 bs)).Perm (List.range (r1 * r2 * r3)) :=
    (C32_tiles_3d indep r1 r2 r3 bs h1 h2 h3 hb).1
  obtain ⟨data, hg⟩ := growing_exists prec ((131072 : Nat) * prec)
    (positions (plan3d indep r1 r2 r3 bs)) (hperm.nodup_iff.2 List.nodup_range) 0
  have key := (growing_un (cfg3 realB r2 r3 bs indep (opt data).2 (opt data).1 (fun _ => prec) prec
    (sel data)) prec hp rfl (fun _ => rfl) rfl 131072 (by
      have := hopt data
      simp only [cfg3]; split <;> push_cast <;> omega) (by
      intro buf p c hc
      simp only [cfg3]
      split <;> exact lorAt3_bound _ _ _ _ _ hc) data (plan3d indep r1 r2 r3 bs) (by
      intro o sx sy sz h
      have := plan3d_starts indep r1 r2 r3 bs h3 hb o sx sy sz h
      exact hsel data o sx sy sz (by omega)) (initSt realB 4) rfl 0 le_rfl (by
      intro q
      simp [initSt, realB, roundedB, hp.le]) hg).1
  rw [hperm.length_eq, List.length_range] at key
  refine ⟨data, key, ?_⟩
  generalize hu : (out3 realB data prec r1 r2 r3 bs indep (opt data).1 (opt data).2
    (sel data)).un.length = u
  have key : r1 * r2 * r3 ≤ u + 1 := by rw [← hu]; exact key
  generalize r1 * r2 * r3 = n at *
  unfold unpredAlloc
  rw [Nat.floor_lt (by positivity)]
  have hs0 : (0 : ℝ) < size := by exact_mod_cast hsz
  have hn2 : (2 : ℝ) ≤ n := by exact_mod_cast h2n
  have hk : (n : ℝ) ≤ u + 1 := by exact_mod_cast key
  push_cast
  nlinarith

/-- Where the buffer has room for all elements (`sz_compress_2d_with_eb`,
src/sz_compress_3d.cpp L206), it suffices for every field and arithmetic. -/
theorem C36_fits_with_eb_partial (B : BOps T F D) (data : Nat → T) (prec : Nat → D)
    (r1 r2 bs size : Nat) (h1 : 0 < r1) (h2 : 0 < r2) (hb : 0 < bs)
    (hcode : ∀ p < r1 * r2, B.isZero (prec p) = false → ∀ diff q,
      linQuant B.O.toDOps diff (prec p) 65536 32768 = some q → 0 < q ∧ q < 65536) :
    (outEb2 B data prec r1 r2 bs).un.length * size ≤ r1 * r2 * size := by
  have hG : Good (cfg2 B r2 bs (false, B.zeroT) 32768 prec true B.tenth
      (fun _ _ _ _ => none)) (· < r1 * r2) := by
    refine ⟨fun p hp hz d q h => ?_, fun p hp hz d q h => ?_, ?_, ?_, ?_, ?_⟩
    · have := hcode p hp (by simpa [cfg2] using hz) d q h
      refine ⟨this.1, ?_, fun h => by simp [cfg2] at h⟩
      show q < 2 * ((32768 : Nat) : Int)
      omega
    · have := hcode p hp (by simpa [cfg2] using hz) d q h
      refine ⟨this.1, ?_⟩
      show q < 2 * ((32768 : Nat) : Int)
      omega
    · show (1 : Int) < 2 * ((32768 : Nat) : Int)
      omega
    · rintro ⟨_, _, _, _, _, h⟩
      cases h
    · show (0 : Int) < 2 * 32768
      omega
    · intro _ _ _ _ _ h
      cases h
  have hperm := tiling2 r1 r2 bs h1 h2 hb
  have := (runEnc_codes _ _ hG data (planC2 r1 r2 bs)
    (fun p hp => List.mem_range.1 (hperm.mem_iff.1 hp)) (initSt B 3)).2.2.1
  rw [hperm.length_eq, List.length_range] at this
  exact Nat.mul_le_mul_right _ this

-- A 10 x 10 grid of floats with blocks of 6: 20 bytes are allocated, 400 are stored.
example : ∃ data : Nat → ℝ,
    (out2 realB data (1 / 1000) 10 10 6 (fun _ _ _ _ => none)).un.length = 10 * 10 :=
  let ⟨d, h, _⟩ := C36_overflow_2d 10 10 6 4 (1 / 1000) (by norm_num) (by norm_num) (by norm_num)
    (by norm_num) (by norm_num) (by norm_num) (fun _ _ _ _ => none) (fun _ _ _ _ _ => rfl)
  ⟨d, h⟩

example : ∃ data : Nat → ℝ, 8 ≤
    (out3 realB data 1 2 2 2 2 false 16 (true, 5) (fun _ _ _ _ => none)).un.length + 1 :=
  let ⟨d, h, _⟩ := C36_overflow_3d 2 2 2 2 4 false 1 (by norm_num) (by norm_num) (by norm_num)
    (by norm_num) (by norm_num) (by norm_num) (by norm_num) (by norm_num)
    (fun _ => (16, (true, 5))) (fun _ => by norm_num) (fun _ _ _ _ _ => none)
    (fun _ _ _ _ _ _ => rfl)
  ⟨d, h⟩

/-! ### C37: the cursor behind the unpredictable values -/

/-- Advancing by `skip` bytes per value ends exactly behind the values if and only if there
are none or `skip` is their size. -/
theorem C37_cursor (c : Codec T) (un : List T) (skip : Nat) (hle : skip ≤ c.size)
    (rest : List Byte) :
    (writeArray c un ++ rest).drop (un.length * skip) = rest ↔ un = [] ∨ skip = c.size := by
  constructor
  · intro h
    by_contra hne
    push Not at hne
    have hlen := congrArg List.length h
    rw [List.length_drop, List.length_append, writeArray_length] at hlen
    have hpos : 0 < un.length := List.length_pos_iff.2 hne.1
    have : un.length * skip < un.length * c.size :=
      Nat.mul_lt_mul_of_pos_left (by omega) hpos
    omega
  · rintro (rfl | rfl)
    · simp [writeArray]
    · rw [← writeArray_length, List.drop_left]

/-- The claim is false for `double`: with values of 8 bytes and a cursor that advances 4
(`sizeof(float)`, src/sz_decompress_3d.cpp L274) the stream of a field of two points with one
unpredictable value is not decoded, while the correct cursor decodes it. -/
theorem C37_double_fails :
    ∃ (data : Nat → W) (bytes : List Byte),
      compress3 satB (satFmt 4) ⟨fun _ => false, 0, 0, fun _ => 0⟩
        ⟨fun _ => false, 0, 0, fun _ => 0⟩ data 4#64 1 1 2 6 false 16 (false, 0#64)
        (fun _ _ _ _ => none) = some bytes ∧
      (∀ out0, (decompress3 satB (satFmt 4) 1 1 2 out0 bytes).isNone = true) ∧
      (∀ out0, ((decompress3 satB (satFmt 8) 1 1 2 out0 bytes).map fun o => (o 0, o 1)) =
        some (data 0, data 1)) := by
  refine ⟨fun p => if p = 0 then 0x10000000000#64 else 5#64,
    ((compress3 satB (satFmt 4) ⟨fun _ => false, 0, 0, fun _ => 0⟩
        ⟨fun _ => false, 0, 0, fun _ => 0⟩
        (fun p => if p = 0 then 0x10000000000#64 else 5#64) 4#64 1 1 2 6 false 16 (false, 0#64)
        (fun _ _ _ _ => none)).getD []), by decide +kernel, ?_, ?_⟩
  · intro out0
    have h : decodeStream (satFmt 4) satB.C satB.zeroF 32768 65536 true (1 * 1 * 2)
        (fun b => numBlk 1 b * numBlk 1 b * numBlk 2 b)
        (fun b p => regPrecs satB 4 (p.getD satB.zeroD) b)
        ((compress3 satB (satFmt 4) ⟨fun _ => false, 0, 0, fun _ => 0⟩
        ⟨fun _ => false, 0, 0, fun _ => 0⟩
        (fun p => if p = 0 then 0x10000000000#64 else 5#64) 4#64 1 1 2 6 false 16 (false, 0#64)
        (fun _ _ _ _ => none)).getD []) |>.isNone := by decide +kernel
    unfold decompress3
    rw [Option.isNone_iff_eq_none.1 h]
    rfl
  · intro out0
    have h : decodeStream (satFmt 8) satB.C satB.zeroF 32768 65536 true (1 * 1 * 2)
        (fun b => numBlk 1 b * numBlk 1 b * numBlk 2 b)
        (fun b p => regPrecs satB 4 (p.getD satB.zeroD) b)
        ((compress3 satB (satFmt 4) ⟨fun _ => false, 0, 0, fun _ => 0⟩
        ⟨fun _ => false, 0, 0, fun _ => 0⟩
        (fun p => if p = 0 then 0x10000000000#64 else 5#64) 4#64 1 1 2 6 false 16 (false, 0#64)
        (fun _ _ _ _ => none)).getD []) =
        some ⟨⟨6, some 4#64, false, 16, (false, 0#64)⟩, [false], [], [0, 0],
          [0x10000000000#64, 5#64]⟩ := by rfl
    unfold decompress3
    rw [h]
    rfl

/-- Any arithmetic, any grid, both traversals: where the cursor advances by the size of the
elements (`float`), `sz_decompress_3d` returns a field each of whose values is the input
value, or passes the comparison with the precision, or is the mean and passes the
compressor's comparison with it.  What is missing for the full claim is false, see
`C37_double_fails`. -/
theorem C37_roundtrip_partial (B : BOps T F D) (f : Fmt T F D) (hskip : f.skip = f.cT.size)
    (E1 E2 : Env) (data : Nat → T) (prec : D) (r1 r2 r3 bs : Nat) (indep : Bool) (radius : Nat)
    (mean : Bool × T) (sel : Nat → Nat → Nat → Nat → Option (List F))
    (h1 : 0 < r1) (h2 : 0 < r2) (h3 : 0 < r3) (hb : 0 < bs) (hb31 : bs < 2 ^ 31)
    (hn : r1 * r2 * r3 < 2 ^ 58) (hrad0 : 0 < radius) (hrad : radius ≤ 2 ^ 24)
    (hsel : ∀ o sx sy sz c, sel o sx sy sz = some c → c.length = 4)
    (hcode : ∀ diff q,
      linQuant B.O.toDOps diff prec (2 * radius) radius = some q → 0 < q ∧ q < 2 * radius)
    (hmean : mean.1 = true → ∀ diff q,
      linQuant B.O.toDOps diff prec (2 * radius - 2) radius = some q → 1 < q ∧ q < 2 * radius)
    (hcoef : ∀ p ∈ regPrecs B 4 prec bs, ∀ diff q,
      linQuant B.C.toDOps diff p 65536 32768 = some q → 0 < q ∧ q < 65536)
    (hd1 : (out3 B data prec r1 r2 r3 bs indep radius mean sel).coefs.length ≠ 0 →
      DepthOK E1 131072 (out3 B data prec r1 r2 r3 bs indep radius mean sel).rty)
    (hd2 : DepthOK E2 (4 * radius) (out3 B data prec r1 r2 r3 bs indep radius mean sel).ty) :
    ∃ bytes, compress3 B f E1 E2 data prec r1 r2 r3 bs indep radius mean sel = some bytes ∧
      ∀ rest out0, ∃ out, decompress3 B f r1 r2 r3 out0 (bytes ++ rest) = some out ∧
        ∀ p < r1 * r2 * r3, out p = data p ∨ B.O.le (B.O.dist (out p) (data p)) prec = true ∨
          (mean.1 = true ∧ out p = mean.2 ∧ B.O.lt (B.O.dist (data p) mean.2) prec = true) := by
  obtain ⟨bytes, e, r⟩ := three_roundtrip B f hskip E1 E2 data prec r1 r2 r3 bs indep radius mean
    sel h1 h2 h3 hb hb31 hn hrad0 hrad hsel hcode hmean hcoef hd1 hd2
  refine ⟨bytes, e, fun rest out0 => ?_⟩
  obtain ⟨out, ho, ha, -⟩ := r rest out0
  refine ⟨out, ho, fun p hp => ?_⟩
  rcases ha p hp with h | ⟨-, h | ⟨hm, h⟩⟩
  · exact Or.inl h
  · exact Or.inr (Or.inl h)
  · cases hm1 : mean.1 with
    | true =>
      simp only [cfg3, hm1, if_true, Option.some.injEq] at hm
      rw [← hm] at h
      exact Or.inr (Or.inr ⟨rfl, hm.symm, h⟩)
    | false => simp [cfg3, hm1] at hm

/-! ### C44: the codec with one precision for the whole 2D field -/

/-- Any arithmetic: `sz_decompress_2d` inverts `sz_compress_2d` up to the compressor's own
comparison with the precision, in Lorenzo and regression blocks alike and for every
selection between them. -/
theorem C44_roundtrip_2d (B : BOps T F D) (f : Fmt T F D) (hskip : f.skip = f.cT.size)
    (E1 E2 : Env) (data : Nat → T) (prec : D) (r1 r2 bs : Nat) (indep : Bool)
    (sel : Nat → Nat → Nat → Nat → Option (List F))
    (h1 : 0 < r1) (h2 : 0 < r2) (hb : 0 < bs) (hb31 : bs < 2 ^ 31) (hn : r1 * r2 < 2 ^ 58)
    (hsel : ∀ o sx sy sz c, sel o sx sy sz = some c → c.length = 3)
    (hcode : ∀ diff q,
      linQuant B.O.toDOps diff prec 32768 16384 = some q → 0 < q ∧ q < 32768)
    (hcoef : ∀ p ∈ regPrecs B 3 prec bs, ∀ diff q,
      linQuant B.C.toDOps diff p 65536 32768 = some q → 0 < q ∧ q < 65536)
    (hd1 : (out2 B data prec r1 r2 bs sel).coefs.length ≠ 0 →
      DepthOK E1 131072 (out2 B data prec r1 r2 bs sel).rty)
    (hd2 : DepthOK E2 65536 (out2 B data prec r1 r2 bs sel).ty) :
    ∃ bytes, compress2 B f E1 E2 data prec r1 r2 bs indep sel = some bytes ∧
      ∀ rest out0, ∃ out, decompress2 B f r1 r2 out0 (bytes ++ rest) = some out ∧
        ∀ p < r1 * r2, out p = data p ∨ B.O.le (B.O.dist (out p) (data p)) prec = true := by
  obtain ⟨bytes, e, r⟩ := two_roundtrip B f hskip E1 E2 data prec r1 r2 bs indep
    sel h1 h2 hb hb31 hn hsel hcode hcoef hd1 hd2
  refine ⟨bytes, e, fun rest out0 => ?_⟩
  obtain ⟨out, ho, ha, -⟩ := r rest out0
  refine ⟨out, ho, fun p hp => ?_⟩
  rcases ha p hp with h | ⟨-, h | ⟨hm, h⟩⟩
  · exact Or.inl h
  · exact Or.inr h
  · simp [cfg2] at hm

/-- Exact arithmetic, with any selection of regression blocks: every value that
`sz_decompress_2d` reconstructs is within the precision. -/
theorem C44_exact (data : Nat → ℝ) (prec : ℝ) (hp : 0 < prec) (r1 r2 bs : Nat) (h1 : 0 < r1)
    (h2 : 0 < r2) (hb : 0 < bs) (sel : Nat → Nat → Nat → Nat → Option (List ℝ))
    (hsel : ∀ o sx sy sz c, sel o sx sy sz = some c → c.length = 3) (out0 : Nat → ℝ) :
    ∃ d, runDec (cfg2 realB r2 bs (false, 0) 16384 (fun _ => prec) false prec
        (fun _ _ _ _ => none)) (planD2 r1 r2 bs)
        ⟨fun _ => 0, none, (out2 realB data prec r1 r2 bs sel).ind,
          (out2 realB data prec r1 r2 bs sel).coefs, (out2 realB data prec r1 r2 bs sel).ty,
          (out2 realB data prec r1 r2 bs sel).un, out0⟩ = some d ∧
      ∀ p < r1 * r2, |d.out p - data p| ≤ prec := by
  have key : ∀ diff q, linQuant realB.O.toDOps diff prec 32768 16384 = some q →
      0 < q ∧ q < 32768 := fun diff q h =>
    linQuant_range (rT := id) (lg := Real.logb 2) IsRounding.id diff prec 16384 hp
      (by norm_num) q h
  have hG : Good (cfg2 realB r2 bs (false, 0) 16384 (fun _ => prec) false prec sel)
      (· < r1 * r2) := by
    refine ⟨?_, ?_, ?_, ?_, ?_, ?_⟩
    · intro p _ _ diff q hq
      have := key diff q hq
      refine ⟨this.1, ?_, fun h => by simp [cfg2] at h⟩
      show q < 2 * ((16384 : Nat) : Int)
      omega
    · intro p _ _ diff q hq
      have := key diff q hq
      refine ⟨this.1, ?_⟩
      show q < 2 * ((16384 : Nat) : Int)
      omega
    · show (1 : Int) < 2 * ((16384 : Nat) : Int)
      omega
    · intro _ p hpm diff q hq
      have hbr : (0 : ℝ) < bs := by exact_mod_cast hb
      have hpp : 0 < p := by
        simp only [cfg2, regPrecs, realB, roundedB, id, List.mem_append, List.mem_replicate,
          List.mem_singleton] at hpm
        rcases hpm with ⟨-, rfl⟩ | rfl <;> positivity
      exact linQuant_range (rT := id) (lg := Real.logb 2) IsRounding.id diff p 32768 hpp
        (by norm_num) q hq
    · show (0 : Int) < 2 * 32768
      omega
    · intro o sx sy sz c h
      rw [hsel o sx sy sz c h]
      exact (regPrecs_length realB 3 (by omega) prec bs).symm
  obtain ⟨d, hd1, hd2, -⟩ := run_roundtrip
    (cfg2 realB r2 bs (false, 0) 16384 (fun _ => prec) false prec sel)
    (cfg2 realB r2 bs (false, 0) 16384 (fun _ => prec) false prec (fun _ _ _ _ => none))
    (r1 * r2) hG rfl rfl rfl rfl rfl rfl rfl data (planC2 r1 r2 bs)
    (tiling2 r1 r2 bs h1 h2 hb) (initSt realB 3) out0
  rw [C32_same_order r1 r2 bs h2 hb]
  refine ⟨d, hd1, fun p hp' => ?_⟩
  rcases hd2 p hp' with h | ⟨hz, h | ⟨hm, -⟩⟩
  · rw [h, sub_self, abs_zero]
    exact hp.le
  · simpa [cfg2, realB, roundedB, roundedQ, roundedOps] using h
  · simp [cfg2] at hm

/-! ### C39: the code of the mean -/

/-- Under rounding, for a Lorenzo block with mean `m` in use and any buffer content: code 1
means exactly that the point is replaced by the mean, code 0 that it is stored, all other
codes are at least 2 and below the capacity; and the decoder, seeing the same prediction,
returns what the encoder put into its buffer. -/
theorem C39_mean_code (rT rF rD lg : ℝ → ℝ) (hr : IsRounding rD) (d2 d3 bs : Nat) (indep : Bool)
    (m prec : ℝ) (radius : Nat) (hp : 0 < prec) (hrad : 2 * radius ≤ 2 ^ 24)
    (sel : Nat → Nat → Nat → Nat → Option (List ℝ)) (data : Nat → ℝ) (s : St ℝ ℝ)
    (hs : s.mode = none) (p : Pt) (code : Int) (un : List ℝ) (v : ℝ)
    (he : encPt (cfg3 (roundedB rT rF rD lg) d2 d3 bs indep (true, m) radius (fun _ => prec) prec
      sel) data s p = (code, un, v)) :
    (code = 1 ↔ |rT (data p.pos - m)| < prec) ∧
    (code = 1 → v = m ∧ un = []) ∧
    (code = 0 → v = data p.pos ∧ un = [data p.pos]) ∧
    (code ≠ 0 → code ≠ 1 → 2 ≤ code ∧ code < 2 * radius ∧ un = []) ∧
    ∀ rest, recoverMean (roundedQ rT rD lg) (some m)
      ((cfg3 (roundedB rT rF rD lg) d2 d3 bs indep (true, m) radius (fun _ => prec) prec
        sel).lor s.buf p.buf) prec code radius (un ++ rest) = some (v, rest) := by
  generalize hG : cfg3 (roundedB rT rF rD lg) d2 d3 bs indep (true, m) radius (fun _ => prec)
    prec sel = G at he ⊢
  have hO : G.O = roundedQ rT rD lg := by rw [← hG]; rfl
  have hM : G.mean = some m := by rw [← hG]; rfl
  have hP : G.prec p.pos = prec := by rw [← hG]; rfl
  have hC : G.capL = 2 * (radius : Int) - 2 := by rw [← hG]; rfl
  have hR : G.radius = radius := by rw [← hG]; rfl
  have hZ : G.zeroCheck = false := by rw [← hG]; rfl
  have hlt : ∀ a b : ℝ, G.O.lt (G.O.dist a b) prec = true ↔ |rT (a - b)| < prec := by
    intro a b
    rw [hO]
    simp [roundedQ, roundedOps]
  unfold encPt at he
  simp only [hZ, hP, hM, hs, Bool.false_and, Bool.false_eq_true, if_false] at he
  by_cases hm : G.O.lt (G.O.dist (data p.pos) m) prec = true
  · rw [if_pos hm] at he
    obtain ⟨rfl, rfl, rfl⟩ : 1 = code ∧ [] = un ∧ m = v := by simpa using he
    refine ⟨⟨fun _ => (hlt _ _).1 hm, fun _ => rfl⟩, fun _ => ⟨rfl, rfl⟩, fun h => by simp at h,
      fun _ h => absurd rfl h, fun rest => by simp [recoverMean]⟩
  · rw [if_neg hm] at he
    have hcodes : ∀ diff q, linQuant G.O.toDOps diff prec G.capL G.radius = some q →
        1 < q ∧ q < 2 * (radius : Int) - 1 := by
      intro diff q h
      rw [hO, hC, hR] at h
      exact linQuant_mean (rT := rT) (lg := lg) hr diff prec radius hp (by exact_mod_cast hrad) q h
    have hrec := recoverMean_quantize G.O (some m) (G.lor s.buf p.buf) (data p.pos) prec G.capL
      G.radius
    simp only [Prod.mk.injEq] at he
    obtain ⟨h1, h2, h3⟩ := he
    have hnm : ¬ |rT (data p.pos - m)| < prec := fun h => hm ((hlt _ _).2 h)
    have hfin : ∀ rest, recoverMean (roundedQ rT rD lg) (some m) (G.lor s.buf p.buf) prec code
        radius (un ++ rest) = some (v, rest) := by
      intro rest
      have := hrec rest (fun q hq => by have := hcodes _ q hq; exact ⟨by omega, fun _ => by omega⟩)
      rw [h1, h2, h3, hO, hR] at this
      exact this
    rcases quantize_value G.O (G.lor s.buf p.buf) (data p.pos) prec G.capL G.radius with
      ⟨a1, a2, a3⟩ | ⟨_, ⟨diff, a1⟩, a2⟩
    · rw [h3] at a1
      rw [h1] at a2
      rw [h2] at a3
      subst a2
      exact ⟨⟨fun h => by simp at h, fun h => absurd h hnm⟩, fun h => by simp at h,
        fun _ => ⟨a1, a3⟩, fun h => absurd rfl h, hfin⟩
    · have := hcodes diff _ a1
      rw [h1] at this
      rw [h2] at a2
      exact ⟨⟨fun h => by omega, fun h => absurd h hnm⟩, fun h => by omega, fun h => by omega,
        fun _ _ => ⟨by omega, by omega, a2⟩, hfin⟩

/-! ### C42: regression coefficients -/

/-- State of the encoder after some events. -/
def stAfter (G : Cfg T F D) (data : Nat → T) : List Ev → St T F → St T F
  | [], s => s
  | e :: es, s => stAfter G data es (encEv G data s e).2

theorem runEnc_append_coefs (G : Cfg T F D) (data : Nat → T) (a b : List Ev) (s : St T F) :
    (runEnc G data (a ++ b) s).coefs =
      (runEnc G data a s).coefs ++ (runEnc G data b (stAfter G data a s)).coefs := by
  induction a generalizing s with
  | nil => simp [runEnc, Out.nil, stAfter]
  | cons e es ih => simp [runEnc, Out.app, stAfter, ih]

/-- Any arithmetic, any sequence of blocks: the coefficients with which the compressor
predicts the points of the `k`-th regression block are the `k`-th of the coefficients that the
decompressor decodes from the bytes. -/
theorem C42_coefficients (f : Fmt T F D) (E : Env) (G : Cfg T F D) (zeroF : F)
    (hrad : 1 < 2 * G.radius) (hrr : G.regRadius = 32768) (hlen : 0 < G.regPrecs.length)
    (hsel : ∀ o sx sy sz c, G.sel o sx sy sz = some c → c.length = G.regPrecs.length)
    (hcode : ∀ p ∈ G.regPrecs, ∀ diff q,
      linQuant G.C.toDOps diff p 65536 32768 = some q → 0 < q ∧ q < 65536)
    (data : Nat → T) (es : List Ev) (s : St T F)
    (hprev : s.prev = List.replicate G.regPrecs.length zeroF)
    (hn : G.regPrecs.length * (runEnc G data es s).coefs.length < 2 ^ 60)
    (hd : (runEnc G data es s).coefs.length ≠ 0 → DepthOK E 131072 (runEnc G data es s).rty) :
    ∃ bytes, encCoefBytes f E 65536 (runEnc G data es s) = some bytes ∧ ∀ rest, ∃ cs,
      decCoefBytes f G.C zeroF 32768 65536 (runEnc G data es s).coefs.length G.regPrecs
        (bytes ++ rest) = some (cs, rest) ∧
      ∀ pre o sx sy sz post c, es = pre ++ Ev.start o sx sy sz :: post →
        (stAfter G data (pre ++ [Ev.start o sx sy sz]) s).mode = some c →
        cs[(runEnc G data pre s).coefs.length]? = some c := by
  have hG : Good G (fun _ => False) :=
    ⟨fun _ h => h.elim, fun _ h => h.elim, hrad, fun _ => by rw [hrr]; exact hcode,
      by rw [hrr]; norm_num, hsel⟩
  have hrt := coefs_roundtrip G _ hG data es s (by rw [hprev]; simp)
  obtain ⟨c1, c2, c3, c4⟩ := hrt
  obtain ⟨b, e, r⟩ := coef_bytes f G.C zeroF 32768 65536 E (by norm_num) (runEnc G data es s)
    G.regPrecs hlen c2 (fun t ht => by have := c3 t ht; rw [hrr] at this; push_cast; omega) c4 hn hd
    (by rw [← hprev, ← hrr]; exact c1)
  refine ⟨b, e, fun rest => ⟨_, r rest, ?_⟩⟩
  intro pre o sx sy sz post c hes hm
  rw [hes, runEnc_append_coefs]
  rw [List.getElem?_append_right (le_refl _), Nat.sub_self]
  have hst : ∀ (a : List Ev) (s : St T F), stAfter G data (a ++ [Ev.start o sx sy sz]) s =
      (encEv G data (stAfter G data a s) (Ev.start o sx sy sz)).2 := by
    intro a
    induction a with
    | nil => intro s; rfl
    | cons e es ih => intro s; exact ih _
  rw [hst] at hm
  cases hs : G.sel o sx sy sz with
  | none => simp [encEv, hs] at hm
  | some c' =>
    simp only [encEv, hs, Option.some.injEq] at hm
    simp [runEnc, encEv, hs, Out.app, hm]

/-! ### Instances -/

/-- A field of eight points with values near 40, a steep part and one outlier. -/
def exData3 : Nat → W := fun p => if p = 7 then 0x10000000000#64 else BitVec.ofNat 64 (40 + p * p)

/-- Regression in the blocks that start at an even offset. -/
def exSel (n : Nat) : Nat → Nat → Nat → Nat → Option (List W) :=
  fun o _ _ _ => if o % 2 = 0 then some (List.replicate n 24#64) else none

theorem satB_codes (cap R : Int) (c : Int) (hc : cap = 2 * c) (hR : R ≤ 2 ^ 24) (hcR : c ≤ R)
    (diff : W) (q : Int) (h : linQuant satB.O.toDOps diff 4#64 cap R = some q) :
    R - c < q ∧ q < R + c := by
  subst hc
  exact satQ_codes 4#64 (by decide) R hR c hcR diff q h

-- All three kinds of codes and both kinds of blocks occur.
example : (out3 satB exData3 4#64 2 2 2 1 false 16 (true, 40#64) (exSel 4)).ind =
      [true, false, true, false, true, false, true, false] ∧
    (out3 satB exData3 4#64 2 2 2 1 false 16 (true, 40#64) (exSel 4)).ty =
      [18, 1, 19, 16, 20, 17, 23, 0] := by decide +kernel

example (E1 E2 : Env) : ∃ bytes, compress3 satB (satFmt 8) E1 E2 exData3 4#64 2 2 2 1 false 16
      (true, 40#64) (exSel 4) = some bytes ∧
    ∀ rest out0, ∃ out, decompress3 satB (satFmt 8) 2 2 2 out0 (bytes ++ rest) = some out ∧
      ∀ p < 2 * 2 * 2, out p = exData3 p ∨
        satB.O.le (satB.O.dist (out p) (exData3 p)) 4#64 = true ∨
        (true = true ∧ out p = 40#64 ∧ satB.O.lt (satB.O.dist (exData3 p) 40#64) 4#64 = true) := by
  refine C37_roundtrip_partial satB (satFmt 8) rfl E1 E2 exData3 4#64 2 2 2 1 false 16
    (true, 40#64) (exSel 4) (by decide) (by decide) (by decide) (by decide) (by decide) (by decide)
    (by decide) (by decide) ?_ ?_ ?_ ?_ ?_ ?_
  · intro o sx sy sz c h
    unfold exSel at h
    split at h
    · injection h with h; rw [← h]; simp
    · cases h
  · intro diff q h
    have := satB_codes _ _ 16 (by norm_num) (by norm_num) (by norm_num) diff q h
    push_cast
    omega
  · intro _ diff q h
    have := satB_codes _ _ 15 (by norm_num) (by norm_num) (by norm_num) diff q h
    push_cast
    omega
  · intro p hp diff q h
    have : p = 4#64 := by simpa [regPrecs, satB] using hp
    subst this
    have := satQ_codes 4#64 (by decide) 32768 (by norm_num) 32768 (by norm_num) diff q h
    omega
  · intro _
    exact depthOK_of_short E1 _ _ (by decide +kernel) (by decide +kernel) (by norm_num)
      (by decide +kernel)
  · exact depthOK_of_short E2 _ _ (by decide +kernel) (by decide +kernel) (by norm_num)
      (by decide +kernel)

example (E1 E2 : Env) : ∃ bytes, compress2 satB (satFmt 8) E1 E2 exData3 4#64 2 4 1 false
      (exSel 3) = some bytes ∧
    ∀ rest out0, ∃ out, decompress2 satB (satFmt 8) 2 4 out0 (bytes ++ rest) = some out ∧
      ∀ p < 2 * 4, out p = exData3 p ∨
        satB.O.le (satB.O.dist (out p) (exData3 p)) 4#64 = true := by
  refine C44_roundtrip_2d satB (satFmt 8) rfl E1 E2 exData3 4#64 2 4 1 false
    (exSel 3) (by decide) (by decide) (by decide) (by decide) (by decide) ?_ ?_ ?_ ?_ ?_
  · intro o sx sy sz c h
    unfold exSel at h
    split at h
    · injection h with h; rw [← h]; simp
    · cases h
  · intro diff q h
    have := satB_codes _ _ 16384 (by norm_num) (by norm_num) (by norm_num) diff q h
    omega
  · intro p hp diff q h
    have : p = 4#64 := by simpa [regPrecs, satB] using hp
    subst this
    have := satQ_codes 4#64 (by decide) 32768 (by norm_num) 32768 (by norm_num) diff q h
    omega
  · intro _
    exact depthOK_of_short E1 _ _ (by decide +kernel) (by decide +kernel) (by norm_num)
      (by decide +kernel)
  · exact depthOK_of_short E2 _ _ (by decide +kernel) (by decide +kernel) (by norm_num)
      (by decide +kernel)

-- The hypotheses of `C42_coefficients` for the same run.
example (E : Env) : ∃ bytes,
    encCoefBytes (satFmt 8) E 65536 (out3 satB exData3 4#64 2 2 2 1 false 16 (true, 40#64)
      (exSel 4)) = some bytes :=
  let ⟨b, h, _⟩ := C42_coefficients (satFmt 8) E (cfg3 satB 2 2 1 false (true, 40#64) 16
    (fun _ => 4#64) 4#64 (exSel 4)) 0#64 (by decide) rfl (by decide) (by
      intro o sx sy sz c h
      simp only [cfg3, exSel] at h
      split at h
      · injection h with h; rw [← h]; rfl
      · cases h) (by
      intro p hp diff q h
      have : p = 4#64 := by simpa [cfg3, regPrecs, satB] using hp
      subst this
      have := satQ_codes 4#64 (by decide) 32768 (by norm_num) 32768 (by norm_num) diff q h
      omega) exData3 (plan3d false 2 2 2 1) (initSt satB 4) rfl (by decide +kernel) (fun _ =>
      depthOK_of_short E _ _ (by decide +kernel) (by decide +kernel) (by norm_num)
      (by decide +kernel))
  ⟨b, h⟩

-- A point replaced by the mean, and the conclusion about it.
example : (1 : Int) = 1 ↔ |((fun _ => 1 / 2 : Nat → ℝ) 0 - 0)| < 1 :=
  (C39_mean_code id id id (Real.logb 2) IsRounding.id 1 1 1 false 0 1 16 one_pos (by norm_num)
    (fun _ _ _ _ => none) (fun _ => 1 / 2) ⟨fun _ => 0, none, []⟩ rfl ⟨0, 0, 0, 0, 0⟩ 1 [] 0 (by
      simp [encPt, cfg3, roundedB, roundedQ, roundedOps]
      norm_num [abs_of_pos])).1

end CpSZ.Block
