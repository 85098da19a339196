import Mathlib.Data.List.Induction
import Verif.Extract.Files
/-
C67: critical points written to files and read back.
-/

namespace CpSZ.Extract

variable {D : Type}

theorem append_ne (p a b : String) (h : a ≠ b) : p ++ a ≠ p ++ b := fun e => by
  have e' := congrArg String.toList e
  rw [String.toList_append, String.toList_append] at e'
  exact h (String.toList_inj.1 (List.append_cancel_left e'))

theorem read_write {α : Type} (fs : FS) (c : Codec α) (hc : 0 < c.size) (name : String)
    (xs : List α) (h : fs name = some (writeArray c xs)) : fs.read c name = some xs := by
  have hl : (writeArray c xs).length / c.size = xs.length := by
    rw [writeArray_length, Nat.mul_div_cancel _ hc]
  have hr := readArray_writeArray c xs []
  rw [List.append_nil] at hr
  unfold FS.read
  rw [h]
  show (readArray c ((writeArray c xs).length / c.size) (writeArray c xs)).bind (fun p => some p.1) = _
  rw [hl, hr]
  rfl

/-- The coordinates of point `i` in the array of all coordinates. -/
theorem flat_get (d : Nat) (cps : List (Pt D)) (hd : ∀ p ∈ cps, p.x.length = d) (i k : Nat)
    (hi : i < cps.length) (hk : k < d) :
    (cps.flatMap (·.x))[d * i + k]? = cps[i].x[k]? := by
  induction cps generalizing i with
  | nil => simp at hi
  | cons p cps ih =>
    have hp := hd p List.mem_cons_self
    rw [List.flatMap_cons]
    cases i with
    | zero =>
      rw [Nat.mul_zero, Nat.zero_add, List.getElem?_append_left (by omega)]
      rfl
    | succ i =>
      have hlt : i < cps.length := by simpa using hi
      rw [List.getElem?_append_right (by rw [hp, Nat.mul_succ]; omega)]
      have : d * (i + 1) + k - p.x.length = d * i + k := by rw [hp, Nat.mul_succ]; omega
      rw [this, ih (fun q hq => hd q (List.mem_cons_of_mem _ hq)) i hlt]
      rfl

theorem mapM_range {α : Type} (f : Nat → Option α) (xs : List α)
    (h : ∀ i (hi : i < xs.length), f i = some xs[i]) :
    (List.range xs.length).mapM f = some xs := by
  induction xs using List.reverseRecOn with
  | nil => rfl
  | append_singleton xs x ih =>
    have h1 : (List.range xs.length).mapM f = some xs := ih fun i hi => by
      rw [h i (by rw [List.length_append]; omega), List.getElem_append_left hi]
    have h2 : f xs.length = some x := by
      rw [h xs.length (by simp)]
      simp
    rw [List.length_append, List.length_singleton, List.range_succ, List.mapM_append, h1]
    simp [h2]

theorem ptAt_eq (d : Nat) (cps : List (Pt D)) (hd : ∀ p ∈ cps, p.x.length = d) (i : Nat)
    (hi : i < cps.length) :
    ptAt d (cps.flatMap (·.x)) (cps.map (·.type)) (cps.map (·.sid)) i = some cps[i] := by
  have hx : cps[i].x.length = d := hd _ (List.getElem_mem hi)
  have h1 : (List.range d).mapM (fun k => (cps.flatMap (·.x))[d * i + k]?) = some cps[i].x := by
    have := mapM_range (fun k => (cps.flatMap (·.x))[d * i + k]?) cps[i].x fun k hk => by
      rw [flat_get d cps hd i k hi (by omega), List.getElem?_eq_getElem hk]
    rwa [hx] at this
  unfold ptAt
  rw [h1, List.getElem?_map, List.getElem?_map, List.getElem?_eq_getElem hi]
  rfl

theorem insertNew_foldl (ps : List (Pt D)) (l : List (Nat × Pt D))
    (hn : ((l ++ ps.map fun p => (p.key, p)).map (·.1)).Nodup) :
    ps.foldl (fun l p => insertNew l (p.key, p)) l = l ++ ps.map fun p => (p.key, p) := by
  induction ps generalizing l with
  | nil => simp
  | cons p ps ih =>
    have h1 : insertNew l (p.key, p) = l ++ [(p.key, p)] := by
      unfold insertNew
      rw [if_neg]
      intro h
      obtain ⟨x, hx, hxe⟩ := List.any_eq_true.1 h
      have hxe : x.1 = p.key := by simpa using hxe
      rw [List.map_append, List.nodup_append] at hn
      exact hn.2.2 x.1 (List.mem_map_of_mem hx) p.key (by simp) hxe
    rw [List.foldl_cons, h1, ih]
    · simp
    · simpa using hn

/-- **C67** Points recorded with their simplex numbers and read back under the same prefix: the map
read has exactly the points recorded, each under the key of its simplex number, provided that the keys
are distinct and every point has `d` coordinates. -/
theorem C67_roundtrip (d : Nat) (cd : Codec D) (hc : 0 < cd.size) (fs : FS) (pre : String)
    (cps : List (Pt D)) (hd : ∀ p ∈ cps, p.x.length = d) (hn : (cps.map Pt.key).Nodup) :
    readPts d cd (record cd fs pre cps true) pre = some (cps.map fun p => (p.key, p)) := by
  have n1 : pre ++ "_pos.dat" ≠ pre ++ "_type.dat" := append_ne _ _ _ (by decide)
  have n2 : pre ++ "_pos.dat" ≠ pre ++ "_sid.dat" := append_ne _ _ _ (by decide)
  have n3 : pre ++ "_type.dat" ≠ pre ++ "_sid.dat" := append_ne _ _ _ (by decide)
  have r1 : (record cd fs pre cps true).read cd (pre ++ "_pos.dat") = some (cps.flatMap (·.x)) :=
    read_write _ _ hc _ _ (by simp [record, FS.write, n1, n2])
  have r2 : (record cd fs pre cps true).read (wordCodec 4) (pre ++ "_type.dat") =
      some (cps.map (·.type)) :=
    read_write _ (wordCodec 4) (by decide) _ _ (by simp [record, FS.write, n3])
  have r3 : (record cd fs pre cps true).read (wordCodec 8) (pre ++ "_sid.dat") =
      some (cps.map (·.sid)) :=
    read_write _ (wordCodec 8) (by decide) _ _ (by simp [record, FS.write])
  have r4 : (List.range (cps.map (·.sid)).length).mapM
      (ptAt d (cps.flatMap (·.x)) (cps.map (·.type)) (cps.map (·.sid))) = some cps := by
    rw [List.length_map]
    exact mapM_range _ _ fun i hi => ptAt_eq d cps hd i hi
  have r5 := insertNew_foldl cps [] (by
    rw [List.nil_append, List.map_map]
    exact hn)
  unfold readPts
  rw [r1, r2, r3]
  show ((List.range (cps.map (·.sid)).length).mapM
      (ptAt d (cps.flatMap (·.x)) (cps.map (·.type)) (cps.map (·.sid)))).bind
      (fun ps => some (ps.foldl (fun l p => insertNew l (p.key, p)) [])) = _
  rw [r4]
  exact congrArg some r5

/-- **C67** Reading the original points from files instead of computing them does not change the
counters printed: `l0` is a map as `compute_critical_points` builds it (every point under the key of
its simplex number), recorded in any order of iteration `l`. -/
theorem C67_counters {Ty : Type} [DecidableEq Ty] (ty : Pt D → Ty) (d : Nat) (cd : Codec D)
    (hc : 0 < cd.size) (fs : FS) (pre : String) (l0 l l1 : List (Nat × Pt D)) (hl : l.Perm l0)
    (hk : ∀ e ∈ l0, e.1 = e.2.key) (hd : ∀ e ∈ l0, e.2.x.length = d) (hn : (l0.map (·.1)).Nodup) :
    ∃ l2, readPts d cd (record cd fs pre (l.map (·.2)) true) pre = some l2 ∧ l2.Perm l0 ∧
      (report ty l2 l1).tp = (report ty l0 l1).tp ∧ (report ty l2 l1).fp = (report ty l0 l1).fp ∧
      (report ty l2 l1).fn = (report ty l0 l1).fn ∧ (report ty l2 l1).ft = (report ty l0 l1).ft := by
  have hk' : ∀ e ∈ l, e.1 = e.2.key := fun e he => hk e (hl.mem_iff.1 he)
  have hkeys : (l.map (·.2)).map Pt.key = l.map (·.1) := by
    rw [List.map_map]
    exact List.map_congr_left fun e he => (hk' e he).symm
  have hnl : (l.map (·.1)).Nodup := (hl.map _).nodup_iff.2 hn
  have hid : (l.map (·.2)).map (fun p => (p.key, p)) = l := by
    rw [List.map_map]
    conv_rhs => rw [← List.map_id l]
    exact List.map_congr_left fun e he => by
      show (e.2.key, e.2) = e
      rw [← hk' e he]
  refine ⟨l, ?_, hl, hl.countP_eq _, ?_, hl.countP_eq _, hl.countP_eq _⟩
  · rw [C67_roundtrip d cd hc fs pre (l.map (·.2))
      (fun p hp => by
        obtain ⟨e, he, rfl⟩ := List.mem_map.1 hp
        exact hd e (hl.mem_iff.1 he)) (by rw [hkeys]; exact hnl), hid]
  · refine List.countP_congr fun p _ => ?_
    rw [find_isNone, find_isNone]
    simp only [(hl.map (·.1)).mem_iff]

/-- The key of a simplex number is the `int` it was stored from: numbers up to `2^31` are kept, the
sign extension of a negative `int` gives back its pattern. -/
theorem C67_key (n : BitVec 32) (x : List D) (t : BitVec 32) :
    (⟨x, t, n.signExtend 64⟩ : Pt D).key = n.toNat := by
  show (n.signExtend 64).toNat % 2 ^ 32 = n.toNat
  rw [← BitVec.toNat_setWidth]
  congr 1
  ext i hi
  simp [BitVec.getLsbD_signExtend, hi]
  omega

/-- **C67** Points recorded without simplex numbers, as those of the four categories are, cannot be
read back: unless an older file is present, the pointer to the numbers is null. -/
theorem C67_without_numbers (d : Nat) (cd : Codec D) (fs : FS) (pre : String) (cps : List (Pt D))
    (h : fs (pre ++ "_sid.dat") = none) :
    readPts d cd (record cd fs pre cps false) pre = none := by
  have n2 : pre ++ "_sid.dat" ≠ pre ++ "_pos.dat" := append_ne _ _ _ (by decide)
  have n3 : pre ++ "_sid.dat" ≠ pre ++ "_type.dat" := append_ne _ _ _ (by decide)
  have r : (record cd fs pre cps false).read (wordCodec 8) (pre ++ "_sid.dat") = none := by
    unfold FS.read
    rw [show record cd fs pre cps false (pre ++ "_sid.dat") = none by
      simp [record, FS.write, n2, n3, h]]
    rfl
  unfold readPts
  rw [r]
  cases (record cd fs pre cps false).read cd (pre ++ "_pos.dat") with
  | none => rfl
  | some a =>
    cases (record cd fs pre cps false).read (wordCodec 4) (pre ++ "_type.dat") <;> rfl

theorem ends_ne (p a b : String) (h : ¬ (a.toList.reverse <+: b.toList.reverse)) : b ≠ p ++ a := by
  rintro rfl
  apply h
  rw [String.toList_append, List.reverse_append]
  exact List.prefix_append _ _

theorem record_other (cd : Codec D) (fs : FS) (pre : String) (cps : List (Pt D)) (name : String)
    (h1 : name ≠ pre ++ "_pos.dat") (h2 : name ≠ pre ++ "_type.dat") :
    record cd fs pre cps false name = fs name := by
  simp [record, FS.write, h1, h2]

/-- **C67** No run of the tools writes the file of original points they look for, whatever is extracted
and whatever prefix is given: the points are recorded under "origin_M" and looked for under
"origin_". -/
theorem C67_never_cached (cd : Codec D) (fs : FS) (pre : String) (origin m fp fn ft : List (Pt D))
    (h : cached fs = false) : cached (writes2 cd fs pre origin m fp fn ft) = false := by
  have key : ∀ (fs : FS) (q : String) (c : Bool) (cps : List (Pt D)),
      (if c then fs else record cd fs (pre ++ q) cps false) ("origin_" ++ "_sid.dat") =
        fs ("origin_" ++ "_sid.dat") := by
    intro fs q c cps
    split
    · rfl
    · exact record_other cd fs _ cps _ (ends_ne _ _ _ (by decide)) (ends_ne _ _ _ (by decide))
  have h0 : record cd fs "origin_M" origin true ("origin_" ++ "_sid.dat") =
      fs ("origin_" ++ "_sid.dat") := by
    have a1 : "origin_" ++ "_sid.dat" ≠ "origin_M" ++ "_pos.dat" := by decide
    have a2 : "origin_" ++ "_sid.dat" ≠ "origin_M" ++ "_type.dat" := by decide
    have a3 : "origin_" ++ "_sid.dat" ≠ "origin_M" ++ "_sid.dat" := by decide
    unfold record
    simp only [if_true, FS.write]
    rw [if_neg a3, if_neg a2, if_neg a1]
  unfold cached writes2 at *
  simp only [key, h0]
  exact h

/-! ### Examples -/

/-- Two points of a 2D field, the second with a simplex number above `2^31`. -/
def exPts : List (Pt (BitVec 64)) := [⟨[7, 9], 2, 40⟩, ⟨[8, 1], 5, 0xFFFFFFFF80000001⟩]

example : (∀ p ∈ exPts, p.x.length = 2) ∧ (exPts.map Pt.key).Nodup ∧ 0 < (wordCodec 8).size := by
  decide

example (fs : FS) : readPts 2 (wordCodec 8) (record (wordCodec 8) fs "a" exPts true) "a" =
    some [(40, ⟨[7, 9], 2, 40⟩), (2147483649, ⟨[8, 1], 5, 0xFFFFFFFF80000001⟩)] :=
  C67_roundtrip 2 (wordCodec 8) (by decide) fs "a" exPts (by decide) (by decide)

/-- Without the hypothesis on the keys the statement fails: two simplex numbers that differ by `2^32`
have the same key and only the first point is read. -/
example : readPts 2 (wordCodec 8) (record (wordCodec 8) (fun _ => none) "a"
    [⟨[7, 9], 2, 40⟩, ⟨[8, 1], 5, 0x100000028⟩] true) "a" = some [(40, ⟨[7, 9], 2, 40⟩)] := by
  decide +kernel

example : cached (fun _ => none) = false := rfl

example : cached (writes2 (wordCodec 8) (fun _ => none) "p" exPts [] [] exPts []) = false ∧
    (writes2 (wordCodec 8) (fun _ => none) "p" exPts [] [] exPts [] "origin_M_sid.dat").isSome ∧
    (writes2 (wordCodec 8) (fun _ => none) "p" exPts [] [] exPts [] "p_FN_pos.dat").isSome := by
  decide +kernel

end CpSZ.Extract
