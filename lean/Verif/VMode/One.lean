import Verif.VMode.Log2D
/-
Runs on a single vertex, for counterexamples.
-/

namespace CpSZ.VMode
variable {T D : Type}

theorem compress_one {M : Mode T D} {plan : State T → Nat → Option (Plan D)} {data : Arr T} {a : D}
    {id : Int} (hp : plan (initState M data) 0 = some (.try a id)) {eb : D} {e : Int}
    (hq : ebQuant M.O.toDOps M.base M.logBase M.thr a = (eb, e)) (he : 0 < e)
    {rs : List (Int × T)}
    (hr : encComps M (initState M data).cod 0 eb (List.range M.K) = some rs) :
    compress M plan 1 data = some (⟨setCol (initState M data).cod 0 (rs.map (·.2)),
      setCol data 0 (List.zipWith M.back (col M.K data 0) (rs.map (·.2)))⟩,
      ⟨[e], rs.map (·.1), []⟩) := by
  have hv : encVertex M plan (initState M data) 0 =
      some (⟨setCol (initState M data).cod 0 (rs.map (·.2)),
        setCol data 0 (List.zipWith M.back (col M.K data 0) (rs.map (·.2)))⟩,
        .coded e (rs.map (·.1))) := by
    unfold encVertex
    rw [hp]
    simp only [hq, he, if_true, hr]
    rfl
  simp only [compress, scanEnc, hv]
  simp [VCode.eb, VCode.dq, VCode.un]

theorem decompress_one {M : Mode T D} {fin : Nat → Nat → T → T} {m0 : Arr T} {e : Int}
    {qs : List Int} (he : M.isEsc e = false) (hq : qs.length = M.K) {xs : List T}
    (hx : (List.range M.K).map (fun c => M.O.ofD (M.O.add (M.O.toD (M.pred (m0 c) 0))
      (linOffset M.O.toDOps (M.O.mul (M.O.pow M.base e) M.thr) M.radius (qs.getD c 0)))) = xs) :
    decompress M fin 1 m0 ⟨[e], qs, []⟩ = some (setCol (setCol m0 0 xs) 0
      ((List.range M.K).map fun c => fin c 0 (setCol m0 0 xs c 0))) := by
  have ht : takeN M.K qs = some (qs, []) := by
    have := takeN_append qs []
    rwa [List.append_nil, hq] at this
  have hd1 : decVertex M ⟨m0, fun _ => false⟩ 0 ⟨[e], qs, []⟩ =
      some (⟨setCol m0 0 xs, fun _ => false⟩, ⟨[], [], []⟩) := by
    unfold decVertex
    simp only [he, Bool.false_eq_true, if_false, ht, hx]
  simp only [decompress, decompress1, scanDec, hd1, Option.map_some, finVertex,
    Bool.false_eq_true, if_false]

theorem decompress_one_esc {M : Mode T D} {fin : Nat → Nat → T → T} {m0 : Arr T} {e : Int}
    {qs : List Int} (he : M.isEsc e = true) (hK : M.K ≠ 0) :
    decompress M fin 1 m0 ⟨[e], qs, []⟩ = none := by
  have ht : takeN M.K ([] : List T) = none := by
    cases h : M.K with
    | zero => exact absurd h hK
    | succ k => rfl
  have hd1 : decVertex M ⟨m0, fun _ => false⟩ 0 ⟨[e], qs, []⟩ = none := by
    unfold decVertex
    simp only [he, if_true, ht]
  simp only [decompress, decompress1, scanDec, hd1, Option.map_none]

end CpSZ.VMode
