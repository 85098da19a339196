import Verif.Quant
import Verif.Scan
/-
The compressors that store one bound code per vertex:

* `sz_compress_cp_preserve_2d_online_log` (src/sz_compress_cp_preserve_2d.cpp L773-979),
  decompressor src/sz_decompress_cp_preserve_2d.cpp L175-252;
* `sz_compress_cp_preserve_3d_online_log` (src/sz_compress_cp_preserve_3d.cpp L747-974),
  decompressor src/sz_decompress_cp_preserve_3d.cpp L7-110;
* `sz_compress_cp_preserve_3d_unstructured` (src/sz_compress_cp_preserve_3d.cpp L1009-1145),
  decompressor src/sz_decompress_cp_preserve_3d.cpp L120-196;
* `sz_compress_cp_preserve_3d_online_abs` (src/sz_compress_cp_preserve_3d.cpp L1305-1475),
  decompressor src/sz_decompress_cp_preserve_3d.cpp L205-280.

The four loops are copies of each other.  What differs is collected in `Mode`: number of
components, predictor, transformation of the data before prediction (logarithm or none),
the codes that announce a lossless vertex and whether such a vertex occupies entries of the
data index array.  Nested loops with running pointers are one loop over the flat index `p`;
the interleaved array of the unstructured mode is split into its components.
-/

namespace CpSZ.VMode

/-- `K` arrays.  (src/sz_compress_cp_preserve_2d.cpp L777-792;
src/sz_compress_cp_preserve_3d.cpp L747-780.) -/
abbrev Arr (T : Type) := Nat → Nat → T

/-- Assign the entries of column `p`.  (src/sz_compress_cp_preserve_2d.cpp L934-942.) -/
def setCol {T : Type} (f : Arr T) (p : Nat) (xs : List T) : Arr T :=
  fun c q => if q = p then xs.getD c (f c q) else f c q

/-- Arithmetic, constants and the points in which the four programs differ.
(src/sz_compress_cp_preserve_2d.cpp L773-979; src/sz_compress_cp_preserve_3d.cpp L747-974,
L985-1145, L1305-1475.) -/
structure Mode (T D : Type) where
  O : Ops T D
  base : Int
  logBase : D
  thr : D
  capacity : Int
  radius : Int
  /-- number of components -/
  K : Nat
  /-- prediction of entry `p` of an array -/
  pred : (Nat → T) → Nat → T
  /-- transformation of the input, `log_transform` or identity -/
  fwd : T → T
  /-- the same transformation as written in the decompressor -/
  fwdDec : T → T
  /-- reconstructed value from the previous value (for its sign) and the coded value -/
  back : T → T → T
  /-- a lossless vertex occupies `K` entries (with value `radius`) of the data index array -/
  pad : Bool
  /-- codes that the decompressor takes for a lossless vertex -/
  isEsc : Int → Bool

/-- The working arrays of the compressor: coded domain (`log_U`, …) and values
(`decompressed_U`, …).  (src/sz_compress_cp_preserve_2d.cpp L777-792.) -/
structure State (T : Type) where
  cod : Arr T
  val : Arr T

/-- What a vertex contributes to the streams.  (src/sz_compress_cp_preserve_2d.cpp L886-951.) -/
inductive VCode (T : Type) where
  | esc (id : Int) (xs : List T)
  | coded (id : Int) (qs : List Int)

/-- Decision taken before quantisation: `.lossless id` stores the vertex losslessly with
code `id`; `.try absEb id` attempts to code it with absolute bound `absEb` (in the coded
domain) and stores it losslessly with code `id` if that fails. 
(src/sz_compress_cp_preserve_2d.cpp L886-890; src/sz_compress_cp_preserve_3d.cpp L839-845.) -/
inductive Plan (D : Type) where
  | lossless (id : Int)
  | try (absEb : D) (id : Int)

variable {T D : Type}

/-- Quantisation of component `f` (src/sz_compress_cp_preserve_2d.cpp L894-923,
src/sz_compress_cp_preserve_3d.cpp L849-884): code and reconstruction. -/
def encComp (M : Mode T D) (f : Nat → T) (p : Nat) (eb : D) : Option (Int × T) :=
  let cur := f p
  let pred := M.pred f p
  let diff := M.O.toD (M.O.subT cur pred)
  match linQuant M.O.toDOps diff eb M.capacity M.radius with
  | none => none
  | some q =>
    let dec := M.O.ofD (M.O.add (M.O.toD pred) (linOffset M.O.toDOps eb M.radius q))
    if M.O.le eb (M.O.abs (M.O.toD (M.O.subT dec cur))) then none else some (q, dec)

/-- The loop over the components with `break` on failure. 
(src/sz_compress_cp_preserve_2d.cpp L894-923; src/sz_compress_cp_preserve_3d.cpp L849-884.) -/
def encComps (M : Mode T D) (cod : Arr T) (p : Nat) (eb : D) : List Nat → Option (List (Int × T))
  | [] => some []
  | c :: cs =>
    match encComp M (cod c) p eb with
    | none => none
    | some r =>
      match encComps M cod p eb cs with
      | none => none
      | some rs => some (r :: rs)

/-- The entries of column `p`.  (src/sz_compress_cp_preserve_2d.cpp L892-893.) -/
def col (K : Nat) (f : Arr T) (p : Nat) : List T := (List.range K).map (fun c => f c p)

/-- Loop body.  (src/sz_compress_cp_preserve_2d.cpp L866-953;
src/sz_compress_cp_preserve_3d.cpp L819-921.) -/
def encVertex (M : Mode T D) (plan : State T → Nat → Option (Plan D)) (s : State T) (p : Nat) :
    Option (State T × VCode T) :=
  match plan s p with
  | none => none
  | some (.lossless id) => some (s, .esc id (col M.K s.val p))
  | some (.try absEb id) =>
    let (eb, e) := ebQuant M.O.toDOps M.base M.logBase M.thr absEb
    if 0 < e then
      match encComps M s.cod p eb (List.range M.K) with
      | none => some (s, .esc id (col M.K s.val p))
      | some rs =>
        let xs := rs.map (·.2)
        some (⟨setCol s.cod p xs, setCol s.val p (List.zipWith M.back (col M.K s.val p) xs)⟩,
          .coded e (rs.map (·.1)))
    else some (s, .esc id (col M.K s.val p))

/-- `eb_quant_index` entries of a vertex (src/sz_compress_cp_preserve_2d.cpp L886-951). -/
def VCode.eb : VCode T → List Int
  | .esc id _ => [id]
  | .coded id _ => [id]

/-- `data_quant_index` entries of a vertex (src/sz_compress_cp_preserve_2d.cpp L886-951). -/
def VCode.dq (M : Mode T D) : VCode T → List Int
  | .esc _ _ => if M.pad then List.replicate M.K M.radius else []
  | .coded _ qs => qs

/-- `unpred_data` entries of a vertex (src/sz_compress_cp_preserve_2d.cpp L886-951). -/
def VCode.un : VCode T → List T
  | .esc _ xs => xs
  | .coded _ _ => []

/-- The content of the compressed stream before entropy coding
(src/sz_compress_cp_preserve_2d.cpp L964-978). -/
structure Streams (T : Type) where
  eb : List Int
  dq : List Int
  un : List T

/-- Start of the compressor: transformed data and a copy of the data.
(src/sz_compress_cp_preserve_2d.cpp L777-792.) -/
def initState (M : Mode T D) (data : Arr T) : State T := ⟨fun c q => M.fwd (data c q), data⟩

/-- All vertices in order: final working arrays and streams
(src/sz_compress_cp_preserve_2d.cpp L773-956; src/sz_compress_cp_preserve_3d.cpp L747-924). -/
def compress (M : Mode T D) (plan : State T → Nat → Option (Plan D)) (n : Nat) (data : Arr T) :
    Option (State T × Streams T) :=
  match scanEnc (encVertex M plan) n 0 (initState M data) with
  | none => none
  | some (s, ws) =>
    some (s, ⟨ws.flatMap VCode.eb, ws.flatMap (VCode.dq M), ws.flatMap VCode.un⟩)

/-- Take `k` elements; running past the end is `none`. 
(src/sz_decompress_cp_preserve_2d.cpp L208-232.) -/
def takeN {α : Type} : Nat → List α → Option (List α × List α)
  | 0, l => some ([], l)
  | _ + 1, [] => none
  | k + 1, x :: l => match takeN k l with
    | none => none
    | some (a, b) => some (x :: a, b)

/-- State of the decompressor's first pass: arrays in the coded domain and the set
`unpred_data_indices`.  (src/sz_decompress_cp_preserve_2d.cpp L198-234.) -/
structure DState (T : Type) where
  cod : Arr T
  marks : Nat → Bool

/-- Body of the first pass (src/sz_decompress_cp_preserve_2d.cpp L208-232,
src/sz_decompress_cp_preserve_3d.cpp L54-84). -/
def decVertex (M : Mode T D) (d : DState T) (p : Nat) (s : Streams T) :
    Option (DState T × Streams T) :=
  match s.eb with
  | [] => none
  | e :: ebs =>
    if M.isEsc e then
      match takeN M.K s.un with
      | none => none
      | some (xs, uns) =>
        match (if M.pad then takeN M.K s.dq else some ([], s.dq)) with
        | none => none
        | some (_, dqs) =>
          some (⟨setCol d.cod p (xs.map M.fwdDec), fun q => if q = p then true else d.marks q⟩,
            ⟨ebs, dqs, uns⟩)
    else
      match takeN M.K s.dq with
      | none => none
      | some (qs, dqs) =>
        let eb := M.O.mul (M.O.pow M.base e) M.thr
        let xs := (List.range M.K).map fun c =>
          M.O.ofD (M.O.add (M.O.toD (M.pred (d.cod c) p))
            (linOffset M.O.toDOps eb M.radius (qs.getD c 0)))
        some (⟨setCol d.cod p xs, d.marks⟩, ⟨ebs, dqs, s.un⟩)

/-- First pass over arrays with arbitrary contents `m0`. 
(src/sz_decompress_cp_preserve_2d.cpp L206-234.) -/
def decompress1 (M : Mode T D) (n : Nat) (m0 : Arr T) (s : Streams T) : Option (DState T) :=
  (scanDec (decVertex M) n 0 ⟨m0, fun _ => false⟩ s).map (·.1)

/-- Body of the second pass (src/sz_decompress_cp_preserve_2d.cpp L236-247): restore lossless
values, otherwise convert back using the sign bitmap; `fin c p x` is the conversion of one entry.
-/
def finVertex (K : Nat) (fin : Nat → Nat → T → T) (marks : Nat → Bool) (f : Arr T) (p : Nat)
    (un : List T) : Option (Arr T × List T) :=
  if marks p then
    match takeN K un with
    | none => none
    | some (xs, uns) => some (setCol f p xs, uns)
  else some (setCol f p ((List.range K).map fun c => fin c p (f c p)), un)

/-- Both passes.  (src/sz_decompress_cp_preserve_2d.cpp L175-252;
src/sz_decompress_cp_preserve_3d.cpp L7-110.) -/
def decompress (M : Mode T D) (fin : Nat → Nat → T → T) (n : Nat) (m0 : Arr T) (s : Streams T) :
    Option (Arr T) :=
  match decompress1 M n m0 s with
  | none => none
  | some d => (scanDec (finVertex M.K fin d.marks) n 0 d.cod s.un).map (·.1)

end CpSZ.VMode
