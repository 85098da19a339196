import Verif.Online2D.Lockstep
import Verif.VMode.Lockstep
import Verif.Sz3.Model
import Verif.Mesh2D
/-
Numbers that are not finite (NaN, infinities).

`NonFin` lists the rules of IEEE-754 about them that the quantisers rely on.  `Fp` is
floating-point arithmetic with NaN and infinities over an ordered field, with an arbitrary
rounding; it follows those rules.  The absolute bound of the 2D modes
(src/sz_compress_cp_preserve_2d.cpp L724-771) is written here for any arithmetic, so that it
can be evaluated on such numbers.
-/

namespace CpSZ

/-- The rules used.  `bad` are the values that are not finite, `top` the `double`s that are
NaN or `+inf`, `nn` those that are not negative (NaN included). -/
structure NonFin {T D : Type} (O : Ops T D) (bad : T → Prop) (top nn : D → Prop) : Prop where
  add_left : ∀ x y, bad x → bad (O.addT x y)
  add_right : ∀ x y, bad y → bad (O.addT x y)
  sub_left : ∀ x y, bad x → bad (O.subT x y)
  sub_right : ∀ x y, bad y → bad (O.subT x y)
  abs_top : ∀ x, bad x → top (O.abs (O.toD x))
  div_top : ∀ d e, top d → nn e → top (O.div d e)
  one_top : ∀ d, top d → top (O.add d (O.ofInt 1))
  lt_top : ∀ d c, top d → O.lt d c = false
  pow_nn : ∀ b e : Int, 0 ≤ b → nn (O.pow b e)
  mul_nn : ∀ d e, nn d → nn e → nn (O.mul d e)

/-! ### Numbers with NaN and infinities -/

/-- A floating-point number over the field `K`.  Zeros carry no sign. -/
inductive Fp (K : Type) where
  | nan
  | inf (neg : Bool)
  | fin (x : K)
  deriving DecidableEq

namespace Fp
variable {K : Type} [Field K] [LinearOrder K]

def isFin : Fp K → Bool
  | .fin _ => true
  | _ => false

def neg : Fp K → Fp K
  | .nan => .nan
  | .inf s => .inf (!s)
  | .fin x => .fin (-x)

def abs : Fp K → Fp K
  | .nan => .nan
  | .inf _ => .inf false
  | .fin x => .fin (if x < 0 then -x else x)

def add (rnd : K → Fp K) : Fp K → Fp K → Fp K
  | .nan, _ => .nan
  | _, .nan => .nan
  | .inf s, .inf t => if s = t then .inf s else .nan
  | .inf s, .fin _ => .inf s
  | .fin _, .inf t => .inf t
  | .fin x, .fin y => rnd (x + y)

def sub (rnd : K → Fp K) (a b : Fp K) : Fp K := add rnd a (neg b)

def mul (rnd : K → Fp K) : Fp K → Fp K → Fp K
  | .nan, _ => .nan
  | _, .nan => .nan
  | .inf s, .inf t => .inf (s != t)
  | .inf s, .fin y => if y = 0 then .nan else .inf (s != decide (y < 0))
  | .fin x, .inf t => if x = 0 then .nan else .inf (decide (x < 0) != t)
  | .fin x, .fin y => rnd (x * y)

/-- Division; a zero divisor counts as `+0`. -/
def div (rnd : K → Fp K) : Fp K → Fp K → Fp K
  | .nan, _ => .nan
  | _, .nan => .nan
  | .inf _, .inf _ => .nan
  | .inf s, .fin y => .inf (s != decide (y < 0))
  | .fin _, .inf _ => .fin 0
  | .fin x, .fin y =>
    if y = 0 then (if x = 0 then .nan else .inf (decide (x < 0))) else rnd (x / y)

/-- Every comparison with NaN is false. -/
def lt : Fp K → Fp K → Bool
  | .inf s, .inf t => s && !t
  | .inf s, .fin _ => s
  | .fin _, .inf t => !t
  | .fin x, .fin y => decide (x < y)
  | _, _ => false

def le : Fp K → Fp K → Bool
  | .inf s, .inf t => s || !t
  | .inf s, .fin _ => s
  | .fin _, .inf t => !t
  | .fin x, .fin y => decide (x ≤ y)
  | _, _ => false

/-- `b^e`. -/
def ipow (b e : Int) : K := if 0 ≤ e then (b : K) ^ e.toNat else ((b : K) ^ (-e).toNat)⁻¹

/-- The operations on `double`.  The conversion to `int` of a number that is not finite is
undefined in C++: `tr` is arbitrary.  So is the library function `log2`. -/
def dops (rnd : K → Fp K) (tr : Fp K → Int) (lg : Fp K → Fp K) : DOps (Fp K) where
  ofInt n := rnd n
  add := add rnd
  sub := sub rnd
  mul := mul rnd
  div := div rnd
  neg := neg
  abs := abs
  lt := lt
  le := le
  trunc := tr
  log2 := lg
  pow b e := rnd (ipow b e)

/-- Data rounded by `rT`, `double` rounded by `rD`. -/
def ops (rT rD : K → Fp K) (tr : Fp K → Int) (lg : Fp K → Fp K) : Ops (Fp K) (Fp K) where
  toDOps := dops rD tr lg
  zeroT := .fin 0
  addT := add rT
  subT := sub rT
  toD := id
  ofD
    | .fin x => rT x
    | a => a

/-- NaN or `+inf`. -/
def Top : Fp K → Prop
  | .nan => True
  | .inf s => s = false
  | .fin _ => False

/-- Not negative; NaN counts. -/
def NN : Fp K → Prop
  | .nan => True
  | .inf s => s = false
  | .fin x => 0 ≤ x

/-- NaN or infinite. -/
def Bad : Fp K → Prop
  | .fin _ => False
  | _ => True

/-- Rounding never turns a number that is not negative into one that is. -/
def RndOk (rnd : K → Fp K) : Prop := ∀ x, 0 ≤ x → NN (rnd x)

theorem bad_add (rnd : K → Fp K) (x y : Fp K) (h : Bad x ∨ Bad y) : Bad (add rnd x y) := by
  cases x with
  | nan => cases y <;> trivial
  | inf s =>
    cases y with
    | nan => trivial
    | inf t => by_cases hs : s = t <;> simp [add, hs, Bad]
    | fin y => trivial
  | fin x =>
    cases y with
    | nan => trivial
    | inf t => trivial
    | fin y => simp [Bad] at h

/-- The arithmetic with NaN and infinities follows the rules. -/
theorem nonFin [IsStrictOrderedRing K] (rT rD : K → Fp K) (tr : Fp K → Int) (lg : Fp K → Fp K)
    (hD : RndOk rD) : NonFin (ops rT rD tr lg) Bad Top NN where
  add_left x y h := bad_add _ _ _ (Or.inl h)
  add_right x y h := bad_add _ _ _ (Or.inr h)
  sub_left x y h := bad_add _ _ _ (Or.inl h)
  sub_right x y h := bad_add _ _ _ (Or.inr (by cases y <;> simp_all [neg, Bad]))
  abs_top x h := by
    cases x <;> simp_all [ops, dops, abs, Bad, Top]
  div_top d e h1 h2 := by
    cases d <;> cases e <;> simp_all [ops, dops, div, NN, Top]
  one_top d h := by
    have h1 : NN (rD ((1 : Int) : K)) := hD _ (by simp)
    cases d with
    | nan => simp [ops, dops, add, Top]
    | inf s =>
      cases h
      simp only [ops, dops]
      generalize rD ((1 : Int) : K) = z at h1
      cases z <;> simp_all [add, Top, NN]
    | fin x => exact absurd h (by simp [Top])
  lt_top d c h := by
    cases d <;> cases c <;> simp_all [ops, dops, lt, Top]
  pow_nn b e hb := by
    apply hD
    have hb' : (0 : K) ≤ (b : K) := by exact_mod_cast hb
    unfold ipow
    split
    · exact pow_nonneg hb' _
    · exact inv_nonneg.2 (pow_nonneg hb' _)
  mul_nn d e h1 h2 := by
    cases d with
    | nan => simp [ops, dops, mul, NN]
    | inf s =>
      cases e with
      | nan => simp [ops, dops, mul, NN]
      | inf t => simp_all [ops, dops, mul, NN]
      | fin y =>
        have h3 : ¬ y < 0 := not_lt.2 h2
        by_cases hy : y = 0 <;> simp_all [ops, dops, mul, NN]
    | fin x =>
      have h3 : ¬ x < 0 := not_lt.2 h1
      cases e with
      | nan => simp [ops, dops, mul, NN]
      | inf t => by_cases hx : x = 0 <;> simp_all [ops, dops, mul, NN]
      | fin y => exact hD _ (mul_nonneg h1 h2)

end Fp

/-! ### The quantisers -/

section quant
variable {T D : Type} {O : Ops T D} {bad : T → Prop} {top nn : D → Prop}

/-- A prediction error that is not finite has no code. -/
theorem linQuant_bad (hO : NonFin O bad top nn) {base : Int} (hb : 0 ≤ base) {thr : D}
    (ht : nn thr) {x : T} (hx : bad x) (e cap rad : Int) :
    linQuant O.toDOps (O.toD x) (O.mul (O.pow base e) thr) cap rad = none := by
  unfold linQuant
  have h1 := hO.lt_top _ (O.ofInt cap) (hO.one_top _ (hO.div_top _ _ (hO.abs_top x hx)
    (hO.mul_nn _ _ (hO.pow_nn base e hb) ht)))
  simp only [h1]
  rfl

end quant

/-! ### The absolute bound in any arithmetic -/

section bound
variable {D : Type}

/-- `MINF` (include/sz_def.hpp L149-152). -/
def minfG (N : DOps D) (a b : D) : D := if N.lt a b then a else b

/-- `MAX` (include/sz_def.hpp L147). -/
def maxfG (N : DOps D) (a b : D) : D := if N.lt b a then a else b

/-- `x == 0`. -/
def eq0G (N : DOps D) (x : D) : Bool := N.le x (N.ofInt 0) && N.le (N.ofInt 0) x

/-- `max_eb_to_keep_sign_2d_online_abs` (src/sz_compress_cp_preserve_2d.cpp L725-728). -/
def keepAbsG (N : DOps D) (A B C : D) : D := N.div (N.abs C) (N.add (N.abs A) (N.abs B))

/-- `derive_cp_eb_for_positions_online_abs` (src/sz_compress_cp_preserve_2d.cpp L732-771),
instantiated with `T = double`. -/
def deriveAbsG (N : DOps D) (u0 u1 u2 v0 v1 v2 : D) : D :=
  let M0 := N.sub (N.mul u2 v0) (N.mul u0 v2)
  let M1 := N.sub (N.mul u1 v2) (N.mul u2 v1)
  let M2 := N.sub (N.mul u0 v1) (N.mul u1 v0)
  let M := N.add (N.add M0 M1) M2
  if eq0G N M then N.ofInt 0
  else
    let f1 := eq0G N M0 || N.le (N.ofInt 1) (N.div M M0)
    let f2 := eq0G N M1 || N.le (N.ofInt 1) (N.div M M1)
    let f3 := eq0G N M2 || N.le (N.ofInt 1) (N.div M M2)
    if f1 && f2 && f3 then N.ofInt 0
    else
      let eb := N.ofInt 0
      let eb := if f1 then eb else maxfG N eb (minfG N
        (keepAbsG N v0 (N.neg u0) (N.sub (N.mul u2 v0) (N.mul u0 v2)))
        (keepAbsG N (N.neg v1) u1 (N.sub (N.add (N.sub (N.mul u1 v2) (N.mul u2 v1)) (N.mul u0 v1))
          (N.mul u1 v0))))
      let eb := if f2 then eb else maxfG N eb (minfG N
        (keepAbsG N (N.neg v1) u1 (N.sub (N.mul u1 v2) (N.mul u2 v1)))
        (keepAbsG N v0 (N.neg u0) (N.sub (N.add (N.sub (N.mul u2 v0) (N.mul u0 v2)) (N.mul u0 v1))
          (N.mul u1 v0))))
      let eb := if f3 then eb else maxfG N eb
        (keepAbsG N (N.sub v0 v1) (N.sub u1 u0)
          (N.sub (N.add (N.sub (N.mul u2 v0) (N.mul u0 v2)) (N.mul u1 v2)) (N.mul u2 v1)))
      eb

/-- `required_eb` of the absolute mode (src/sz_compress_cp_preserve_2d.cpp L1053-1074): 0 if a
component is zero. -/
def boundAbsG (N : DOps D) (r1 r2 : Nat) (maxEb : D) (m : Online2D.Field D) (p : Nat) : Option D :=
  if eq0G N (m.u p) || eq0G N (m.v p) then some (N.ofInt 0)
  else Mesh2D.requiredEb r1 r2 maxEb (minfG N) (fun _ => deriveAbsG N) m p

end bound

end CpSZ
