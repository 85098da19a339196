import Verif.Block.Codec
/-
A computable arithmetic (64-bit integers with saturation) for concrete examples of the
theorems about block codecs.
-/

namespace CpSZ.Block

abbrev W := BitVec 64

/-- Clamp to the interval `[-2^62, 2^62]`. -/
def sat (x : Int) : W := BitVec.ofInt 64 (max (-2 ^ 62) (min (2 ^ 62) x))

theorem sat_toInt (x : Int) : (sat x).toInt = max (-2 ^ 62) (min (2 ^ 62) x) := by
  unfold sat
  rw [BitVec.toInt_ofInt]
  apply Int.bmod_eq_of_le <;> omega

/-- Saturating integers in the roles of `T`, `float` and `double`. -/
def satQ : QOps W W W where
  ofInt := sat
  add a b := sat (a.toInt + b.toInt)
  sub a b := sat (a.toInt - b.toInt)
  mul a b := sat (a.toInt * b.toInt)
  div a b := sat (a.toInt.tdiv b.toInt)
  neg a := sat (-a.toInt)
  abs a := sat |a.toInt|
  lt a b := decide (a.toInt < b.toInt)
  le a b := decide (a.toInt ≤ b.toInt)
  trunc a := a.toInt
  log2 a := a
  pow b n := sat (b ^ n.toNat)
  diff a b := sat (a.toInt - b.toInt)
  addTo a b := sat (a.toInt + b.toInt)
  dist a b := sat |a.toInt - b.toInt|

theorem satQ_codes (p : W) (hp : 0 < p.toInt) (R : Int) (hR : R ≤ 2 ^ 24) (c : Int)
    (hcR : c ≤ R) (diff : W) (q : Int)
    (h : linQuant satQ.toDOps diff p (2 * c) R = some q) : R - c < q ∧ q < R + c := by
  unfold linQuant at h
  simp only [satQ, sat_toInt, decide_eq_true_eq] at h
  generalize hx : diff.toInt = x at h
  generalize p.toInt = y at h hp
  split at h
  · rename_i hlt
    have hax : (0 : Int) ≤ |x| := abs_nonneg x
    have hd : 0 ≤ (max (-2 ^ 62) (min (2 ^ 62) |x|) : Int).tdiv y :=
      Int.tdiv_nonneg (by omega) (by omega)
    generalize (max (-2 ^ 62) (min (2 ^ 62) |x|) : Int).tdiv y = z at *
    simp only [Option.some.injEq] at h
    split at h
    · simp only [sat_toInt] at h
      rw [show (max (-2 ^ 62) (min (2 ^ 62) 2) : Int) = 2 by omega,
        Int.tdiv_eq_ediv_of_nonneg (by omega)] at h
      omega
    · simp only [sat_toInt] at h
      rw [show (max (-2 ^ 62) (min (2 ^ 62) 2) : Int) = 2 by omega] at h
      have e : (max (-2 ^ 62) (min (2 ^ 62) (-(max (-2 ^ 62) (min (2 ^ 62) (max (-2 ^ 62)
        (min (2 ^ 62) z) + max (-2 ^ 62) (min (2 ^ 62) 1)))))) : Int) =
        -(max (-2 ^ 62) (min (2 ^ 62) (max (-2 ^ 62)
        (min (2 ^ 62) z) + max (-2 ^ 62) (min (2 ^ 62) 1)))) := by omega
      rw [e, Int.neg_tdiv, Int.tdiv_eq_ediv_of_nonneg (by omega)] at h
      omega
  · cases h

/-- Saturating block arithmetic. -/
def satB : BOps W W W where
  O := satQ
  C := satQ
  isZero p := p == 0#64
  zeroT := 0#64
  zeroF := 0#64
  zeroD := 0#64
  tenth := 1#64
  lor2 a b c := a + b - c
  lor3 a b c d e f g := a + b + c - d - e - f + g
  reg2 a b c x y := a * BitVec.ofNat 64 x + b * BitVec.ofNat 64 y + c
  reg3 a b c d x y z := a * BitVec.ofNat 64 x + b * BitVec.ofNat 64 y + c * BitVec.ofNat 64 z + d
  regPrec _ p := p
  divB p _ := p

/-- `struct meanInfo<W>`: a flag and a value. -/
def boolCodec : Codec (Bool × W) where
  size := 9
  enc a := (if a.1 then 1#8 else 0#8) :: (wordCodec 8).enc a.2
  dec bs := match bs with
    | [] => (false, 0#64)
    | b :: bs => (b == 1#8, (wordCodec 8).dec bs)
  enc_length a := by simp [(wordCodec 8).enc_length]; rfl
  dec_enc a := by
    obtain ⟨b, w⟩ := a
    cases b <;> simp [(wordCodec 8).dec_enc]

/-- Eight-byte elements; the decompressor skips `skip` bytes per element. -/
def satFmt (skip : Nat) : Fmt W W W := ⟨wordCodec 8, wordCodec 8, wordCodec 8, boolCodec, skip⟩

theorem depthOK_of_short (E : Env) (stateNum : Nat) (l : List Int) (h1 : l ≠ [])
    (h2 : l.length ≤ 65) (h3 : stateNum ≤ 2 ^ 26) (h4 : ∀ x ∈ l, 0 ≤ x ∧ x < stateNum) :
    DepthOK E stateNum l := (fits_of_short E stateNum l h1 h2 h3 h4).2.2.2.2

end CpSZ.Block
