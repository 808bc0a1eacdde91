/-
Specification of macroblock level syntax: address increments, motion vectors (ISO 13818-2 7.6.3), block patterns.
-/
import Verif.Video.VlcSpec
namespace Mpeg.Video.Spec

/-- `k` escape codes. -/
def escapes : Nat → List Bool
  | 0 => []
  | k + 1 => addressEscape ++ escapes k

/-- ISO 13818-2 7.6.3.1: `f = 1 << r_size`. -/
def mvScale (fCode : Nat) : Nat := 2 ^ (fCode - 1)

/-- The legal range of a vector component: `[low : high]`. -/
def mvLegal (fCode : Nat) (v : Int) : Prop := -16 * (mvScale fCode : Int) ≤ v ∧ v ≤ 16 * (mvScale fCode : Int) - 1

/-- The difference that is coded for prediction `p` and vector `v`: the representative of `v - p` modulo `32 f`. -/
def mvDifference (fCode : Nat) (p v : Int) : Int :=
  let f : Int := mvScale fCode
  if v - p < -16 * f then v - p + 32 * f else if v - p > 16 * f - 1 then v - p - 32 * f else v - p

/-- `motion_code` and `motion_residual` of a difference. -/
def mvCode (fCode : Nat) (d : Int) : Int :=
  if d = 0 then 0 else d.sign * (((d.natAbs - 1) / mvScale fCode + 1 : Nat) : Int)
def mvResidual (fCode : Nat) (d : Int) : Nat := if d = 0 then 0 else (d.natAbs - 1) % mvScale fCode

/-- The bits of one vector component: the code word of Table B.10 and, unless `f` is 1 or the code is 0, the residual
in `r_size` bits. -/
inductive MvBits (fCode : Nat) (d : Int) : List Bool → Prop
  | mk (c : List Bool) (h : (c, mvCode fCode d) ∈ isoMotion) :
      MvBits fCode d (c ++ if fCode ≠ 1 ∧ d ≠ 0 then bitsOf (fCode - 1) (mvResidual fCode d) else [])

/-- Block `i` (0..5) of a macroblock has coefficients: `cbp & (1 << (5 - i))`, ISO 13818-2 6.3.17.4. -/
def codedBlock (cbp i : Nat) : Bool := (cbp >>> (5 - i)) &&& 1 == 1

end Mpeg.Video.Spec
