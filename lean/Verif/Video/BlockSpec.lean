/-
Specification of coded blocks (ISO/IEC 13818-2, 7.2 to 7.4), independent of the decoder model.
-/
import Verif.Video.VlcSpec
namespace Mpeg.Video.Spec
open Mpeg

/-! ### DC differentials (7.2.1) -/

/-- Number of binary digits of a magnitude. -/
def magnitudeBits (n : Nat) : Nat := if n = 0 then 0 else Nat.log2 n + 1

/-- dct_dc_size of a difference. -/
def dcSizeOf (d : Int) : Nat := magnitudeBits d.natAbs

/-- dct_dc_differential of a difference: positive differences in binary, negative ones in ones' complement. -/
def dcBits (d : Int) : List Bool :=
  bitsOf (dcSizeOf d) (if 0 ≤ d then d.natAbs else 2 ^ dcSizeOf d - 1 - d.natAbs)

/-- Tables B.12 and B.13. -/
def isoDc (cc : Nat) : List (List Bool × Nat) := if cc = 0 then isoDcLuma else isoDcChroma

/-! ### run and level (7.2.2) -/

/-- Table B.14 or B.15; `first`: the first coefficient of a non-intra block. -/
def isoCoef (one first : Bool) : List (List Bool × DctSym) :=
  if one then isoB15 else if first then isoB14First else isoB14

/-- The ways to code a run of zeros followed by a level: a table code and a sign bit, or the escape code with
six bits of run and twelve bits of two's complement level. -/
inductive EventCode (one first : Bool) (run : Nat) (level : Int) : List Bool → Prop
  | vlc (c : List Bool) (h : (c, DctSym.coef run level.natAbs) ∈ isoCoef one first) (hl : level ≠ 0) :
      EventCode one first run level (c ++ [decide (level < 0)])
  | escape (c : List Bool) (h : (c, DctSym.escape) ∈ isoCoef one first) (hr : run < 64)
      (hl : -2048 ≤ level ∧ level < 2048) :
      EventCode one first run level (c ++ bitsOf 6 run ++ bitsOf 12 (if 0 ≤ level then level.natAbs else 4096 - level.natAbs))

/-- Coded events without an end of block. -/
inductive CodedEvents (one : Bool) : Bool → List (Nat × Int) → List Bool → Prop
  | nil (first : Bool) : CodedEvents one first [] []
  | cons (first : Bool) (run : Nat) (level : Int) (evs : List (Nat × Int)) (c l : List Bool)
      (h : EventCode one first run level c) (t : CodedEvents one false evs l) :
      CodedEvents one first ((run, level) :: evs) (c ++ l)

/-- The coefficients that a list of events stands for. -/
def expand (evs : List (Nat × Int)) : List Int := evs.flatMap fun e => List.replicate e.1 0 ++ [e.2]

/-! ### inverse scan (7.3) -/

/-- Position in zigzagPos order of row `v`, column `u` (Figure 7-2): the anti-diagonals are walked in turn, upwards
when `u + v` is even; the second half mirrors the first. -/
def zigzagHalf (v u : Nat) : Nat :=
  (u + v) * (u + v + 1) / 2 + (if (u + v) % 2 = 0 then u else v)
def zigzagPos (v u : Nat) : Nat := if u + v < 8 then zigzagHalf v u else 63 - zigzagHalf (7 - v) (7 - u)

/-- The alternate scan (Figure 7-3): the raster positions `8 * v + u` in scan order. -/
def alternateOrder : List Nat :=
  [0, 8, 16, 24, 1, 9, 2, 10, 17, 25, 32, 40, 48, 56, 57, 49, 41, 33, 26, 18, 3, 11, 4, 12, 19, 27, 34, 42, 50, 58,
   35, 43, 51, 59, 20, 28, 5, 13, 6, 14, 21, 29, 36, 44, 52, 60, 37, 45, 53, 61, 22, 30, 7, 15, 23, 31, 38, 46, 54,
   62, 39, 47, 55, 63]

/-! ### inverse quantisation (7.4) -/

/-- Table 7-6. -/
def isoScale (qScaleType code : Nat) : Int :=
  if qScaleType = 0 then 2 * code
  else if code ≤ 8 then code
  else if code ≤ 16 then 8 + 2 * ((code : Int) - 8)
  else if code ≤ 24 then 24 + 4 * ((code : Int) - 16)
  else 56 + 8 * ((code : Int) - 24)

/-- 7.4.2.3: `((2 * QF + k) * W * quantiser_scale) / 32`, truncated towards zero. -/
def isoAC (intra : Bool) (qf w scale : Int) : Int :=
  Int.tdiv ((2 * qf + (if intra then 0 else Int.sign qf)) * w * scale) 32

/-- 7.4.3 -/
def isoSaturate (x : Int) : Int := max (-2048) (min 2047 x)

/-- 7.4.4 on a list of 64 coefficients in raster order. -/
def isoMismatch (f : List Int) : List Int :=
  if f.sum % 2 = 0 then
    f.set 63 (if f.getD 63 0 % 2 = 0 then f.getD 63 0 + 1 else f.getD 63 0 - 1)
  else f

/-- 7.4 for the 64 scanned coefficients `qf` in raster order, the weighting matrix `w`, the quantiser scale and
`dcMult` of Table 7-4. -/
def isoDequant (intra : Bool) (dcMult scale : Int) (w : List Nat) (qf : List Int) : List Int :=
  isoMismatch ((List.range 64).map fun i =>
    isoSaturate (if i = 0 ∧ intra = true then dcMult * qf.getD 0 0
      else isoAC intra (qf.getD i 0) ((w.getD i 0 : Nat) : Int) scale))

/-- Table 7-4: 8, 4, 2, 1. -/
def isoDcMult (precision : Nat) : Int :=
  if precision = 0 then 8 else if precision = 1 then 4 else if precision = 2 then 2 else 1

/-! ### a block (6.2.6) -/

/-- The ways to code the block with the coefficients `qf` (in scan order, trailing zeros may be missing): an intra block
of component `cc` begins with the difference of its DC coefficient to the predictor. -/
inductive BlockCode (intra : Bool) (format cc : Nat) (pred : Int) : List Int → List Bool → Prop
  | nonintra (evs : List (Nat × Int)) (bits c : List Bool) (hi : intra = false) (hev : evs ≠ [])
      (hc : CodedEvents false true evs bits) (he : (c, DctSym.eob) ∈ isoB14) (hl : (expand evs).length ≤ 64) :
      BlockCode intra format cc pred (expand evs) (bits ++ c)
  | intra (d : Int) (cd : List Bool) (evs : List (Nat × Int)) (bits c : List Bool) (hi : intra = true)
      (hd : -2 ^ 31 ≤ pred + d ∧ pred + d < 2 ^ 31) (hcd : (cd, dcSizeOf d) ∈ isoDc cc)
      (hc : CodedEvents (format == 1) false evs bits) (he : (c, DctSym.eob) ∈ isoCoef (format == 1) false)
      (hl : (expand evs).length ≤ 63) :
      BlockCode intra format cc pred ((pred + d) :: expand evs) ((cd ++ dcBits d) ++ bits ++ c)

end Mpeg.Video.Spec
