/-
Model of the Huffman decoder calls of package video.
-/
import Verif.Video.HeaderModel
import Verif.Video.VlcTables
namespace Mpeg.Video

/-- The entries that are still possible after the bit `b`, with that bit removed. -/
def Table.next {α : Type} (t : Table α) (b : Bool) : Table α :=
  t.filterMap fun e =>
    match e.1 with
    | x :: c => if x = b then some (c, e.2) else none
    | [] => none

/-- The value of a code word that is complete. -/
def Table.hit {α : Type} (t : Table α) : Option α := (t.find? fun e => e.1.isEmpty).map (·.2)

def Table.maxLen {α : Type} (t : Table α) : Nat := t.foldr (fun e n => max e.1.length n) 0

/-- One bit at a time down the code tree. -/
def huffLoop {α : Type} : Nat → Table α → Go BR α
  | 0, _ => Go.hang
  | fuel + 1, t => do
    let b ← BR.read1
    match (t.next b).hit with
    | some v => pure v
    | none => if (t.next b).isEmpty then Go.throw .missingHuffmanValue else huffLoop fuel (t.next b)

/-- `HuffmanDecoder.Decode` (external package `github.com/32bitkid/huffman`, part of the trusted base; its source
is not in /repo): reads single bits until the bits read are a code word and returns its value, or
`ErrMissingHuffmanValue` as soon as they are not the beginning of any code word, or the error of the reader.
The type assertions around the calls (`video/macroblock_addressing.go:46-59`, `video/macroblock_type.go:8-20`,
`video/coding_block_pattern.go:113-122`, `video/dtc_coefficients.go:542-556`, `video/motion_vectors.go:196-205`)
always succeed because each table holds values of one type. -/
def huffDecode {α : Type} (t : Table α) : Go BR α := huffLoop t.maxLen t

/-- `macroblockAddressIncrementDecoder.Decode` (video/macroblock_addressing.go:46-59) -/
def addressIncrement : Go BR Nat := huffDecode addrTable
/-- `decodeCpb` (video/coding_block_pattern.go:113-122) -/
def decodeCbp : Go BR Nat := huffDecode cbpTable
/-- `decodeMotionCode` (video/motion_vectors.go:196-205) -/
def decodeMotionCode : Go BR Int := huffDecode motionTable

/-- `dctDCSizeDecoders.Luma` or `.Chroma` (video/block.go:45-50, video/dtc_coefficients.go:589-595) -/
def dcSize (cc : Nat) : Go BR Nat := huffDecode (if cc = 0 then dcLumaTable else dcChromaTable)

/-- The result of a coefficient decoder (video/dtc_coefficients.go:14): end of block or `(run, level)`. -/
inductive DctEvent where
  | eob
  | coef (run : Nat) (level : Int)
deriving DecidableEq, Repr

/-- The four coefficient tables (video/dtc_coefficients.go:66-540): `one` selects table one. -/
def dctTable (one first : Bool) : Table DctSym :=
  match one, first with
  | false, true => dct0Initial
  | false, false => dct0Rest
  | true, true => dct1Initial
  | true, false => dct1Rest

/-- What follows the code word (video/dtc_coefficients.go:31-62). -/
def dctTail : DctSym → Go BR DctEvent
  | .eob => pure .eob
  | .escape => do
    let run ← BR.read 6
    let sign ← BR.read1
    let v ← BR.read 11
    pure (.coef run ((if sign then -2048 else 0) + (v : Int)))
  | .coef run level => do
    let sign ← BR.read1
    pure (.coef run (if sign then -(level : Int) else (level : Int)))

/-- `newDCTCoefficientDecoder(..)` (video/dtc_coefficients.go:16-64); `n` is the coefficient index. -/
def dctCoefficient (one : Bool) (n : Nat) : Go BR DctEvent := do
  let sym ← huffDecode (dctTable one (n = 0))
  dctTail sym

end Mpeg.Video
