/-
Model of the `String` methods and of the exported header functions that return a header together with an error.

A Go string is a list of characters (all of them are ASCII here).  The verbs of `fmt.Sprintf` that occur are `%d`, `%02d`,
`%x`, `%02x`, `%1x`, `%s` and `%v`; their behaviour on non-negative numbers is part of the trusted base.
-/
import Verif.TS.Model
import Verif.Video.HeaderModel
namespace Mpeg

/-- `%d` and `%v` of a non-negative number -/
def fmtDec (n : Nat) : List Char := Nat.toDigits 10 n
/-- `%x` and `%1x` (a number always has one digit at least) -/
def fmtHex (n : Nat) : List Char := Nat.toDigits 16 n
/-- zeros on the left up to width two -/
def pad2 (l : List Char) : List Char := List.replicate (2 - l.length) '0' ++ l

namespace TS

/-- `Packet.String` (ts/packet.go:174-176) -/
def Packet.text (p : Packet) : List Char :=
  "{ PID: 0x".toList ++ (pad2 (fmtHex p.pid) ++ (", Counter: ".toList ++ (fmtHex p.continuityCounter ++ " }".toList)))

end TS

namespace Video

/-- `ChromaFormat.String` (video/chroma_format.go:47-57) -/
def chromaText (cf : Nat) : List Char :=
  if cf = 1 then "4:2:0".toList
  else if cf = 2 then "4:2:2".toList
  else if cf = 3 then "4:4:4".toList
  else "[Invalid]".toList

/-- `PictureCodingType.String` (video/picture_coding_type.go:65-77) -/
def codingTypeText (pct : Nat) : List Char :=
  if pct = 1 then "I".toList
  else if pct = 2 then "P".toList
  else if pct = 3 then "B".toList
  else if pct = 4 then "D".toList
  else fmtDec pct ++ "?".toList

/-- `TimeCode.String` (video/group_of_pictures_header.go:72-78) -/
def TimeCode.text (tc : TimeCode) : List Char :=
  fmtDec tc.hours ++ (":".toList ++ (pad2 (fmtDec tc.minutes) ++ (":".toList ++ (pad2 (fmtDec tc.seconds) ++
    ((if tc.dropFrame then ";".toList else ":".toList) ++ pad2 (fmtDec tc.pictures))))))

/-- `PictureHeader.String` (video/picture_header.go:18-20) -/
def PictureHeader.text (ph : PictureHeader) : List Char :=
  "[".toList ++ (codingTypeText ph.pictureCodingType ++ (fmtDec ph.temporalReference ++ "]".toList))

/-! ### both results of ReadSequenceHeader and ReadGOPHeader -/

/-- `return &h, next_start_code(br)`: the header or nil, and the error or nil.  A panic or an endless loop remains one. -/
def withNext {α : Type} (fields : Go BR α) : Go BR (Option α × Option Err) := fun s =>
  match fields s with
  | (.ok h, s') => match nextStartCode s' with
    | (.ok _, s'') => (.ok (some h, none), s'')
    | (.err e, s'') => (.ok (some h, some e), s'')
    | (.panic, s'') => (.panic, s'')
    | (.hang, s'') => (.hang, s'')
  | (.err e, s') => (.ok (none, some e), s')
  | (.panic, s') => (.panic, s')
  | (.hang, s') => (.hang, s')

/-- `ReadSequenceHeader` before its last line (video/sequence_header.go:27-99) -/
def sequenceHeaderFields : Go BR SequenceHeader := do
  startCode sequenceHeaderStartCode
  let horizontalSizeValue ← BR.read 12
  let verticalSizeValue ← BR.read 12
  let aspectRatioInformation ← BR.read 4
  let frameRateCode ← BR.read 4
  let bitRateValue ← BR.read 18
  markerBit
  let vbvBufferSizeValue ← BR.read 10
  let constrainedParametersFlag ← BR.read1
  let loadIntra ← BR.read1
  let intra ← Go.opt loadIntra zeroMatrix readMatrix
  let loadNonIntra ← BR.read1
  let nonIntra ← Go.opt loadNonIntra zeroMatrix readMatrix
  pure { horizontalSizeValue, verticalSizeValue, aspectRatioInformation, frameRateCode, bitRateValue,
         vbvBufferSizeValue, constrainedParametersFlag, loadIntra, loadNonIntra, intra, nonIntra }

/-- `ReadSequenceHeader` (video/sequence_header.go:25-101), both results -/
def readSequenceHeaderBoth : Go BR (Option SequenceHeader × Option Err) := withNext sequenceHeaderFields

/-- `ReadGOPHeader` before its last line (video/group_of_pictures_header.go:14-37) -/
def gopHeaderFields : Go BR GOPHeader := do
  startCode groupStartCode
  let timeCode ← BR.read 25
  let closedGOP ← BR.read1
  let brokenLink ← BR.read1
  pure { timeCode, closedGOP, brokenLink }

/-- `ReadGOPHeader` (video/group_of_pictures_header.go:13-39), both results -/
def readGOPHeaderBoth : Go BR (Option GOPHeader × Option Err) := withNext gopHeaderFields

end Video
end Mpeg
