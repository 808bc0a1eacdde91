/-
The test of package video (/repo/video/sequence_header_test.go) run on the model by the kernel, and the decoder run on the
video data in the test of package pes: checks of the model, no proofs of properties.
-/
import Verif.Text.Model
import Verif.PES.RepoTests
import Verif.Video.CausSpec
namespace Mpeg.Video.RepoTests

/-- video/sequence_header_test.go:10-12 -/
def testData : List UInt8 := [
  0x00, 0x00, 0x01, 0xb3, 0x50, 0x02, 0xd0, 0x37, 0x6d, 0xdd, 0x2f, 0x41, 0x10, 0x11, 0x11, 0x12, 0x12, 0x12, 0x13, 0x13,
  0x13, 0x13, 0x14, 0x14, 0x14, 0x14, 0x14, 0x15, 0x15, 0x15, 0x15, 0x15, 0x15, 0x16, 0x16, 0x16, 0x16, 0x16, 0x16, 0x16,
  0x17, 0x17, 0x17, 0x17, 0x17, 0x17, 0x17, 0x17, 0x18, 0x18, 0x18, 0x18, 0x18, 0x18, 0x18, 0x19, 0x19, 0x19, 0x19, 0x19,
  0x19, 0x1a, 0x1a, 0x1a, 0x1a, 0x1a, 0x1b, 0x1b, 0x1b, 0x1b, 0x1c, 0x1c, 0x1c, 0x1d, 0x1d, 0x1e]

/-- TestSequenceHeader (video/sequence_header_test.go:9-80): the fields, the matrix in the order of the test, and `io.EOF`
behind the header. -/
example : (match (readSequenceHeaderBoth ⟨bitsOfBytes testData, 0, .eof, []⟩).1 with
    | .ok (some h, e) => decide (e = some .eof) && decide (h = {
        horizontalSizeValue := 1280, verticalSizeValue := 720, aspectRatioInformation := 3, frameRateCode := 7,
        bitRateValue := 112500, vbvBufferSizeValue := 488, constrainedParametersFlag := false, loadIntra := false,
        loadNonIntra := true, intra := zeroMatrix, nonIntra := [
          16, 17, 17, 18, 18, 18, 19, 19,
          19, 19, 20, 20, 20, 20, 20, 21,
          21, 21, 21, 21, 21, 22, 22, 22,
          22, 22, 22, 22, 23, 23, 23, 23,
          23, 23, 23, 23, 24, 24, 24, 24,
          24, 24, 24, 25, 25, 25, 25, 25,
          25, 26, 26, 26, 26, 26, 27, 27,
          27, 27, 28, 28, 28, 29, 29, 30] })
    | _ => false) = true := by decide +kernel

/-- The video data of the packet of /repo/pes/data_test.go (made by an encoder, TMPGEnc): sequence header, sequence
extension, group of pictures, picture and four complete slices, closed here by an end code. -/
def encoded : List UInt8 := (PES.RepoTests.packetWithExtensionFlag.take 2010).drop 22 ++ [0, 0, 1, 0xB7]

/-- Every thirtieth sample of the first 24 lines: black in the MPEG sense is 16. -/
def corner (f : Frame) : List Nat :=
  (List.range 24).flatMap fun y => (List.range 24).map fun x => f.y.data (y * f.yStride + x * 30)

-- Run by the evaluator, not the kernel: the decoder returns a picture that begins with black lines, then the end of the
-- sequence.
#guard match Spec.outcomes 1000 2 2 (VS.new (.ofBits (bitsOfBytes encoded))) with
  | [.ok f, .err .eos] => (corner f).all (· == 16)
  | _ => false

end Mpeg.Video.RepoTests
