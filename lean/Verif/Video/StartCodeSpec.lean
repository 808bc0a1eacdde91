/-
Elements of a video stream as the standard allows them: headers, extensions and slices without the values that are forbidden because
they could imitate start codes (ISO/IEC 13818-2, 6.3).
-/
import Verif.Video.CleanSpec
import Verif.Video.ExtSpec
namespace Mpeg.Video.Spec

/-- Nowhere 23 zero bits in a row (6.3.4.1, of user data). -/
def NoRun (w : List Bool) : Prop := ∀ x y, w ≠ x ++ (zeros 23 ++ y)

/-- An entry of a transmitted matrix is not 0 (6.3.11). -/
def MatNZ (m : Option Mat) : Prop := ∀ x ∈ m, ∀ v ∈ x, v ≠ 0 ∧ v < 256

/-- `f_code` of a picture header is not 0 (6.3.9). -/
def PicKind.NZ : PicKind → Prop
  | .other c => c ≠ 0
  | .p _ f => f ≠ 0
  | .b _ f _ g => f ≠ 0 ∧ g ≠ 0

/-- An element of a stream with the value of its start code (the fourth byte). -/
inductive CleanElement : Nat → List Bool → Prop
  /-- a slice of any picture -/
  | slice (e : PicEnv) (hu : CodesUsed e) (n : Nat) (l : List Bool) (h : CleanSlice e l) (hn : n < 256)
      (hc : l.take 32 = bitsOf 32 (0x100 + n)) : CleanElement n l
  /-- picture header; picture_coding_type 000 is forbidden -/
  | picture (h : Pic) (hw : h.WF) (hk : h.kind.NZ) : CleanElement 0 (encPic h)
  /-- picture coding extension; picture_structure 00 is reserved -/
  | pictureExt (h : PicExt) (hw : h.WF) (hs : h.structure_ ≠ 0) : CleanElement 0xB5 (encPicExt h)
  /-- group of pictures header with its marker bit -/
  | gop (h : GOP) (hw : h.WF) (hm : h.marker = true) : CleanElement 0xB8 (encGOP h)
  /-- sequence header; sizes and frame_rate_code 0 are forbidden -/
  | seq (h : Seq) (hw : h.WF) (h1 : h.width ≠ 0) (h2 : h.height ≠ 0) (h3 : h.rate ≠ 0) (h4 : MatNZ h.intra) (h5 : MatNZ h.nonIntra) :
      CleanElement 0xB3 (encSeq h)
  /-- sequence extension; chroma_format 00 is reserved -/
  | seqExt (h : SeqExt) (hw : h.WF) (hc : h.chroma ≠ 0) (hm : h.marker = true) : CleanElement 0xB5 (encSeqExt h)
  /-- sequence display extension; 0 is forbidden for the three descriptions of colour -/
  | display (h : SeqDisp) (hw : h.WF) (hc : ∀ c ∈ h.colour, c.1 ≠ 0 ∧ c.2.1 ≠ 0 ∧ c.2.2 ≠ 0) :
      CleanElement 0xB5 (bitsOf 32 0x1B5 ++ encSeqDisp h)
  /-- quant matrix extension -/
  | quant (h : QExt) (hw : h.WF) (h1 : MatNZ h.intra) (h2 : MatNZ h.nonIntra) (h3 : MatNZ h.chromaIntra) (h4 : MatNZ h.chromaNonIntra) :
      CleanElement 0xB5 (bitsOf 32 0x1B5 ++ encQExt h)
  /-- picture temporal scalable extension -/
  | temporal (h : TempExt) (hw : h.WF) : CleanElement 0xB5 (bitsOf 32 0x1B5 ++ encTemp h)
  /-- user data, sequence end code, other extensions and reserved elements: anything without 23 zeros in a row behind the prefix -/
  | other (n : Nat) (hn : n < 256) (w : List Bool) (h : NoRun (bitsOf 8 n ++ w)) : CleanElement n (bitsOf 32 (0x100 + n) ++ w)

/-- Elements, each followed by any number of zero bits, with the list of their start code values. -/
inductive CleanStream : List Nat → List Bool → Prop
  | nil : CleanStream [] []
  | cons (n : Nat) (cs : List Nat) (k : Nat) (l m : List Bool) (h : CleanElement n l) (t : CleanStream cs m) :
      CleanStream (n :: cs) (l ++ (zeros k ++ m))

end Mpeg.Video.Spec
