/-
The header fields that decoding depends on.
-/
import Verif.Video.DriftSpec
import Verif.Video.StreamSpec
namespace Mpeg.Video.Spec

/-- Readers on the same input from here on, at the same position within a byte.  (How many bytes were read before does not
matter.) -/
structure SameInput (a b : BR) : Prop where
  bits : a.bits = b.bits
  stop : a.stop = b.stop
  later : a.later = b.later
  aligned : a.pos % 8 = b.pos % 8

/-- An operation on the reader that does not depend on the number of bytes read before. -/
def PosBlind (m : Go BR Unit) : Prop := ∀ a b, SameInput a b → (m a).1 = (m b).1 ∧ SameInput (m a).2 (m b).2

/-- The application's own operations on the reader are `PosBlind`. -/
def Action.OK : Action → Prop
  | .next => True
  | .reader m => PosBlind m

/-- Sequence headers that agree in the size of the pictures.  (Everything else may differ: aspect ratio, frame rate, bit rate,
buffer size, the constrained parameters flag.  The matrices are in force elsewhere: `Alike.qm`.) -/
structure SeqAlike (a b : SequenceHeader) : Prop where
  width : a.horizontalSizeValue = b.horizontalSizeValue
  height : a.verticalSizeValue = b.verticalSizeValue

/-- Sequence extensions that agree in chroma format and size.  (Profile and level, progressive_sequence, bit rate, buffer size,
low_delay and frame rate may differ.) -/
structure SeqExtAlike (a b : SequenceExtension) : Prop where
  chroma : a.chromaFormat = b.chromaFormat
  width : a.horizontalSizeExtension = b.horizontalSizeExtension
  height : a.verticalSizeExtension = b.verticalSizeExtension

/-- Picture headers that agree in temporal reference and coding type.  (vbv_delay, the MPEG-1 vector codes and the extra
information may differ.) -/
structure PicAlike (a b : PictureHeader) : Prop where
  temporal : a.temporalReference = b.temporalReference
  kind : a.pictureCodingType = b.pictureCodingType

/-- Picture coding extensions that agree in what the syntax and the reconstruction of macroblocks depend on.  (top_field_first,
repeat_first_field, chroma_420_type, progressive_frame and the composite display fields may differ.) -/
structure PicExtAlike (a b : PictureCodingExtension) : Prop where
  f00 : a.f00 = b.f00
  f01 : a.f01 = b.f01
  f10 : a.f10 = b.f10
  f11 : a.f11 = b.f11
  precision : a.intraDCPrecision = b.intraDCPrecision
  structure_ : a.pictureStructure = b.pictureStructure
  framePred : a.framePredFrameDCT = b.framePredFrameDCT
  conceal : a.concealmentMotionVectors = b.concealmentMotionVectors
  qScale : a.qScaleType = b.qScaleType
  vlc : a.intraVLCFormat = b.intraVLCFormat
  scan : a.alternateScan = b.alternateScan

/-- Decoders that are the same except for the number of bytes read so far and for header fields that concern display, buffering, time codes or other decoders; the group
of pictures headers may be any (or absent). -/
structure Alike (s t : VS) : Prop where
  br : SameInput s.br t.br
  sh : Both SeqAlike s.sh t.sh
  se : Both SeqExtAlike s.se t.se
  ph : Both PicAlike s.ph t.ph
  pce : Both PicExtAlike s.pce t.pce
  qm : s.qm = t.qm
  store : s.fs = t.fs
  counter : s.frameCounter = t.frameCounter

/-! ### in the stream -/

/-- The headers before the data of a picture (6.2.2, 6.2.3): a sequence header with its extensions and a group of pictures header
if there are, then the headers of the picture. -/
structure Heads where
  seq : Option SeqPart
  gop : Option GopPart
  hdr : Pic
  ext : PicExt
  items : List Item

structure Heads.OK (h : Heads) : Prop where
  seq : ∀ q, h.seq = some q → q.hdr.WF ∧ q.ext.WF ∧ q.ext.marker = true
  gop : ∀ g, h.gop = some g → g.hdr.WF
  hdr : h.hdr.WF
  ext : h.ext.WF

def Heads.parts (h : Heads) : List Part :=
  (match h.seq with
   | some q => [Stuffed (encSeq q.hdr), Stuffed (encSeqExt q.ext), ItemsPart 0 q.items]
   | none => []) ++
  ((match h.gop with
   | some g => [Stuffed (encGOP g.hdr), ItemsPart 1 g.items]
   | none => []) ++
  [Stuffed (encPic h.hdr), Stuffed (encPicExt h.ext), ItemsPart 2 h.items])

/-- The quantiser matrix extensions among the extensions. -/
def Item.matrices : Item → Option QExt
  | .quant h => some h
  | _ => none

/-- The same as far as decoding is concerned: size, chroma format and matrices; whether a group of pictures starts here; temporal
reference, coding type and the syntax elements of the picture coding extension that say how macroblocks are coded; matrices loaded
for this picture.  Everything else may differ, also the number and the contents of user data and of the other extensions, and thus
the length. -/
structure HeadsAlike (a b : Heads) : Prop where
  seq : Both (fun p q => p.hdr.width = q.hdr.width ∧ p.hdr.height = q.hdr.height ∧ p.hdr.intra = q.hdr.intra ∧
    p.hdr.nonIntra = q.hdr.nonIntra ∧ p.ext.chroma = q.ext.chroma ∧ p.ext.widthExt = q.ext.widthExt ∧
    p.ext.heightExt = q.ext.heightExt) a.seq b.seq
  gop : a.gop.isSome = b.gop.isSome
  temporal : a.hdr.temporal = b.hdr.temporal
  kind : a.hdr.kind.code = b.hdr.kind.code
  fCode : a.ext.f00 = b.ext.f00 ∧ a.ext.f01 = b.ext.f01 ∧ a.ext.f10 = b.ext.f10 ∧ a.ext.f11 = b.ext.f11
  precision : a.ext.dcPrecision = b.ext.dcPrecision
  structure_ : a.ext.structure_ = b.ext.structure_
  framePred : a.ext.framePredFrameDCT = b.ext.framePredFrameDCT
  conceal : a.ext.concealment = b.ext.concealment
  qScale : a.ext.qScaleType = b.ext.qScaleType
  vlc : a.ext.intraVLC = b.ext.intraVLC
  scan : a.ext.alternateScan = b.ext.alternateScan
  matrices : a.items.filterMap Item.matrices = b.items.filterMap Item.matrices

/-- A start code that does not start an extension or user data, and anything behind it. -/
def PictureNext (following : List Bool) : Prop :=
  ∃ c rest, c < 256 ∧ c ≠ 0xB5 ∧ c ≠ 0xB2 ∧ following = bitsOf 32 (0x100 + c) ++ rest

/-- The decoder stands before the headers `h`, which are followed by `following`.  (There is a sequence header unless the decoder
has read one; any number of zero bytes may precede the first one.) -/
def Heads.Before (h : Heads) (fuel : Nat) (following : List Bool) (stop : Err) (later : List (List Bool × Err)) (s : VS) : Prop :=
  (h.seq = none → s.sh.isSome = true) ∧
  ∃ (k pos : Nat) (bits : List Bool), Parts pos h.parts bits ∧ pos % 8 = 0 ∧ 8 * k ≤ pos ∧ (s.sh ≠ none → k = 0) ∧
    s.br = ⟨zeros (8 * k) ++ (bits ++ following), pos - 8 * k, stop, later⟩ ∧ bits.length < fuel

end Mpeg.Video.Spec
