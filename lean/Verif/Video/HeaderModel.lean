/-
Model of the header parsers of package video.

A Go function returning `(T, error)` is a `Go BR T`; struct fields are kept in the width in which they
are read (all reads return values below `2 ^ width`, so the `uint32` arithmetic never wraps here).
-/
import Verif.Base.StartCode
namespace Mpeg.Video

/-! ### start codes and extension ids -/

/-- video/start_codes.go:15-27 -/
abbrev startCodePrefix : Nat := 0x000001
abbrev pictureStartCode : Nat := 0x00000100
abbrev minSliceStartCode : Nat := 0x00000101
abbrev maxSliceStartCode : Nat := 0x000001AF
abbrev userDataStartCode : Nat := 0x000001B2
abbrev sequenceHeaderStartCode : Nat := 0x000001B3
abbrev extensionStartCode : Nat := 0x000001B5
abbrev sequenceEndStartCode : Nat := 0x000001B7
abbrev groupStartCode : Nat := 0x000001B8

/-- `StartCode.IsSlice` (video/start_codes.go:35-37) -/
def isSlice (code : Nat) : Bool := minSliceStartCode ≤ code && code ≤ maxSliceStartCode

/-- video/extension_id.go:10-26 -/
abbrev sequenceExtensionID : Nat := 1
abbrev sequenceDisplayExtensionID : Nat := 2
abbrev quantMatrixExtensionID : Nat := 3
abbrev copyrightExtensionID : Nat := 4
abbrev sequenceScalableExtensionID : Nat := 5
abbrev pictureDisplayExtensionID : Nat := 7
abbrev pictureCodingExtensionID : Nat := 8
abbrev pictureSpatialScalableExtensionID : Nat := 9
abbrev pictureTemporalScalableExtensionID : Nat := 10

/-- `ExtensionID.IsReserved` (video/extension_id.go:32-36) -/
def isReservedID (id : Nat) : Bool := id == 0 || id == 6 || 11 < id

/-- `StartCode.Assert` (video/start_codes.go:52-62) -/
def startCode (code : Nat) : Go BR Unit := codeAssert 32 code .unexpectedStartCode
/-- `ExtensionID.Assert` (video/extension_id.go:52-62) -/
def extensionID (id : Nat) : Go BR Unit := codeAssert 4 id .unexpectedExtensionID

/-! ### alignment -/

/-- `if !br.IsAligned() { br.Align() }` (video/next_start_code.go:15-19, video/video_sequence.go:37-41) -/
def alignIfNeeded : Go BR Unit := fun s => if s.isAligned then (.ok (), s) else BR.align s

/-- The `for` loop of `next_start_code` (video/next_start_code.go:21-33).  `hang` when the fuel is used up
(`nextStartCode` passes enough of it, see `C34`). -/
def nextStartCodeLoop : Nat → Go BR Unit
  | 0 => Go.hang
  | fuel + 1 => do
    let val ← BR.peek 24
    if val = startCodePrefix then pure ()
    else do
      let b ← BR.read 8
      if b = 0 then nextStartCodeLoop fuel else Go.throw .unexpectedNonZeroByte

/-- The loop with enough fuel for the bits that are left. -/
def nextStartCodeScan : Go BR Unit := fun s => nextStartCodeLoop (s.bits.length + 1) s

/-- `next_start_code` (video/next_start_code.go:14-34) -/
def nextStartCode : Go BR Unit := do
  alignIfNeeded
  nextStartCodeScan

/-- `marker_bit` (video/next_start_code.go:36-43) -/
def markerBit : Go BR Unit := do
  let m ← BR.read1
  Go.check m .missingMarkerBit

/-- The `for` loop of `AlignTo` (video/video_sequence.go:43-51). -/
def alignToLoop (code : Nat) : Nat → Go BR Unit
  | 0 => Go.hang
  | fuel + 1 => do
    let val ← BR.peek 32
    if val = code then pure ()
    else do
      BR.skip 8
      alignToLoop code fuel

def alignToScan (code : Nat) : Go BR Unit := fun s => alignToLoop code (s.bits.length + 1) s

/-- `VideoSequence.AlignTo` (video/video_sequence.go:36-52) -/
def alignTo (code : Nat) : Go BR Unit := do
  alignIfNeeded
  alignToScan code

/-! ### quantiser matrices -/

/-- `quantisationMatrix` (video/quantisation_matrix.go:3): `m[v][u]` is entry `8 * v + u`. -/
abbrev Matrix := List Nat

/-- `m[v][u]` -/
def Matrix.at (m : Matrix) (v u : Nat) : Nat := m.getD (8 * v + u) 0

/-- The zero value of the Go type. -/
def zeroMatrix : Matrix := List.replicate 64 0

/-- video/quantisation_matrix.go:9-18 -/
def defaultIntra : Matrix :=
  [8, 16, 19, 22, 26, 27, 29, 34,
   16, 16, 22, 24, 27, 29, 34, 37,
   19, 22, 26, 27, 29, 34, 34, 38,
   22, 22, 26, 27, 29, 34, 37, 40,
   22, 26, 27, 29, 32, 35, 40, 48,
   26, 27, 29, 32, 35, 40, 48, 58,
   26, 27, 29, 34, 38, 46, 56, 69,
   27, 29, 35, 38, 46, 56, 69, 83]

/-- video/quantisation_matrix.go:19-28 -/
def defaultNonIntra : Matrix := List.replicate 64 16

/-- `n` bytes, each with `br.Read32(8)`. -/
def readBytes : Nat → Go BR (List Nat)
  | 0 => pure []
  | n + 1 => do
    let b ← BR.read 8
    let l ← readBytes n
    pure (b :: l)

/-- The nested loops `for v { for u { m[v][u] = uint8(br.Read32(8)) } }` (video/sequence_header.go:73-81 and
89-97, video/quant_matrix_extension.go:28-36 etc.): 64 bytes in raster order.  A partly read matrix is dropped
by the callers on an error, so the list is only returned complete. -/
def readMatrix : Go BR Matrix := readBytes 64

/-! ### sequence header -/

/-- video/sequence_header.go:8-22 -/
structure SequenceHeader where
  horizontalSizeValue : Nat
  verticalSizeValue : Nat
  aspectRatioInformation : Nat
  frameRateCode : Nat
  bitRateValue : Nat
  vbvBufferSizeValue : Nat
  constrainedParametersFlag : Bool
  loadIntra : Bool
  loadNonIntra : Bool
  intra : Matrix
  nonIntra : Matrix
deriving DecidableEq, Repr

/-- `ReadSequenceHeader` (video/sequence_header.go:25-101).  On an error of the final `next_start_code` the Go
function also returns the header; its only caller then drops it, and so does the model. -/
def readSequenceHeader : Go BR SequenceHeader := do
  startCode sequenceHeaderStartCode
  let horizontalSizeValue ← BR.read 12
  let verticalSizeValue ← BR.read 12
  let aspectRatioInformation ← BR.read 4
  let frameRateCode ← BR.read 4
  let bitRateValue ← BR.read 18
  markerBit
  let vbvBufferSizeValue ← BR.read 10
  let constrainedParametersFlag ← BR.read1
  let loadIntra ← BR.read1
  let intra ← Go.opt loadIntra zeroMatrix readMatrix
  let loadNonIntra ← BR.read1
  let nonIntra ← Go.opt loadNonIntra zeroMatrix readMatrix
  nextStartCode
  pure { horizontalSizeValue, verticalSizeValue, aspectRatioInformation, frameRateCode, bitRateValue,
         vbvBufferSizeValue, constrainedParametersFlag, loadIntra, loadNonIntra, intra, nonIntra }

/-! ### sequence extensions -/

/-- video/sequence_extension.go:5-16 -/
structure SequenceExtension where
  profileAndLevel : Nat
  progressiveSequence : Nat
  chromaFormat : Nat
  horizontalSizeExtension : Nat
  verticalSizeExtension : Nat
  bitRateExtension : Nat
  vbvBufferSizeExtension : Nat
  lowDelay : Nat
  frameRateExtensionN : Nat
  frameRateExtensionD : Nat
deriving DecidableEq, Repr

/-- `sequence_extension` up to the final `next_start_code` (video/sequence_extension.go:18-86) -/
def readSequenceExtension : Go BR SequenceExtension := do
  startCode extensionStartCode
  extensionID sequenceExtensionID
  let profileAndLevel ← BR.read 8
  let progressiveSequence ← BR.read 1
  let chromaFormat ← BR.read 2
  let horizontalSizeExtension ← BR.read 2
  let verticalSizeExtension ← BR.read 2
  let bitRateExtension ← BR.read 12
  markerBit
  let vbvBufferSizeExtension ← BR.read 8
  let lowDelay ← BR.read 1
  let frameRateExtensionN ← BR.read 2
  let frameRateExtensionD ← BR.read 5
  pure { profileAndLevel, progressiveSequence, chromaFormat, horizontalSizeExtension, verticalSizeExtension,
         bitRateExtension, vbvBufferSizeExtension, lowDelay, frameRateExtensionN, frameRateExtensionD }

/-- video/sequence_display_extension.go:5-13 -/
structure SequenceDisplayExtension where
  videoFormat : Nat
  colourDescription : Bool
  colourPrimaries : Nat
  transferCharacteristics : Nat
  matrixCoefficients : Nat
  displayHorizontalSize : Nat
  displayVerticalSize : Nat
deriving DecidableEq, Repr

/-- `br.Read1()` with its error dropped: `false` on an error (video/sequence_display_extension.go:28). -/
def read1OrFalse : Go BR Bool := fun s =>
  match BR.read1 s with
  | (.ok b, s') => (.ok b, s')
  | (_, s') => (.ok false, s')

/-- `sequence_display_extension` (video/sequence_display_extension.go:15-63).  The error of the
`colour_description` read is overwritten by the next read, as in the source. -/
def readSequenceDisplayExtension : Go BR SequenceDisplayExtension := do
  extensionID sequenceDisplayExtensionID
  let videoFormat ← BR.read 3
  let colourDescription ← read1OrFalse
  let colourPrimaries ← Go.opt colourDescription 0 (BR.read 8)
  let transferCharacteristics ← Go.opt colourDescription 0 (BR.read 8)
  let matrixCoefficients ← Go.opt colourDescription 0 (BR.read 8)
  let displayHorizontalSize ← BR.read 14
  markerBit
  let displayVerticalSize ← BR.read 14
  nextStartCode
  pure { videoFormat, colourDescription, colourPrimaries, transferCharacteristics, matrixCoefficients,
         displayHorizontalSize, displayVerticalSize }

/-- `sequence_scalable_extension` (video/sequence_scalable_extension.go:32-76): panics after two fields. -/
def readSequenceScalableExtension : Go BR Unit := do
  extensionID sequenceScalableExtensionID
  let _ ← BR.read 2
  let _ ← BR.read 4
  Go.panic

/-! ### group of pictures header -/

/-- video/group_of_pictures_header.go:6-10; `timeCode` is an `int32` holding 25 bits. -/
structure GOPHeader where
  timeCode : Nat
  closedGOP : Bool
  brokenLink : Bool
deriving DecidableEq, Repr

/-- `ReadGOPHeader` (video/group_of_pictures_header.go:13-39).  The header is also returned when the final
`next_start_code` fails; the only caller drops it then, and so does the model. -/
def readGOPHeader : Go BR GOPHeader := do
  startCode groupStartCode
  let timeCode ← BR.read 25
  let closedGOP ← BR.read1
  let brokenLink ← BR.read1
  nextStartCode
  pure { timeCode, closedGOP, brokenLink }

/-- video/group_of_pictures_header.go:62-68 -/
structure TimeCode where
  dropFrame : Bool
  hours : Nat
  minutes : Nat
  seconds : Nat
  pictures : Nat
deriving DecidableEq, Repr

/-- `TimeCode()` (video/group_of_pictures_header.go:42-50) -/
def GOPHeader.time (g : GOPHeader) : TimeCode :=
  { dropFrame := g.timeCode >>> 24 == 1
    hours := (g.timeCode >>> 19) &&& 0x1F
    minutes := (g.timeCode >>> 13) &&& 0x3F
    seconds := (g.timeCode >>> 6) &&& 0x3F
    pictures := g.timeCode &&& 0x3F }

/-! ### picture header -/

/-- video/picture_coding_type.go:48-63 -/
abbrev iFrame : Nat := 1
abbrev pFrame : Nat := 2
abbrev bFrame : Nat := 3

/-- video/picture_header.go:6-16 -/
structure PictureHeader where
  temporalReference : Nat
  pictureCodingType : Nat
  vbvDelay : Nat
  fullPelForwardVector : Nat
  forwardFCode : Nat
  fullPelBackwardVector : Nat
  backwardFCode : Nat
  extraInformation : List Nat
deriving DecidableEq, Repr

/-- The extra information loop (video/picture_header.go:71-88; the same loop is video/slice.go:94-108). -/
def extraInformationLoop : Nat → Go BR (List Nat)
  | 0 => Go.hang
  | fuel + 1 => do
    let bit ← BR.peek 1
    if bit = 1 then do
      BR.skip 1
      let b ← BR.read 8
      let l ← extraInformationLoop fuel
      pure (b :: l)
    else pure []

def readExtraInformation : Go BR (List Nat) := fun s => extraInformationLoop (s.bits.length + 1) s

/-- `picture_header` up to the final `next_start_code` (video/picture_header.go:22-92) -/
def readPictureHeader : Go BR PictureHeader := do
  startCode pictureStartCode
  let temporalReference ← BR.read 10
  let pictureCodingType ← BR.read 3
  let vbvDelay ← BR.read 16
  let p := pictureCodingType == pFrame || pictureCodingType == bFrame
  let fullPelForwardVector ← Go.opt p 0 (BR.read 1)
  let forwardFCode ← Go.opt p 0 (BR.read 3)
  let b := pictureCodingType == bFrame
  let fullPelBackwardVector ← Go.opt b 0 (BR.read 1)
  let backwardFCode ← Go.opt b 0 (BR.read 3)
  let extraInformation ← readExtraInformation
  BR.skip 1
  pure { temporalReference, pictureCodingType, vbvDelay, fullPelForwardVector, forwardFCode,
         fullPelBackwardVector, backwardFCode, extraInformation }

/-! ### picture coding extension -/

/-- video/picture_structure.go:5-10 -/
abbrev framePicture : Nat := 3

/-- video/picture_coding_extension.go:7-27; `fCode s t` is `f_code[s][t]`. -/
structure PictureCodingExtension where
  f00 : Nat
  f01 : Nat
  f10 : Nat
  f11 : Nat
  intraDCPrecision : Nat
  pictureStructure : Nat
  topFieldFirst : Bool
  framePredFrameDCT : Nat
  concealmentMotionVectors : Bool
  qScaleType : Nat
  intraVLCFormat : Nat
  alternateScan : Nat
  repeatFirstField : Bool
  chroma420Type : Bool
  progressiveFrame : Bool
  compositeDisplayFlag : Bool
  vAxis : Bool
  fieldSequence : Nat
  subCarrier : Bool
  burstAmplitude : Nat
  subCarrierPhase : Nat
deriving DecidableEq, Repr

/-- `f_code[s][t]` -/
def PictureCodingExtension.fCode (p : PictureCodingExtension) (s t : Nat) : Nat :=
  if s = 0 then (if t = 0 then p.f00 else p.f01) else (if t = 0 then p.f10 else p.f11)

/-- `picture_coding_extension` up to the final `next_start_code`
(video/picture_coding_extension.go:29-142) -/
def readPictureCodingExtension : Go BR PictureCodingExtension := do
  startCode extensionStartCode
  extensionID pictureCodingExtensionID
  let f00 ← BR.read 4
  let f01 ← BR.read 4
  let f10 ← BR.read 4
  let f11 ← BR.read 4
  let intraDCPrecision ← BR.read 2
  let pictureStructure ← BR.read 2
  let topFieldFirst ← BR.read1
  let framePredFrameDCT ← BR.read 1
  let concealmentMotionVectors ← BR.read1
  let qScaleType ← BR.read 1
  let intraVLCFormat ← BR.read 1
  let alternateScan ← BR.read 1
  let repeatFirstField ← BR.read1
  let chroma420Type ← BR.read1
  let progressiveFrame ← BR.read1
  let c ← BR.read1
  let vAxis ← Go.opt c false BR.read1
  let fieldSequence ← Go.opt c 0 (BR.read 3)
  let subCarrier ← Go.opt c false BR.read1
  let burstAmplitude ← Go.opt c 0 (BR.read 7)
  let subCarrierPhase ← Go.opt c 0 (BR.read 8)
  pure { f00, f01, f10, f11, intraDCPrecision, pictureStructure, topFieldFirst, framePredFrameDCT,
         concealmentMotionVectors, qScaleType, intraVLCFormat, alternateScan, repeatFirstField, chroma420Type,
         progressiveFrame, compositeDisplayFlag := c, vAxis, fieldSequence, subCarrier, burstAmplitude,
         subCarrierPhase }

/-! ### the other extensions, user data -/

/-- video/picture_temporal_scalable_extension.go:5-9 -/
structure PictureTemporalScalableExtension where
  referenceSelectCode : Nat
  forwardTemporalReference : Nat
  backwardTemporalReference : Nat
deriving DecidableEq, Repr

/-- `picture_temporal_scalable_extension` (video/picture_temporal_scalable_extension.go:11-41) -/
def readPictureTemporalScalableExtension : Go BR PictureTemporalScalableExtension := do
  extensionID pictureTemporalScalableExtensionID
  let referenceSelectCode ← BR.read 2
  let forwardTemporalReference ← BR.read 10
  markerBit
  let backwardTemporalReference ← BR.read 10
  nextStartCode
  pure { referenceSelectCode, forwardTemporalReference, backwardTemporalReference }

/-- The loop of `user_data` (video/user_data.go:12-24). -/
def userDataLoop : Nat → Go BR (List Nat)
  | 0 => Go.hang
  | fuel + 1 => do
    let v ← BR.peek 24
    if v = startCodePrefix then pure []
    else do
      let b ← BR.read 8
      let l ← userDataLoop fuel
      pure (b :: l)

def userDataBytes : Go BR (List Nat) := fun s => userDataLoop (s.bits.length + 1) s

/-- `user_data` (video/user_data.go:5-27) -/
def userData : Go BR (List Nat) := do
  startCode userDataStartCode
  let d ← userDataBytes
  nextStartCode
  pure d

/-! ### the decoder state: quantiser matrices and frames -/

/-- `VideoSequence.quantisationMatricies` (video/video_sequence.go:24) -/
structure QMatrices where
  m0 : Matrix
  m1 : Matrix
  m2 : Matrix
  m3 : Matrix
deriving DecidableEq, Repr

/-- A sample plane: a `[]uint8` with its length. `data i` is the sample at index `i < len`. -/
structure Plane where
  len : Nat
  data : Nat → Nat

/-- The parts of `image.YCbCr` that the decoder uses.  Reference frames are never written after they are
complete, so values stand for the pointers of the source. -/
structure Frame where
  y : Plane
  cb : Plane
  cr : Plane
  yStride : Nat
  cStride : Nat

/-- video/frame_store.go:5-9 (`frame == nil` is `none` in the array below) -/
structure RefFrame where
  frame : Frame
  temporalReference : Nat
  previousGOP : Bool

/-- video/frame_store.go:11-15 -/
structure FrameStore where
  f0 : Option RefFrame
  f1 : Option RefFrame
  past : Option Frame
  future : Option Frame

/-- video/video_sequence.go:18-27 -/
structure VS where
  br : BR
  sh : Option SequenceHeader
  se : Option SequenceExtension
  gop : Option GOPHeader
  ph : Option PictureHeader
  pce : Option PictureCodingExtension
  qm : QMatrices
  fs : FrameStore
  frameCounter : Nat

/-- `NewVideoSequence` (video/video_sequence.go:29-33) -/
def VS.new (br : BR) : VS :=
  { br, sh := none, se := none, gop := none, ph := none, pce := none,
    qm := ⟨zeroMatrix, zeroMatrix, zeroMatrix, zeroMatrix⟩,
    fs := { f0 := none, f1 := none, past := none, future := none }, frameCounter := 0 }

/-- A parser called with the `VideoSequence` as its bit reader. -/
def VS.lift {α : Type} (m : Go BR α) : Go VS α := fun s => ((m s.br).1, { s with br := (m s.br).2 })

/-- `sequence_header` (video/sequence_header.go:103-129) -/
def sequenceHeader : Go VS Unit := do
  let sh ← VS.lift readSequenceHeader
  let i := if sh.loadIntra then sh.intra else defaultIntra
  let n := if sh.loadNonIntra then sh.nonIntra else defaultNonIntra
  Go.modify fun s => { s with qm := ⟨i, n, i, n⟩, sh := some sh }

/-- `vs.X, err = f(vs)`: the field becomes `nil` when the fields of the header cannot be read and keeps the
header when only the final `next_start_code` fails. -/
def storeHeader {α : Type} (read : Go BR α) (put : VS → Option α → VS) : Go VS Unit := fun s =>
  match VS.lift read s with
  | (.ok a, s') => VS.lift nextStartCode (put s' (some a))
  | (.err e, s') => (.err e, put s' none)
  | (.panic, s') => (.panic, s')
  | (.hang, s') => (.hang, s')

/-- `VideoSequence.sequence_extension` (video/video_sequence.go:54-57, video/sequence_extension.go:18-89) -/
def sequenceExtension : Go VS Unit := storeHeader readSequenceExtension fun s x => { s with se := x }
/-- `VideoSequence.picture_header` (video/video_sequence.go:59-62, video/picture_header.go:22-95) -/
def pictureHeader : Go VS Unit := storeHeader readPictureHeader fun s x => { s with ph := x }
/-- `VideoSequence.picture_coding_extension` (video/video_sequence.go:64-67,
video/picture_coding_extension.go:29-145) -/
def pictureCodingExtension : Go VS Unit := storeHeader readPictureCodingExtension fun s x => { s with pce := x }

/-- `if load, err := vs.Read1(); ... else if load { m = matrix; vs.quantisationMatricies[..] = m }` -/
def loadMatrix (set : QMatrices → Matrix → QMatrices) : Go VS Unit := do
  let load ← VS.lift BR.read1
  Go.opt load () do
    let m ← VS.lift readMatrix
    Go.modify fun s => { s with qm := set s.qm m }

/-- `quant_matrix_extension` (video/quant_matrix_extension.go:20-91); the error of `Assert` is dropped. -/
def quantMatrixExtension : Go VS Unit := do
  Go.ignoreErr (VS.lift (extensionID quantMatrixExtensionID))
  loadMatrix fun q m => { q with m0 := m, m2 := m }
  loadMatrix fun q m => { q with m1 := m, m3 := m }
  loadMatrix fun q m => { q with m2 := m }
  loadMatrix fun q m => { q with m3 := m }
  VS.lift nextStartCode

/-- One round of the `switch i` of `extension_data` (video/extension_and_user_data.go:31-76), after the
extension start code was seen. -/
def extensionDataStep (i : Nat) : Go VS Unit := do
  Go.ignoreErr (VS.lift (BR.skip 32))
  if i = 0 then do
    let id ← VS.lift (BR.peek 4)
    if id = sequenceDisplayExtensionID then do
      let _ ← VS.lift readSequenceDisplayExtension
      pure ()
    else VS.lift readSequenceScalableExtension
  else if i = 2 then do
    let id ← VS.lift (BR.peek 4)
    if id = quantMatrixExtensionID then quantMatrixExtension
    else if id = copyrightExtensionID ∨ id = pictureDisplayExtensionID ∨
        id = pictureSpatialScalableExtensionID then Go.panic
    else do
      let _ ← VS.lift readPictureTemporalScalableExtension
      pure ()
  else pure ()

/-- `extension_data` (video/extension_and_user_data.go:23-80) with fuel for its loop. -/
def extensionData (i : Nat) : Nat → Go VS Unit
  | 0 => Go.hang
  | fuel + 1 => do
    let v ← VS.lift (BR.peek 32)
    if v = extensionStartCode then do
      extensionDataStep i
      extensionData i fuel
    else pure ()

/-- `extension_and_user_data` (video/extension_and_user_data.go:3-21) with fuel for both loops. -/
def extensionAndUserData (i : Nat) : Nat → Go VS Unit
  | 0 => Go.hang
  | fuel + 1 => do
    let v ← VS.lift (BR.peek 32)
    if v = extensionStartCode then
      if i ≠ 1 then do
        extensionData i fuel
        extensionAndUserData i fuel
      else extensionAndUserData i fuel
    else if v = userDataStartCode then do
      let _ ← VS.lift userData
      extensionAndUserData i fuel
    else pure ()

/-! ### sizes -/

/-- `Size()` (video/video_sequence.go:69-80) -/
def VS.size (s : VS) : Int × Int :=
  match s.sh with
  | none => (-1, -1)
  | some sh =>
    match s.se with
    | none => ((sh.horizontalSizeValue : Int), (sh.verticalSizeValue : Int))
    | some se =>
      (((sh.horizontalSizeValue ||| (se.horizontalSizeExtension <<< 12) : Nat) : Int),
       ((sh.verticalSizeValue ||| (se.verticalSizeExtension <<< 12) : Nat) : Int))

/-- A plane of zero samples, as allocated by `make`. -/
def Plane.zero (n : Nat) : Plane := ⟨n, fun _ => 0⟩

/-- `createFrameBuffer` (video/picture_data.go:5-23) for sizes that are not negative (picture data is only
decoded after a sequence header).  `image.NewYCbCr` allocates `h * stride` luma samples and
`ch * cstride` samples for each chroma plane; a chroma format outside 1..3 leaves the ratio at its zero value,
which is `YCbCrSubsampleRatio444`. -/
def createFrameBuffer (w h cf : Nat) : Frame :=
  let W := ((w + 15) / 16) * 16
  let H := ((h + 15) / 16) * 16
  let cw := if cf = 1 ∨ cf = 2 then W / 2 else W
  let ch := if cf = 1 then H / 2 else H
  { y := .zero (W * H), cb := .zero (cw * ch), cr := .zero (cw * ch), yStride := W, cStride := cw }

end Mpeg.Video
