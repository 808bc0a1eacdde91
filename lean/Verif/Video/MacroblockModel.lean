/-
Model of macroblocks, slices, pictures, the frame store and the frame provider.
-/
import Verif.Video.FrameModel
namespace Mpeg.Video

/-- What a picture's macroblocks read from the `VideoSequence`: nothing of it changes during `picture_data`. -/
structure PicEnv where
  sh : SequenceHeader
  se : SequenceExtension
  ph : PictureHeader
  pce : PictureCodingExtension
  qm : QMatrices
  past : Option Frame
  future : Option Frame

/-- `motionVectorData` (video/motion_vectors.go:42-51).  `pred` and `act` are indexed `r s t`; `fwd`/`bwd` are the bits
of `previous`.  `code` and `residual` are written before each use and `vertical_field_select` is never used: they are
local in the model. -/
structure MVD where
  pred : Nat → Nat → Nat → Int
  act : Nat → Nat → Nat → Int
  fwd : Bool
  bwd : Bool

/-- The state of a slice: the reader, the DC predictors, the vectors, `quantiser_scale_code`, the frame. -/
structure MB where
  br : BR
  dcp : DcPred
  mvd : MVD
  qsc : Nat
  frame : Frame

/-- A parser called with the `VideoSequence` as its bit reader. -/
def MB.lift {α : Type} (m : Go BR α) : Go MB α := fun s => ((m s.br).1, { s with br := (m s.br).2 })

/-- A panic for `none`. -/
def orPanic {σ α : Type} : Option α → Go σ α
  | some a => pure a
  | none => Go.panic

/-! ### macroblock address -/

/-- The escape loop of `macroblock` (video/macroblock.go:29-38) with fuel; the error of `Skip` is dropped.
Each round consumes 11 bits. -/
def escapeLoop : Nat → Nat → Go BR Nat
  | 0, _ => Go.hang
  | fuel + 1, incr => do
    let v ← BR.peek 11
    if v = 8 then do
      Go.ignoreErr (BR.skip 11)
      escapeLoop fuel (incr + 33)
    else pure incr

/-- The escape codes (video/macroblock.go:29-38) -/
def escapeCount : Go BR Nat := fun s => escapeLoop (s.bits.length + 1) 0 s

/-- `macroblock_address_increment` (video/macroblock.go:29-44) -/
def mbIncrement : Go BR Nat := do
  let e ← escapeCount
  let v ← addressIncrement
  pure (e + v)

/-! ### macroblock modes -/

/-- The fields of `Macroblock` set by `macroblock_mode`. -/
structure Mode where
  type : MacroblockType
  frameMotion : Nat
  fieldMotion : Nat
  dctType : Bool
deriving DecidableEq, Repr

/-- The choice of the type decoder (video/macroblock.go:249-258); another coding type panics. -/
def mbType (pct : Nat) : Go BR MacroblockType :=
  if pct = iFrame then huffDecode iTypeTable
  else if pct = pFrame then huffDecode pTypeTable
  else if pct = bFrame then huffDecode bTypeTable
  else Go.panic

/-- `macroblock_mode` (video/macroblock.go:246-300); the spatial temporal weight code is disabled in the source. -/
def macroblockMode (e : PicEnv) : Go BR Mode := do
  let t ← mbType e.ph.pictureCodingType
  let motion := t.forward || t.backward
  let frm ← Go.opt (motion && e.pce.pictureStructure == framePicture && e.pce.framePredFrameDCT == 0) 0 (BR.read 2)
  let fld ← Go.opt (motion && e.pce.pictureStructure != framePicture) 0 (BR.read 2)
  let dct ← Go.opt (e.pce.pictureStructure == framePicture && e.pce.framePredFrameDCT == 0 && (t.intra || t.pattern))
    false BR.read1
  pure ⟨t, frm, fld, dct⟩

/-! ### motion vectors -/

/-- `motionVectorInfo` (video/motion_vector_info.go:11-15); `field` is the field format. -/
structure MvInfo where
  count : Nat
  field : Bool
  dmv : Bool
deriving DecidableEq, Repr

/-- `mv_info` (video/motion_vector_info.go:17-41); `none` is the panic. -/
def mvInfo (framePredFrameDCT : Nat) (m : Mode) : Option MvInfo :=
  if framePredFrameDCT = 1 then some ⟨1, false, false⟩
  else if m.frameMotion = 1 then some ⟨2, true, false⟩
  else if m.frameMotion = 2 then some ⟨1, false, false⟩
  else if m.frameMotion = 3 then some ⟨1, true, true⟩
  else if m.fieldMotion = 1 then some ⟨1, true, false⟩
  else if m.fieldMotion = 2 then some ⟨2, true, false⟩
  else if m.fieldMotion = 3 then some ⟨1, true, true⟩
  else none

/-- `r_size := f_code[s][t] - 1` in `uint32` (video/motion_vectors.go:58, 135) -/
def rSize (fCode : Nat) : Nat := (fCode + (2 ^ 32 - 1)) % 2 ^ 32

/-- `f := 1 << r_size` as a 64-bit `int` (video/motion_vectors.go:59); `f_code` has 4 bits, so `r_size` is at most
14 or `2 ^ 32 - 1`. -/
def fScale (fCode : Nat) : Int := if rSize fCode < 63 then 2 ^ rSize fCode else 0

/-- `delta` (video/motion_vectors.go:64-72) -/
def mvDelta (f code : Int) (residual : Nat) : Int :=
  if f = 1 ∨ code = 0 then code
  else
    let d := (code.natAbs - 1) * f + residual + 1
    if code < 0 then -d else d

/-- The wrap of `vector` (video/motion_vectors.go:60-62, 81-87) -/
def mvWrap (f v : Int) : Int :=
  let v1 := if v < -16 * f then v + 32 * f else v
  if v1 > 16 * f - 1 then v1 - 32 * f else v1

/-- Assignment to one element of a vector array. -/
def upd3 (a : Nat → Nat → Nat → Int) (r s t : Nat) (x : Int) : Nat → Nat → Nat → Int :=
  fun r' s' t' => if r' = r ∧ s' = s ∧ t' = t then x else a r' s' t'

/-- `update_actual` (video/motion_vectors.go:53-97) -/
def MVD.update (d : MVD) (r s t fCode pictureStructure : Nat) (field : Bool) (code : Int) (residual : Nat) : MVD :=
  let f := fScale fCode
  let halve := field && t == 1 && pictureStructure == framePicture
  let p := if halve then d.pred r s t / 2 else d.pred r s t
  let v := mvWrap f (p + mvDelta f code residual)
  { d with
    pred := upd3 d.pred r s t (if halve then v * 2 else v)
    act := upd3 d.act r s t v }

/-- `reset` (video/motion_vectors.go:99-120): predictions and vectors become zero; `previous` is kept. -/
def MVD.reset (d : MVD) : MVD := { d with pred := fun _ _ _ => 0, act := fun _ _ _ => 0 }

/-- `var mvd motionVectorData` -/
def MVD.init : MVD := ⟨fun _ _ _ => 0, fun _ _ _ => 0, false, false⟩

/-- `motionVectorsFormed.set` (video/motion_vectors.go:24-40) -/
def MVD.setFormed (d : MVD) (t : MacroblockType) (pct : Nat) : MVD :=
  if t.intra then { d with fwd := false, bwd := false }
  else if pct = pFrame ∧ t.forward = false ∧ t.backward = false then { d with fwd := true, bwd := false }
  else if t.forward && t.backward then { d with fwd := true, bwd := true }
  else if t.forward then { d with fwd := true, bwd := false }
  else if t.backward then { d with fwd := false, bwd := true }
  else d

/-- The reads of `motion_vector_part` (video/motion_vectors.go:129-142): code and residual (`0` when not read). -/
def readMotion (fCode : Nat) : Go BR (Int × Nat) := do
  let code ← decodeMotionCode
  let r ← Go.opt (fCode != 1 && code != 0) 0 (BR.read (rSize fCode))
  pure (code, r)

/-- `motion_vector_part` (video/motion_vectors.go:128-150) -/
def motionVectorPart (e : PicEnv) (info : MvInfo) (r s t : Nat) : Go MB Unit := do
  let c ← MB.lift (readMotion (e.pce.fCode s t))
  if info.dmv then Go.panic
  else Go.modify fun m =>
    { m with mvd := m.mvd.update r s t (e.pce.fCode s t) e.pce.pictureStructure info.field c.1 c.2 }

/-- `motion_vector` (video/motion_vectors.go:152-160) -/
def motionVector (e : PicEnv) (info : MvInfo) (r s : Nat) : Go MB Unit := do
  motionVectorPart e info r s 0
  motionVectorPart e info r s 1

/-- `motion_vectors` (video/motion_vectors.go:122-191) -/
def motionVectors (e : PicEnv) (s : Nat) (m : Mode) : Go MB Unit := do
  let info ← orPanic (mvInfo e.pce.framePredFrameDCT m)
  if info.count = 1 then do
    let _ ← Go.opt (info.field && !info.dmv) 0 (MB.lift (BR.read 1))
    motionVector e info 0 s
  else do
    let _ ← MB.lift (BR.read 1)
    motionVector e info 0 s
    let _ ← MB.lift (BR.read 1)
    motionVector e info 1 s

/-! ### coded block pattern -/

/-- `codedBlockPattern.decode` (video/coding_block_pattern.go:22-44) for block `i`; the panic for 4:2:2 and 4:4:4 has
already happened in `coded_block_pattern`. -/
def patternCode (cbp : Nat) (intra pattern : Bool) (i : Nat) : Bool :=
  intra || (pattern && decide (i < 6) && decide (cbp / 2 ^ (5 - i) % 2 = 1))

/-- `coded_block_pattern` (video/coding_block_pattern.go:9-20) -/
def codedBlockPattern (chromaFormat : Nat) : Go BR Nat := fun s =>
  match decodeCbp s with
  | (.panic, s') => (.panic, s')
  | (.hang, s') => (.hang, s')
  | (r, s') => if chromaFormat = 2 ∨ chromaFormat = 3 then (.panic, s') else (r, s')

/-- `block_count` (video/macroblock.go:134-142) -/
def blockCount (chromaFormat : Nat) : Nat :=
  if chromaFormat = 1 then 6 else if chromaFormat = 2 then 8 else if chromaFormat = 3 then 12 else 0

/-- `color_channel` (video/macroblock.go:5) -/
def colorChannel (i : Nat) : Nat := if i < 4 then 0 else if i % 2 = 0 then 1 else 2

/-! ### macroblock -/

/-- The active references of `motion_compensation` (video/motion_compensation.go:14-21, 25, 67). -/
def MVD.fwdRef (d : MVD) (past : Option Frame) : Option (Frame × Vec) :=
  if d.fwd then past.map fun f => (f, ⟨d.act 0 0 0, d.act 0 0 1⟩) else none
def MVD.bwdRef (d : MVD) (future : Option Frame) : Option (Frame × Vec) :=
  if d.bwd then future.map fun f => (f, ⟨d.act 0 1 0, d.act 0 1 1⟩) else none

/-- Prediction, clamping and placement of one block (video/macroblock.go:163-165,
video/copy_macroblocks.go:41-43). -/
def finishBlock (e : PicEnv) (d : MVD) (b : Block) (i addr row : Nat) (interlaced : Bool) (f : Frame) : Option Frame :=
  match motionCompensation b (d.fwdRef e.past) (d.bwdRef e.future) i row addr with
  | none => none
  | some c => updateFrame i addr row interlaced f c.clamp

/-- The inner loop of `bframe_copy_macroblocks` (video/copy_macroblocks.go:39-44): blocks `6 - k` to 5. -/
def bcopyBlocks (e : PicEnv) (d : MVD) (addr row : Nat) : Nat → Frame → Option Frame
  | 0, f => some f
  | k + 1, f =>
    match finishBlock e d Block.zero (5 - k) addr row false f with
    | none => none
    | some f' => bcopyBlocks e d addr row k f'

/-- `bframe_copy_macroblocks` (video/copy_macroblocks.go:34-46) -/
def bframeCopy (e : PicEnv) (d : MVD) (row : Nat) : Nat → Nat → Frame → Option Frame
  | _, 0, f => some f
  | addr, n + 1, f =>
    match bcopyBlocks e d addr row 6 f with
    | none => none
    | some f' => bframeCopy e d row (addr + 1) n f'

/-- The copies of skipped macroblocks (video/macroblock.go:46-62); `addr` is the address of the previous macroblock,
none before the first one of the slice. -/
def copySkipped (e : PicEnv) (row : Nat) (addr : Option Nat) (incr : Nat) : Go MB Unit := fun s =>
  match addr with
  | none => (.ok (), s)
  | some a =>
    if 1 < incr then
      if e.ph.pictureCodingType = pFrame then
        (do let f ← orPanic (pframeCopy row (a + 1) (incr - 1) s.frame e.past)
            Go.modify fun s => { s with frame := f } : Go MB Unit) s
      else if e.ph.pictureCodingType = bFrame then
        (do let f ← orPanic (bframeCopy e s.mvd row (a + 1) (incr - 1) s.frame)
            Go.modify fun s => { s with frame := f } : Go MB Unit) s
      else (.ok (), s)
    else (.ok (), s)

/-- The resets before the macroblock modes (video/macroblock.go:64-73). -/
def skipResets (e : PicEnv) (incr : Nat) : Go MB Unit := Go.modify fun s =>
  { s with
    dcp := if 1 < incr then DcPred.reset e.pce.intraDCPrecision else s.dcp
    mvd := if e.ph.pictureCodingType = pFrame ∧ 1 < incr then s.mvd.reset else s.mvd }

/-- The resets after the macroblock modes (video/macroblock.go:79-95). -/
def modeResets (e : PicEnv) (t : MacroblockType) : Go MB Unit := Go.modify fun s =>
  { s with
    dcp := if t.intra = false then DcPred.reset e.pce.intraDCPrecision else s.dcp
    mvd := if (t.intra = true ∧ e.pce.concealmentMotionVectors = false) ∨
        (e.ph.pictureCodingType = pFrame ∧ t.intra = false ∧ t.forward = false) then s.mvd.reset else s.mvd }

/-- The parameters of `decode_block` for block `i`. -/
def blockParams (e : PicEnv) (qsc i : Nat) (intra : Bool) : QParams :=
  { alternateScan := e.pce.alternateScan, qScaleType := e.pce.qScaleType, intraDCPrecision := e.pce.intraDCPrecision
    chromaFormat := e.se.chromaFormat, qm := e.qm, cc := colorChannel i, qsc := qsc, intra := intra }

/-- The reading part of the block loop (video/macroblock.go:153-161). -/
def mbBlock (e : PicEnv) (intra coded : Bool) (i : Nat) (b : Block) : Go MB Block := fun s =>
  if coded then
    match readBlock b s.dcp e.pce.intraVLCFormat (colorChannel i) intra s.br with
    | (.ok c, br') => (.ok (idct (decodeBlock (blockParams e s.qsc i intra) c.1)), { s with br := br', dcp := c.2 })
    | (.err x, br') => (.err x, { s with br := br' })
    | (.panic, br') => (.panic, { s with br := br' })
    | (.hang, br') => (.hang, { s with br := br' })
  else (.ok Block.zero, s)

/-- The block loop of `macroblock` (video/macroblock.go:150-166) from block `i` on. -/
def mbBlocks (e : PicEnv) (intra dctType : Bool) (coded : Nat → Bool) (addr row : Nat) :
    Nat → Nat → Block → Go MB Unit
  | 0, _, _ => pure ()
  | k + 1, i, b => do
    let b' ← mbBlock e intra (coded i) i b
    let s ← Go.get
    let f ← orPanic (finishBlock e s.mvd b' i addr row dctType s.frame)
    Go.modify fun s => { s with frame := f }
    mbBlocks e intra dctType coded addr row k (i + 1) b'

/-- The part of `macroblock` after the pattern is known (video/macroblock.go:134-168). -/
def mbFinish (e : PicEnv) (row newAddr : Nat) (m : Mode) (cbp : Nat) : Go MB Nat := do
  mbBlocks e m.type.intra m.dctType (patternCode cbp m.type.intra m.type.pattern) newAddr row
    (blockCount e.se.chromaFormat) 0 Block.zero
  pure newAddr

/-- Reading the pattern and the blocks (video/macroblock.go:126-168): an error of `coded_block_pattern` ends
`macroblock` with `return 0, nil`. -/
def mbCoded (e : PicEnv) (row newAddr : Nat) (m : Mode) : Go MB Nat := fun s =>
  match MB.lift (codedBlockPattern e.se.chromaFormat) s with
  | (.ok cbp, s') => mbFinish e row newAddr m cbp s'
  | (.err _, s') => (.ok 0, s')
  | (.panic, s') => (.panic, s')
  | (.hang, s') => (.hang, s')

/-- The pattern step (video/macroblock.go:126-132) and what follows. -/
def mbPattern (e : PicEnv) (row newAddr : Nat) (m : Mode) : Go MB Nat :=
  if m.type.pattern then mbCoded e row newAddr m else mbFinish e row newAddr m 0

/-- The vectors of a macroblock (video/macroblock.go:97-124). -/
def mbVectors (e : PicEnv) (m : Mode) : Go MB Unit := do
  Go.opt m.type.quant () do
    let q ← MB.lift (BR.read 5)
    Go.modify fun s => { s with qsc := q }
  Go.opt (m.type.forward || (m.type.intra && e.pce.concealmentMotionVectors)) () (motionVectors e 0 m)
  Go.opt m.type.backward () (motionVectors e 1 m)
  Go.modify fun s => { s with mvd := s.mvd.setFormed m.type e.ph.pictureCodingType }
  Go.opt (m.type.intra && e.pce.concealmentMotionVectors) () (MB.lift markerBit)

/-- The address of the macroblock (video/macroblock.go:144); `-1` is `none`. -/
def newAddress (addr : Option Nat) (incr : Nat) : Nat :=
  match addr with
  | none => incr - 1
  | some a => a + incr

/-- `macroblock` (video/macroblock.go:18-169): the new address.  `addr = none` is `mb_address == -1`. -/
def macroblock (e : PicEnv) (row : Nat) (addr : Option Nat) : Go MB Nat := do
  let incr ← MB.lift mbIncrement
  copySkipped e row addr incr
  skipResets e incr
  let m ← MB.lift (macroblockMode e)
  modeResets e m.type
  mbVectors e m
  mbPattern e row (newAddress addr incr) m

/-! ### slice and picture -/

/-- The macroblock loop of `slice` (video/slice.go:115-133) with fuel. -/
def mbLoop (e : PicEnv) (row : Nat) : Nat → Option Nat → Go MB Unit
  | 0, _ => Go.hang
  | fuel + 1, addr => do
    let a ← macroblock e row addr
    let v ← MB.lift (BR.peek 23)
    if v = 0 then pure () else mbLoop e row fuel (some a)

/-- More than the number of unread bits: each round of the loops below consumes at least one. -/
def fuelOf (s : BR) : Nat := s.bits.length + (s.later.map (fun x => x.1.length)).sum + 1

/-- The macroblocks of a slice (video/slice.go:115-133) -/
def mbLoopAll (e : PicEnv) (row : Nat) : Go MB Unit := fun s => mbLoop e row (fuelOf s.br) none s

/-- The slice header after the start code (video/slice.go:51-113): `quantiser_scale_code`. -/
def sliceHeader (verticalSizeValue : Nat) : Go BR Nat := do
  let _ ← Go.opt (decide (2800 < verticalSizeValue)) 0 (BR.read 3)
  let qsc ← BR.read 5
  let v ← BR.peek 1
  Go.opt (v == 1) () do
    let _ ← BR.read1
    let _ ← BR.read1
    let r ← BR.read 7
    Go.check (r == 0) .invalidReservedBits
    let _ ← readExtraInformation
    pure ()
  BR.skip 1
  pure qsc

/-- `slice` (video/slice.go:17-136) on the frame being built.  The slices of the planes panic when they start beyond
the end.  `s.dcp`, `s.mvd`, `s.qsc` are local variables of the source: they are set here. -/
def slice (e : PicEnv) : Go MB Unit := do
  let code ← MB.lift (BR.read 32)
  Go.check (isSlice code) .unexpectedStartCode
  let row := code % 256 - 1
  let s ← Go.get
  if s.frame.y.len < 16 * row * s.frame.yStride ∨ s.frame.cb.len < 8 * row * s.frame.cStride ∨
      s.frame.cr.len < 8 * row * s.frame.cStride then Go.panic
  else do
    let qsc ← MB.lift (sliceHeader e.sh.verticalSizeValue)
    Go.modify fun s => { s with dcp := DcPred.reset e.pce.intraDCPrecision, mvd := MVD.init, qsc := qsc }
    mbLoopAll e row
    MB.lift nextStartCode

/-- The slice loop of `picture_data` (video/picture_data.go:30-40) with fuel. -/
def sliceLoop (e : PicEnv) : Nat → Go MB Unit
  | 0 => Go.hang
  | fuel + 1 => do
    slice e
    let v ← MB.lift (BR.peek 32)
    if isSlice v then sliceLoop e fuel else pure ()

/-- `picture_data` (video/picture_data.go:25-43) -/
def pictureData : Go VS Frame := fun s =>
  match s.sh, s.se, s.ph, s.pce with
  | some sh, some se, some ph, some pce =>
    let e : PicEnv := ⟨sh, se, ph, pce, s.qm, s.fs.past, s.fs.future⟩
    let f := createFrameBuffer s.size.1.toNat s.size.2.toNat se.chromaFormat
    let m : MB := ⟨s.br, DcPred.reset pce.intraDCPrecision, MVD.init, 0, f⟩
    match (do sliceLoop e (fuelOf m.br); MB.lift nextStartCode : Go MB Unit) m with
    | (.ok _, m') => (.ok m'.frame, { s with br := m'.br })
    | (.err x, m') => (.err x, { s with br := m'.br })
    | (.panic, m') => (.panic, { s with br := m'.br })
    | (.hang, m') => (.hang, { s with br := m'.br })
  | _, _, _, _ => (.panic, s)

/-! ### frame store -/

/-- `gop` (video/frame_store.go:17-20).  (An empty slot of the array is `none`; its flag is never read.) -/
def FrameStore.markGOP (fs : FrameStore) : FrameStore :=
  { fs with
    f0 := fs.f0.map fun r => { r with previousGOP := true }
    f1 := fs.f1.map fun r => { r with previousGOP := true } }

/-- One round of the loop of `set` (video/frame_store.go:23-31). -/
def FrameStore.setOne (fs : FrameStore) (ref : Option RefFrame) (tr : Nat) : FrameStore :=
  match ref with
  | none => fs
  | some r =>
    if r.previousGOP = true ∨ r.temporalReference < tr then { fs with past := some r.frame }
    else { fs with future := some r.frame }

/-- `set` (video/frame_store.go:22-33) -/
def FrameStore.set (fs : FrameStore) (tr : Nat) : FrameStore := (fs.setOne fs.f0 tr).setOne fs.f1 tr

/-- `add` (video/frame_store.go:35-38) -/
def FrameStore.add (fs : FrameStore) (f : Frame) (tr : Nat) : FrameStore :=
  { fs with f0 := fs.f1, f1 := some ⟨f, tr, false⟩ }

/-- The test of `tryGet` for one slot. -/
def RefFrame.matches (r : Option RefFrame) (tr : Nat) : Option Frame :=
  match r with
  | none => none
  | some r => if r.previousGOP = false ∧ r.temporalReference = tr then some r.frame else none

/-- `tryGet` (video/frame_store.go:40-47) -/
def FrameStore.tryGet (fs : FrameStore) (tr : Nat) : Option Frame :=
  match RefFrame.matches fs.f0 tr with
  | some f => some f
  | none => RefFrame.matches fs.f1 tr

/-! ### frame provider -/

/-- The group of pictures header at `MORE_FRAMES` (video/frame_provider.go:49-62). -/
def groupHeader (fuel : Nat) : Go VS Unit := do
  let v ← VS.lift (BR.peek 32)
  Go.opt (v == groupStartCode) () do
    let g ← VS.lift readGOPHeader
    Go.modify fun s => { s with gop := some g, fs := s.fs.markGOP, frameCounter := 0 }
    extensionAndUserData 1 fuel

/-- The end of a picture (video/frame_provider.go:76-86). -/
def pictureStep : Go VS Frame := do
  let s ← Go.get
  match s.ph with
  | none => Go.panic
  | some ph =>
    Go.modify fun s => { s with fs := s.fs.set ph.temporalReference }
    let f ← pictureData
    Go.modify fun s =>
      if ph.pictureCodingType = iFrame ∨ ph.pictureCodingType = pFrame then
        { s with fs := s.fs.add f ph.temporalReference }
      else s
    pure f

/-- From `MORE_FRAMES` (video/frame_provider.go:47-86) -/
def moreFrames (fuel : Nat) : Go VS Frame := do
  groupHeader fuel
  pictureHeader
  pictureCodingExtension
  extensionAndUserData 2 fuel
  pictureStep

/-- From `CONTINUE` (video/frame_provider.go:41-45) -/
def continueFrames (fuel : Nat) : Go VS Frame := do
  extensionAndUserData 0 fuel
  moreFrames fuel

/-- From `RESUME` (video/frame_provider.go:88-120); the two equal peeks give the same value. -/
def resume (fuel : Nat) : Go VS Frame := do
  let v ← VS.lift (BR.peek 32)
  if v = pictureStartCode ∨ v = groupStartCode then moreFrames fuel
  else if v = sequenceEndStartCode then do
    VS.lift (BR.skip 32)
    Go.throw .eos
  else do
    sequenceHeader
    sequenceExtension
    continueFrames fuel

/-- The first step (video/frame_provider.go:19-39) -/
def start (fuel : Nat) : Go VS Frame := do
  VS.lift nextStartCode
  sequenceHeader
  let v ← VS.lift (BR.peek 32)
  Go.check (v == extensionStartCode) .unsupported11172
  sequenceExtension
  continueFrames fuel

/-- `step` (video/frame_provider.go:13-120); fuel for the extension loops. -/
def step (fuel : Nat) : Go VS Frame := fun s =>
  if s.sh.isSome then resume fuel s else start fuel s

/-- `self.frameCounter++` on a `uint32` -/
def VS.count (s : VS) : VS := { s with frameCounter := (s.frameCounter + 1) % 2 ^ 32 }

/-- The loop of `Next` (video/video_sequence.go:91-98) with fuel. -/
def nextLoop (fuel : Nat) : Nat → Go VS Frame
  | 0 => Go.hang
  | k + 1 => do
    let f ← step fuel
    let s ← Go.get
    match s.ph with
    | none => Go.panic
    | some ph =>
      if ph.temporalReference = s.frameCounter then do
        Go.modify VS.count
        pure f
      else nextLoop fuel k

/-- `Next` (video/video_sequence.go:83-99): fuel for the extension loops and for the steps. -/
def VS.next (fuel k : Nat) : Go VS Frame := fun s =>
  match s.fs.tryGet s.frameCounter with
  | some f => (.ok f, s.count)
  | none => nextLoop fuel k s

end Mpeg.Video
