/-
The decoder with pointers: frames live in a memory, the frame store and `Next` deal in addresses.  MacroblockModel.lean
is the same code with frames as values; here only what touches frames is written again, everything else is taken from
there (`HMB.run`, `HVS.lift`).
-/
import Verif.Video.MacroblockModel
namespace Mpeg.Video

/-- The memory: what `*image.YCbCr` pointers point to.  An address is a `Nat`. -/
abbrev Mem := Nat → Frame

/-- Writing through a pointer. -/
def Mem.write (m : Mem) (a : Nat) (f : Frame) : Mem := fun b => if b = a then f else m b

/-- What `slice` and `macroblock` can reach of the `VideoSequence` (`PicEnv`), with the pointers `frameStore.past` and
`frameStore.future` (video/frame_store.go:11-15). -/
structure HEnv where
  sh : SequenceHeader
  se : SequenceExtension
  ph : PictureHeader
  pce : PictureCodingExtension
  qm : QMatrices
  past : Option Nat
  future : Option Nat

/-- What the pointers point to now. -/
def HEnv.at (e : HEnv) (m : Mem) : PicEnv := ⟨e.sh, e.se, e.ph, e.pce, e.qm, e.past.map m, e.future.map m⟩

/-- The state of `slice` and `macroblock` (`MB`), with the pointer to the frame being built. -/
structure HMB where
  br : BR
  dcp : DcPred
  mvd : MVD
  qsc : Nat
  cur : Nat
  mem : Mem

def HMB.toMB (h : HMB) : MB := ⟨h.br, h.dcp, h.mvd, h.qsc, h.mem h.cur⟩

/-- Code that does not write to frames. -/
def HMB.run {α : Type} (m : PicEnv → Go MB α) (e : HEnv) : Go HMB α := fun h =>
  ((m (e.at h.mem) h.toMB).1,
    let s := (m (e.at h.mem) h.toMB).2
    { h with br := s.br, dcp := s.dcp, mvd := s.mvd, qsc := s.qsc })

/-- The three planes of `image.YCbCr`. -/
inductive Chan where
  | y | cb | cr

def Frame.get (f : Frame) : Chan → Plane
  | .y => f.y
  | .cb => f.cb
  | .cr => f.cr

def Frame.put (f : Frame) (p : Plane) : Chan → Frame
  | .y => { f with y := p }
  | .cb => { f with cb := p }
  | .cr => { f with cr := p }

/-- The row loops of `pframe_copy_macroblocks` (video/copy_macroblocks.go:12-16 and 25-30) for one plane: every row is
read from `src` and written to `cur` before the next one is read. -/
def hCopyRows (c : Chan) (cur src dbase dstride sbase sstride x w : Nat) : Nat → Nat → Mem → Option Mem
  | 0, _, m => some m
  | k + 1, v, m =>
    match ((m cur).get c).copyFrom ((m src).get c) (dbase + v * dstride + x) (sbase + v * sstride + x) w with
    | none => none
    | some d => hCopyRows c cur src dbase dstride sbase sstride x w k (v + 1) (m.write cur ((m cur).put d c))

/-- `pframe_copy_macroblocks` (video/copy_macroblocks.go:5-32); `src = none` is a nil pointer.  (The Cb and Cr copies
of one row alternate in the source; the planes are separate.) -/
def hPframeCopy (row col n cur : Nat) (src : Option Nat) (m : Mem) : Option Mem := do
  let s ← src
  let m ← hCopyRows .y cur s (16 * row * (m cur).yStride) (m cur).yStride (row * 16 * (m s).yStride) (m s).yStride
    (col * 16) (n * 16) 16 0 m
  let m ← hCopyRows .cb cur s (8 * row * (m cur).cStride) (m cur).cStride (row * 8 * (m s).cStride) (m s).cStride
    (col * 8) (n * 8) 8 0 m
  hCopyRows .cr cur s (8 * row * (m cur).cStride) (m cur).cStride (row * 8 * (m s).cStride) (m s).cStride
    (col * 8) (n * 8) 8 0 m

/-- Prediction, clamping and placement of one block (video/macroblock.go:163-165, video/copy_macroblocks.go:41-43): the
references are read, then the block is written. -/
def hFinishBlock (e : HEnv) (d : MVD) (b : Block) (i addr row : Nat) (interlaced : Bool) (cur : Nat) (m : Mem) : Option Mem :=
  (finishBlock (e.at m) d b i addr row interlaced (m cur)).map (m.write cur)

/-- The inner loop of `bframe_copy_macroblocks` (video/copy_macroblocks.go:39-44): blocks `6 - k` to 5. -/
def hBcopyBlocks (e : HEnv) (d : MVD) (addr row cur : Nat) : Nat → Mem → Option Mem
  | 0, m => some m
  | k + 1, m => (hFinishBlock e d Block.zero (5 - k) addr row false cur m).bind (hBcopyBlocks e d addr row cur k)

/-- `bframe_copy_macroblocks` (video/copy_macroblocks.go:34-46) -/
def hBframeCopy (e : HEnv) (d : MVD) (row cur : Nat) : Nat → Nat → Mem → Option Mem
  | _, 0, m => some m
  | addr, n + 1, m => (hBcopyBlocks e d addr row cur 6 m).bind (hBframeCopy e d row cur (addr + 1) n)

/-- The copies of skipped macroblocks (video/macroblock.go:46-62).  A panic is taken to leave the memory as it was: nobody
else has a pointer to the frame being built. -/
def hCopySkipped (e : HEnv) (row : Nat) (addr : Option Nat) (incr : Nat) : Go HMB Unit := fun h =>
  match addr with
  | none => (.ok (), h)
  | some a =>
    if 1 < incr then
      if e.ph.pictureCodingType = pFrame then
        match hPframeCopy row (a + 1) (incr - 1) h.cur e.past h.mem with
        | none => (.panic, h)
        | some m => (.ok (), { h with mem := m })
      else if e.ph.pictureCodingType = bFrame then
        match hBframeCopy e h.mvd row h.cur (a + 1) (incr - 1) h.mem with
        | none => (.panic, h)
        | some m => (.ok (), { h with mem := m })
      else (.ok (), h)
    else (.ok (), h)

/-- The block loop of `macroblock` (video/macroblock.go:150-166) from block `i` on. -/
def hMbBlocks (e : HEnv) (intra dctType : Bool) (coded : Nat → Bool) (addr row : Nat) : Nat → Nat → Block → Go HMB Unit
  | 0, _, _ => pure ()
  | k + 1, i, b => do
    let b' ← HMB.run (fun e => mbBlock e intra (coded i) i b) e
    let h ← Go.get
    let m ← orPanic (hFinishBlock e h.mvd b' i addr row dctType h.cur h.mem)
    Go.modify fun h => { h with mem := m }
    hMbBlocks e intra dctType coded addr row k (i + 1) b'

/-- The part of `macroblock` after the pattern is known (video/macroblock.go:134-168). -/
def hMbFinish (e : HEnv) (row newAddr : Nat) (md : Mode) (cbp : Nat) : Go HMB Nat := do
  hMbBlocks e md.type.intra md.dctType (patternCode cbp md.type.intra md.type.pattern) newAddr row
    (blockCount e.se.chromaFormat) 0 Block.zero
  pure newAddr

/-- Reading the pattern and the blocks (video/macroblock.go:126-168). -/
def hMbCoded (e : HEnv) (row newAddr : Nat) (md : Mode) : Go HMB Nat := fun h =>
  match HMB.run (fun e => MB.lift (codedBlockPattern e.se.chromaFormat)) e h with
  | (.ok cbp, h') => hMbFinish e row newAddr md cbp h'
  | (.err _, h') => (.ok 0, h')
  | (.panic, h') => (.panic, h')
  | (.hang, h') => (.hang, h')

/-- The pattern step (video/macroblock.go:126-132) and what follows. -/
def hMbPattern (e : HEnv) (row newAddr : Nat) (md : Mode) : Go HMB Nat :=
  if md.type.pattern then hMbCoded e row newAddr md else hMbFinish e row newAddr md 0

/-- `macroblock` (video/macroblock.go:18-169) -/
def hMacroblock (e : HEnv) (row : Nat) (addr : Option Nat) : Go HMB Nat := do
  let incr ← HMB.run (fun _ => MB.lift mbIncrement) e
  hCopySkipped e row addr incr
  HMB.run (fun e => skipResets e incr) e
  let md ← HMB.run (fun e => MB.lift (macroblockMode e)) e
  HMB.run (fun e => modeResets e md.type) e
  HMB.run (fun e => mbVectors e md) e
  hMbPattern e row (newAddress addr incr) md

/-- The macroblock loop of `slice` (video/slice.go:115-133) with fuel. -/
def hMbLoop (e : HEnv) (row : Nat) : Nat → Option Nat → Go HMB Unit
  | 0, _ => Go.hang
  | fuel + 1, addr => do
    let a ← hMacroblock e row addr
    let v ← HMB.run (fun _ => MB.lift (BR.peek 23)) e
    if v = 0 then pure () else hMbLoop e row fuel (some a)

/-- The macroblocks of a slice (video/slice.go:115-133) -/
def hMbLoopAll (e : HEnv) (row : Nat) : Go HMB Unit := fun h => hMbLoop e row (fuelOf h.br) none h

/-- `slice` (video/slice.go:17-136): the slices `frame.Y[..]` share the memory of the frame. -/
def hSlice (e : HEnv) : Go HMB Unit := do
  let code ← HMB.run (fun _ => MB.lift (BR.read 32)) e
  Go.check (isSlice code) .unexpectedStartCode
  let row := code % 256 - 1
  let h ← Go.get
  if (h.mem h.cur).y.len < 16 * row * (h.mem h.cur).yStride ∨ (h.mem h.cur).cb.len < 8 * row * (h.mem h.cur).cStride ∨
      (h.mem h.cur).cr.len < 8 * row * (h.mem h.cur).cStride then Go.panic
  else do
    let qsc ← HMB.run (fun e => MB.lift (sliceHeader e.sh.verticalSizeValue)) e
    Go.modify fun h => { h with dcp := DcPred.reset e.pce.intraDCPrecision, mvd := MVD.init, qsc := qsc }
    hMbLoopAll e row
    HMB.run (fun _ => MB.lift nextStartCode) e

/-- The slice loop of `picture_data` (video/picture_data.go:30-40) with fuel. -/
def hSliceLoop (e : HEnv) : Nat → Go HMB Unit
  | 0 => Go.hang
  | fuel + 1 => do
    hSlice e
    let v ← HMB.run (fun _ => MB.lift (BR.peek 32)) e
    if isSlice v then hSliceLoop e fuel else pure ()

/-! ### frame store -/

/-- video/frame_store.go:5-9 -/
structure HRef where
  frame : Nat
  temporalReference : Nat
  previousGOP : Bool

/-- video/frame_store.go:11-15 -/
structure HStore where
  f0 : Option HRef
  f1 : Option HRef
  past : Option Nat
  future : Option Nat

/-- `gop` (video/frame_store.go:17-20) -/
def HStore.markGOP (fs : HStore) : HStore :=
  { fs with
    f0 := fs.f0.map fun r => { r with previousGOP := true }
    f1 := fs.f1.map fun r => { r with previousGOP := true } }

/-- One round of the loop of `set` (video/frame_store.go:23-31). -/
def HStore.setOne (fs : HStore) (ref : Option HRef) (tr : Nat) : HStore :=
  match ref with
  | none => fs
  | some r =>
    if r.previousGOP = true ∨ r.temporalReference < tr then { fs with past := some r.frame }
    else { fs with future := some r.frame }

/-- `set` (video/frame_store.go:22-33) -/
def HStore.set (fs : HStore) (tr : Nat) : HStore := (fs.setOne fs.f0 tr).setOne fs.f1 tr

/-- `add` (video/frame_store.go:35-38) -/
def HStore.add (fs : HStore) (f : Nat) (tr : Nat) : HStore :=
  { fs with f0 := fs.f1, f1 := some ⟨f, tr, false⟩ }

/-- The test of `tryGet` for one slot. -/
def HRef.matches (r : Option HRef) (tr : Nat) : Option Nat :=
  match r with
  | none => none
  | some r => if r.previousGOP = false ∧ r.temporalReference = tr then some r.frame else none

/-- `tryGet` (video/frame_store.go:40-47) -/
def HStore.tryGet (fs : HStore) (tr : Nat) : Option Nat :=
  match HRef.matches fs.f0 tr with
  | some f => some f
  | none => HRef.matches fs.f1 tr

/-! ### frame provider -/

/-- `VideoSequence` (video/video_sequence.go:18-27), with the memory; `free` is the next address that `image.NewYCbCr`
returns. -/
structure HVS where
  br : BR
  sh : Option SequenceHeader
  se : Option SequenceExtension
  gop : Option GOPHeader
  ph : Option PictureHeader
  pce : Option PictureCodingExtension
  qm : QMatrices
  fs : HStore
  frameCounter : Nat
  mem : Mem
  free : Nat

/-- `NewVideoSequence` (video/video_sequence.go:29-33) -/
def HVS.new (br : BR) : HVS :=
  { br, sh := none, se := none, gop := none, ph := none, pce := none,
    qm := ⟨zeroMatrix, zeroMatrix, zeroMatrix, zeroMatrix⟩,
    fs := { f0 := none, f1 := none, past := none, future := none }, frameCounter := 0
    mem := fun _ => createFrameBuffer 0 0 0, free := 0 }

def HRef.at (r : HRef) (m : Mem) : RefFrame := ⟨m r.frame, r.temporalReference, r.previousGOP⟩
def HStore.at (fs : HStore) (m : Mem) : FrameStore :=
  ⟨fs.f0.map (HRef.at · m), fs.f1.map (HRef.at · m), fs.past.map m, fs.future.map m⟩

/-- What the pointers point to now. -/
def HVS.toVS (h : HVS) : VS := ⟨h.br, h.sh, h.se, h.gop, h.ph, h.pce, h.qm, h.fs.at h.mem, h.frameCounter⟩

/-- Code that does not touch the frame store. -/
def HVS.lift {α : Type} (m : Go VS α) : Go HVS α := fun h =>
  ((m h.toVS).1,
    let s := (m h.toVS).2
    { h with br := s.br, sh := s.sh, se := s.se, gop := s.gop, ph := s.ph, pce := s.pce, qm := s.qm,
             frameCounter := s.frameCounter })

/-- `picture_data` (video/picture_data.go:25-43): a new frame is allocated. -/
def hPictureData : Go HVS Nat := fun h =>
  match h.sh, h.se, h.ph, h.pce with
  | some sh, some se, some ph, some pce =>
    let e : HEnv := ⟨sh, se, ph, pce, h.qm, h.fs.past, h.fs.future⟩
    let f := createFrameBuffer h.toVS.size.1.toNat h.toVS.size.2.toNat se.chromaFormat
    let x : HMB := ⟨h.br, DcPred.reset pce.intraDCPrecision, MVD.init, 0, h.free, h.mem.write h.free f⟩
    match (do hSliceLoop e (fuelOf x.br); HMB.run (fun _ => MB.lift nextStartCode) e : Go HMB Unit) x with
    | (.ok _, x') => (.ok h.free, { h with br := x'.br, mem := x'.mem, free := h.free + 1 })
    | (.err y, x') => (.err y, { h with br := x'.br, mem := x'.mem, free := h.free + 1 })
    | (.panic, x') => (.panic, { h with br := x'.br, mem := x'.mem, free := h.free + 1 })
    | (.hang, x') => (.hang, { h with br := x'.br, mem := x'.mem, free := h.free + 1 })
  | _, _, _, _ => (.panic, h)

/-- The group of pictures header at `MORE_FRAMES` (video/frame_provider.go:49-62). -/
def hGroupHeader (fuel : Nat) : Go HVS Unit := do
  let v ← HVS.lift (VS.lift (BR.peek 32))
  Go.opt (v == groupStartCode) () do
    let g ← HVS.lift (VS.lift readGOPHeader)
    Go.modify fun h => { h with gop := some g, fs := h.fs.markGOP, frameCounter := 0 }
    HVS.lift (extensionAndUserData 1 fuel)

/-- The end of a picture (video/frame_provider.go:76-86). -/
def hPictureStep : Go HVS Nat := do
  let h ← Go.get
  match h.ph with
  | none => Go.panic
  | some ph =>
    Go.modify fun h => { h with fs := h.fs.set ph.temporalReference }
    let f ← hPictureData
    Go.modify fun h =>
      if ph.pictureCodingType = iFrame ∨ ph.pictureCodingType = pFrame then
        { h with fs := h.fs.add f ph.temporalReference }
      else h
    pure f

/-- From `MORE_FRAMES` (video/frame_provider.go:47-86) -/
def hMoreFrames (fuel : Nat) : Go HVS Nat := do
  hGroupHeader fuel
  HVS.lift pictureHeader
  HVS.lift pictureCodingExtension
  HVS.lift (extensionAndUserData 2 fuel)
  hPictureStep

/-- From `CONTINUE` (video/frame_provider.go:41-45) -/
def hContinueFrames (fuel : Nat) : Go HVS Nat := do
  HVS.lift (extensionAndUserData 0 fuel)
  hMoreFrames fuel

/-- From `RESUME` (video/frame_provider.go:88-120) -/
def hResume (fuel : Nat) : Go HVS Nat := do
  let v ← HVS.lift (VS.lift (BR.peek 32))
  if v = pictureStartCode ∨ v = groupStartCode then hMoreFrames fuel
  else if v = sequenceEndStartCode then do
    HVS.lift (VS.lift (BR.skip 32))
    Go.throw .eos
  else do
    HVS.lift sequenceHeader
    HVS.lift sequenceExtension
    hContinueFrames fuel

/-- The first step (video/frame_provider.go:19-39) -/
def hStart (fuel : Nat) : Go HVS Nat := do
  HVS.lift (VS.lift nextStartCode)
  HVS.lift sequenceHeader
  let v ← HVS.lift (VS.lift (BR.peek 32))
  Go.check (v == extensionStartCode) .unsupported11172
  HVS.lift sequenceExtension
  hContinueFrames fuel

/-- `step` (video/frame_provider.go:13-120); fuel for the extension loops. -/
def hStep (fuel : Nat) : Go HVS Nat := fun h =>
  if h.sh.isSome then hResume fuel h else hStart fuel h

/-- `self.frameCounter++` on a `uint32` -/
def HVS.count (h : HVS) : HVS := { h with frameCounter := (h.frameCounter + 1) % 2 ^ 32 }

/-- The loop of `Next` (video/video_sequence.go:91-98) with fuel. -/
def hNextLoop (fuel : Nat) : Nat → Go HVS Nat
  | 0 => Go.hang
  | k + 1 => do
    let f ← hStep fuel
    let h ← Go.get
    match h.ph with
    | none => Go.panic
    | some ph =>
      if ph.temporalReference = h.frameCounter then do
        Go.modify HVS.count
        pure f
      else hNextLoop fuel k

/-- `Next` (video/video_sequence.go:83-99): the pointer it returns. -/
def HVS.next (fuel k : Nat) : Go HVS Nat := fun h =>
  match h.fs.tryGet h.frameCounter with
  | some f => (.ok f, h.count)
  | none => hNextLoop fuel k h

end Mpeg.Video
