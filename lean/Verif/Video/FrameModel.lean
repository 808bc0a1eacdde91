/-
Model of the sample operations: block placement, copies of skipped macroblocks, motion compensation.
A result `none` is a run-time panic (index or slice bounds, nil frame).
-/
import Verif.Video.BlockModel
namespace Mpeg.Video

/-- `channel[i]` -/
def Plane.at? (p : Plane) (i : Int) : Option Int :=
  if 0 ≤ i ∧ i < p.len then some (p.data i.toNat : Nat) else none

/-- `copy(channel[off:off+n], src)` with `n` source samples `src 0 .. src (n-1)`.  The planes of `image.NewYCbCr` have
equal length and capacity, so an end beyond the length panics. -/
def Plane.write (p : Plane) (off n : Nat) (src : Nat → Nat) : Option Plane :=
  if off + n ≤ p.len then
    some { p with data := fun i => if off ≤ i ∧ i < off + n then src (i - off) else p.data i }
  else none

/-- The copy loop of `updateFrameSlice` (video/macroblock.go:238-242) from row `y` on, `k` rows left. -/
def writeRows (base stride : Nat) (cb : Nat → Nat) : Nat → Nat → Plane → Option Plane
  | 0, _, p => some p
  | k + 1, y, p =>
    match p.write (base + y * stride) 8 (fun x => cb (y * 8 + x)) with
    | none => none
    | some p' => writeRows base stride cb k (y + 1) p'

/-- `updateFrameSlice` (video/macroblock.go:171-244).  The slice `frame.Y[16*mb_row*stride:]` of video/slice.go:42-49
is represented by adding its start to the offsets; a block number above 5 selects a nil channel and panics. -/
def updateFrame (i addr row : Nat) (interlaced : Bool) (f : Frame) (cb : Nat → Nat) : Option Frame :=
  if i < 4 then
    let base := 16 * row * f.yStride + addr * 16 + (i % 2) * 8 +
      (if interlaced then (i / 2 % 2) * f.yStride else (i / 2 % 2) * 8 * f.yStride)
    let stride := if interlaced then f.yStride * 2 else f.yStride
    (writeRows base stride cb 8 0 f.y).map fun p => { f with y := p }
  else if i = 4 then
    (writeRows (8 * row * f.cStride + addr * 8) f.cStride cb 8 0 f.cb).map fun p => { f with cb := p }
  else if i = 5 then
    (writeRows (8 * row * f.cStride + addr * 8) f.cStride cb 8 0 f.cr).map fun p => { f with cr := p }
  else none

/-- One `copy(dest[di:di+w], src[si:si+w])` of `pframe_copy_macroblocks`. -/
def Plane.copyFrom (d s : Plane) (di si w : Nat) : Option Plane :=
  if si + w ≤ s.len then d.write di w (fun k => s.data (si + k)) else none

/-- The row loops of `pframe_copy_macroblocks` (video/copy_macroblocks.go:12-16 and 25-30) for one plane: rows `v`,
`v+1`, ... (`k` of them) of width `w` at column `x`; the destination slice starts at `dbase`. -/
def copyRows (dbase dstride sbase sstride x w : Nat) (s : Plane) : Nat → Nat → Plane → Option Plane
  | 0, _, d => some d
  | k + 1, v, d =>
    match d.copyFrom s (dbase + v * dstride + x) (sbase + v * sstride + x) w with
    | none => none
    | some d' => copyRows dbase dstride sbase sstride x w s k (v + 1) d'

/-- `pframe_copy_macroblocks` (video/copy_macroblocks.go:5-32); `src = none` is a nil pointer.  (The Cb and Cr copies
of one row alternate in the source; the planes are separate.) -/
def pframeCopy (row col n : Nat) (dest : Frame) (src : Option Frame) : Option Frame :=
  match src with
  | none => none
  | some s =>
    match copyRows (16 * row * dest.yStride) dest.yStride (row * 16 * s.yStride) s.yStride (col * 16) (n * 16)
        s.y 16 0 dest.y,
      copyRows (8 * row * dest.cStride) dest.cStride (row * 8 * s.cStride) s.cStride (col * 8) (n * 8)
        s.cb 8 0 dest.cb,
      copyRows (8 * row * dest.cStride) dest.cStride (row * 8 * s.cStride) s.cStride (col * 8) (n * 8)
        s.cr 8 0 dest.cr with
    | some y, some cb, some cr => some { dest with y := y, cb := cb, cr := cr }
    | _, _, _ => none

/-! ### motion compensation -/

/-- A vector: horizontal and vertical component. -/
structure Vec where
  h : Int
  v : Int
deriving DecidableEq, Repr, Inhabited

/-- The plane and stride used for block `i` (video/motion_compensation.go:41-59, 83-100); none: a nil channel. -/
def Frame.plane (f : Frame) (i : Nat) : Option (Plane × Nat) :=
  if i < 4 then some (f.y, f.yStride) else if i = 4 then some (f.cb, f.cStride)
  else if i = 5 then some (f.cr, f.cStride) else none

/-- The vector scaled for block `i` (video/motion_compensation.go:27-32, 69-74): halved with `>> 1` for chroma. -/
def Vec.scaled (m : Vec) (i : Nat) : Vec := if i = 4 ∨ i = 5 then ⟨m.h / 2, m.v / 2⟩ else m

/-- The index of the first sample (video/motion_compensation.go:36-37, 51-62, 78-79, 93-103). -/
def mcIndex (stride i row addr : Nat) (m : Vec) : Int :=
  let base : Nat := if i < 4 then (row * 16 + (i / 2 % 2) * 8) * stride + addr * 16 + (i % 2) * 8
    else row * 8 * stride + addr * 8
  (base : Int) + ((m.scaled i).v / 2) * stride + (m.scaled i).h / 2

/-- One predicted sample (video/motion_compensation.go:111-128, 131-150): index `k`, half sample flags. -/
def mcSample (p : Plane) (stride : Nat) (k : Int) (hHalf vHalf : Bool) : Option Int :=
  match hHalf, vHalf with
  | false, false => p.at? k
  | true, false => do
    let a ← p.at? k
    let b ← p.at? (k + 1)
    pure ((a + b) / 2)
  | false, true => do
    let a ← p.at? k
    let b ← p.at? (k + stride)
    pure ((a + b) / 2)
  | true, true => do
    let a ← p.at? k
    let b ← p.at? (k + 1)
    let c ← p.at? (k + stride)
    let d ← p.at? (k + stride + 1)
    pure ((a + b + c + d) / 4)

/-- The prediction of sample `(v, u)` of block `i` from one reference frame. -/
def mcPredict (f : Frame) (i row addr : Nat) (m : Vec) (v u : Nat) : Option Int := do
  let ps ← f.plane i
  mcSample ps.1 ps.2 (mcIndex ps.2 i row addr m + v * ps.2 + u) ((m.scaled i).h % 2 = 1) ((m.scaled i).v % 2 = 1)

/-- `pel` for sample `(v, u)` (video/motion_compensation.go:108-152): the sum of the active predictions, halved when
there are two.  With none active Go shifts zero by `2^64 - 1`, which is zero. -/
def mcPel (fwd bwd : Option (Frame × Vec)) (i row addr v u : Nat) : Option Int :=
  match fwd, bwd with
  | none, none => some 0
  | some f, none => mcPredict f.1 i row addr f.2 v u
  | none, some b => mcPredict b.1 i row addr b.2 v u
  | some f, some b => do
    let x ← mcPredict f.1 i row addr f.2 v u
    let y ← mcPredict b.1 i row addr b.2 v u
    pure ((x + y) / 2)

/-- The first `n` elements of a list of results, or a panic. -/
def optAll : Nat → (Nat → Option Int) → Option (Nat → Int)
  | 0, _ => some fun _ => 0
  | n + 1, f =>
    match optAll n f, f n with
    | some g, some x => some fun i => if i = n then x else g i
    | _, _ => none

/-- `block.motion_compensation` (video/motion_compensation.go:12-155); `fwd`/`bwd` are the active references with
their vectors.  The sums stay far below `2 ^ 31`. -/
def motionCompensation (b : Block) (fwd bwd : Option (Frame × Vec)) (i row addr : Nat) : Option Block :=
  (optAll 64 fun k => mcPel fwd bwd i row addr (k / 8) (k % 8)).map fun p k => b k + p k

end Mpeg.Video
