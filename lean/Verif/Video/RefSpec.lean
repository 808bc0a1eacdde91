/-
A reference decoder for macroblocks, slices and pictures of progressive (frame predicted) 4:2:0 video, written on
pixels and syntax elements, after ISO 13818-2 6.3.17 and 7.2 to 7.6.

It follows the standard except for two roundings that `C56_iso_false` and `C56_chroma_iso_false` show to differ in the
source (the mean of neighbouring samples and the halving of chroma vectors), which are those of `interpolate` and
`blockVec`; and the inverse DCT, which is the fixed point transform of the source (property C51).
-/
import Verif.Video.MbSpec
import Verif.Video.FrameSpec
import Verif.Video.BlockSpec
import Verif.Video.MacroblockModel
namespace Mpeg.Video.Spec

/-! ### pictures -/

/-- A picture: component (0 luma, 1 and 2 chroma), column, line. -/
abbrev Image := Nat → Nat → Nat → Nat

/-- The side of a macroblock in component `c`. -/
def side (c : Nat) : Nat := if c = 0 then 16 else 8

/-- The sample of a frame buffer. -/
def sampleOf (f : Frame) (c x y : Nat) : Nat := if c = 0 then pixY f x y else if c = 1 then pixCb f x y else pixCr f x y

/-- The frame buffer `f` of `W × H` macroblocks shows the picture `P`. -/
def Shows (W H : Nat) (f : Frame) (P : Image) : Prop :=
  Geometry f W H ∧ ∀ c x y, c < 3 → x < side c * W → y < side c * H → sampleOf f c x y = P c x y

/-! ### prediction -/

/-- A vector component in half samples of component `c`. -/
def compVec (c : Nat) (m : Int) : Int := if c = 0 then m else m / 2

/-- The prediction of pixel `(x, y)` of component `c` from `P` with vector `(h, v)`. -/
def predictAt (P : Image) (h v : Int) (c x y : Nat) : Nat :=
  interpolate (P c) ((x : Int) + compVec c h / 2).toNat ((y : Int) + compVec c v / 2).toNat
    (compVec c h % 2 = 1) (compVec c v % 2 = 1)

/-- No prediction, one, or the mean of two. -/
def blend : Option Nat → Option Nat → Nat
  | none, none => 0
  | some a, none => a
  | none, some b => b
  | some a, some b => (a + b) / 2

/-! ### state of a slice -/

structure DState where
  pic : Image
  /-- DC predictors of the components -/
  dc : Nat → Int
  /-- vectors: forward (0) or backward (1); horizontal (0) or vertical (1) -/
  vec : Nat → Nat → Int
  /-- directions of the last macroblock -/
  fwd : Bool
  bwd : Bool
  qsc : Nat

/-- The reset value of the DC predictors (Table 7-2). -/
def dcReset (precision : Nat) : Nat → Int := fun _ => 2 ^ (7 + precision)

/-- The pictures that the picture being decoded is predicted from. -/
structure RefPics where
  past : Option Image
  future : Option Image

/-- The prediction of a pixel with the directions and vectors of `d`. -/
def DState.predicted (d : DState) (r : RefPics) (c x y : Nat) : Nat :=
  blend (if d.fwd then r.past.map fun P => predictAt P (d.vec 0 0) (d.vec 0 1) c x y else none)
    (if d.bwd then r.future.map fun P => predictAt P (d.vec 1 0) (d.vec 1 1) c x y else none)

/-! ### syntax elements of a macroblock -/

structure MbData where
  /-- address increment -/
  incr : Nat
  type : MacroblockType
  /-- dct_type: field DCT -/
  dct : Bool
  /-- quantiser_scale_code, if `type.quant` -/
  q : Nat
  /-- the vectors of the directions in use -/
  vec : Nat → Nat → Int
  cbp : Nat
  /-- quantised coefficients of the coded blocks in scan order; the first of an intra block is the DC value -/
  qf : Nat → List Int

/-- Block `i` is coded. -/
def MbData.coded (m : MbData) (i : Nat) : Bool := m.type.intra || (m.type.pattern && codedBlock m.cbp i)

/-- The component of block `i`. -/
def blockComp (i : Nat) : Nat := if i < 4 then 0 else i - 3

/-- The DC predictors before block `i` of an intra macroblock. -/
def MbData.dcBefore (m : MbData) (dc : Nat → Int) : Nat → Nat → Int
  | 0 => dc
  | i + 1 => fun c => if c = blockComp i then (m.qf i).getD 0 0 else m.dcBefore dc i c

/-- Position in scan order of raster position `i` (7.3). -/
def scanPos (alternate i : Nat) : Nat :=
  if alternate = 0 then zigzagPos (i / 8) (i % 8) else alternateOrder.idxOf i

/-- The 64 coefficients of a block after inverse scan, inverse quantisation, saturation and mismatch control. -/
def coefficients (e : PicEnv) (qsc : Nat) (intra : Bool) (qf : List Int) : List Int :=
  isoDequant intra (isoDcMult e.pce.intraDCPrecision) (isoScale e.pce.qScaleType qsc)
    (if intra then e.qm.m0 else e.qm.m1)
    ((List.range 64).map fun i => qf.getD (scanPos e.pce.alternateScan i) 0)

/-- The decoded difference of block `i` at position `k`. -/
def MbData.residual (m : MbData) (e : PicEnv) (qsc i k : Nat) : Int :=
  if m.coded i then idct (fun j => (coefficients e qsc m.type.intra (m.qf i)).getD j 0) k else 0

/-- The block and the position in it of pixel `(x, y)` of component `c`. -/
def blockAt (dct : Bool) (c x y : Nat) : Nat := if c = 0 then lumaBlock dct (x % 16) (y % 16) else c + 3
def indexAt (dct : Bool) (c x y : Nat) : Nat :=
  if c = 0 then lumaIndex dct (x % 16) (y % 16) else 8 * (y % 8) + x % 8

/-- The nearest sample value. -/
def clip (x : Int) : Nat := (max 0 (min 255 x)).toNat

/-! ### the reference decoder -/

/-- The picture after the `n` macroblocks following macroblock `a` are skipped: copies of the past picture in P
pictures, predictions like that of macroblock `a` in B pictures. -/
def DState.skipPic (d : DState) (pct : Nat) (r : RefPics) (row a n : Nat) : Image := fun c x y =>
  if inRun (side c) row (a + 1) n x y then
    if pct = 2 then (r.past.map fun P => P c x y).getD 0
    else if pct = 3 then d.predicted r c x y
    else d.pic c x y
  else d.pic c x y

/-- Skipped macroblocks; `a` is the address of the previous macroblock, none at the start of a slice. -/
def DState.skip (d : DState) (e : PicEnv) (r : RefPics) (row : Nat) (a : Option Nat) (incr : Nat) : DState :=
  if incr ≤ 1 then d
  else
    { d with
      pic := match a with
        | none => d.pic
        | some a => d.skipPic e.ph.pictureCodingType r row a (incr - 1)
      dc := dcReset e.pce.intraDCPrecision
      vec := if e.ph.pictureCodingType = 2 then fun _ _ => 0 else d.vec }

/-- The resets by the macroblock type (7.2.1, 7.6.3.4): DC predictors at a non-intra macroblock, vectors at an intra
macroblock without concealment vectors and at a non-intra macroblock without forward vector in a P picture. -/
def DState.begin (d : DState) (e : PicEnv) (t : MacroblockType) : DState :=
  { d with
    dc := if t.intra then d.dc else dcReset e.pce.intraDCPrecision
    vec := if (t.intra = true ∧ e.pce.concealmentMotionVectors = false) ∨
        (t.intra = false ∧ e.ph.pictureCodingType = 2 ∧ t.forward = false) then fun _ _ => 0 else d.vec }

/-- An intra macroblock with a concealment vector (6.3.10). -/
def conceals (e : PicEnv) (t : MacroblockType) : Bool := t.intra && e.pce.concealmentMotionVectors

/-- Does macroblock type `t` carry vectors of direction `s`?  (6.2.5) -/
def hasVec (e : PicEnv) (t : MacroblockType) (s : Nat) : Bool := if s = 0 then t.forward || conceals e t else t.backward

/-- Quantiser scale, vectors and directions of the macroblock. -/
def DState.param (d : DState) (e : PicEnv) (m : MbData) : DState :=
  { d with
    qsc := if m.type.quant then m.q else d.qsc
    vec := fun s t => if hasVec e m.type s then m.vec s t else d.vec s t
    fwd := !m.type.intra && (e.ph.pictureCodingType == 2 || m.type.forward)
    bwd := !m.type.intra && m.type.backward }

/-- The pixels of the macroblock at (row, a): difference plus prediction. -/
def DState.recon (d : DState) (e : PicEnv) (r : RefPics) (row a : Nat) (m : MbData) : DState :=
  { d with
    pic := fun c x y =>
      if inMB (side c) row a x y then
        clip (m.residual e d.qsc (blockAt m.dct c x y) (indexAt m.dct c x y) + d.predicted r c x y)
      else d.pic c x y
    dc := if m.type.intra then m.dcBefore d.dc 6 else d.dc }

/-- The address of the macroblock. -/
def addrAfter (a : Option Nat) (incr : Nat) : Nat :=
  match a with
  | none => incr - 1
  | some a => a + incr

/-- One macroblock. -/
def DState.mb (d : DState) (e : PicEnv) (r : RefPics) (row : Nat) (a : Option Nat) (m : MbData) : DState :=
  (((d.skip e r row a m.incr).begin e m.type).param e m).recon e r row (addrAfter a m.incr) m

/-! ### coding of a macroblock (6.2.5) -/

/-- Tables B.2 to B.4. -/
def isoType (pct : Nat) : List (List Bool × MacroblockType) :=
  if pct = 1 then isoTypeI else if pct = 2 then isoTypeP else if pct = 3 then isoTypeB else []

/-- frame_motion_type (frame based) and dct_type, present when frame_pred_frame_dct is 0. -/
def modeBits (framePredFrameDCT : Nat) (m : MbData) : List Bool :=
  if framePredFrameDCT = 0 then
    (if m.type.forward || m.type.backward then [true, false] else []) ++
    (if m.type.intra || m.type.pattern then [m.dct] else [])
  else []

/-- The bits of the blocks from `i` on, `k` of them. -/
def concatFrom (bits : Nat → List Bool) : Nat → Nat → List Bool
  | _, 0 => []
  | i, k + 1 => bits i ++ concatFrom bits (i + 1) k

/-- A coding of macroblock `m` in state `d` (after the resets). -/
structure MbCode (e : PicEnv) (d : DState) (m : MbData) where
  k : Nat
  v : Nat
  addr : List Bool
  type : List Bool
  vecs : Nat → Nat → List Bool
  pattern : List Bool
  blocks : Nat → List Bool
  hIncr : m.incr = 33 * k + v
  hAddr : (addr, v) ∈ isoAddress
  hType : (type, m.type) ∈ isoType e.ph.pictureCodingType
  /-- dct_type is 0 when it is not coded -/
  hDct : m.dct = true → e.pce.framePredFrameDCT = 0 ∧ (m.type.intra || m.type.pattern) = true
  hQ : m.q < 32
  hVec : ∀ s t, s < 2 → t < 2 → hasVec e m.type s = true → mvLegal (e.pce.fCode s t) (m.vec s t) ∧
    MvBits (e.pce.fCode s t) (mvDifference (e.pce.fCode s t) (d.vec s t) (m.vec s t)) (vecs s t)
  hPattern : m.type.pattern = true → (pattern, m.cbp) ∈ isoCbp
  hCoded : ∀ i, i < 6 → m.coded i = true →
    BlockCode m.type.intra e.pce.intraVLCFormat (blockComp i) (m.dcBefore d.dc i (blockComp i)) (m.qf i) (blocks i)
  hUncoded : ∀ i, i < 6 → m.coded i = false → blocks i = []
  /-- DC values, far beyond the legal ones -/
  hDc : ∀ i, i < 6 → m.type.intra = true → -2 ^ 28 ≤ (m.qf i).getD 0 0 ∧ (m.qf i).getD 0 0 < 2 ^ 28

/-- The marker bit after a concealment vector. -/
def concealMarker (e : PicEnv) (m : MbData) : List Bool := if conceals e m.type then [true] else []

/-- The vectors of direction `s`. -/
def MbCode.vecBits {e : PicEnv} {d : DState} {m : MbData} (c : MbCode e d m) (s : Nat) : List Bool :=
  if hasVec e m.type s then c.vecs s 0 ++ c.vecs s 1 else []

def MbCode.bits {e : PicEnv} {d : DState} {m : MbData} (c : MbCode e d m) : List Bool :=
  escapes c.k ++ (c.addr ++ (c.type ++ (modeBits e.pce.framePredFrameDCT m ++
    ((if m.type.quant then bitsOf 5 m.q else []) ++ (c.vecBits 0 ++ (c.vecBits 1 ++
    (concealMarker e m ++ ((if m.type.pattern then c.pattern else []) ++ concatFrom c.blocks 0 6))))))))

end Mpeg.Video.Spec
