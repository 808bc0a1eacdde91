/-
Specification of pictures as pixel arrays: coordinates, placement of blocks, copies, predictions.
-/
import Verif.Video.HeaderModel
namespace Mpeg.Video.Spec

/-- A 4:2:0 frame of `W × H` macroblocks. -/
structure Geometry (f : Frame) (W H : Nat) : Prop where
  yStride : f.yStride = 16 * W
  cStride : f.cStride = 8 * W
  yLen : f.y.len = 16 * W * (16 * H)
  cbLen : f.cb.len = 8 * W * (8 * H)
  crLen : f.cr.len = 8 * W * (8 * H)

/-- The samples at column `x`, line `y` of the three components. -/
def pixY (f : Frame) (x y : Nat) : Nat := f.y.data (y * f.yStride + x)
def pixCb (f : Frame) (x y : Nat) : Nat := f.cb.data (y * f.cStride + x)
def pixCr (f : Frame) (x y : Nat) : Nat := f.cr.data (y * f.cStride + x)

/-- The luma block of a macroblock that holds column `x`, line `y` (0..15), ISO 13818-2 6.1.3: in frame DCT coding the
upper two blocks are the upper eight lines; in field DCT coding they are the even lines. -/
def lumaBlock (field : Bool) (x y : Nat) : Nat :=
  if field then 2 * (y % 2) + x / 8 else 2 * (y / 8) + x / 8

/-- The position within that block (eight samples per line). -/
def lumaIndex (field : Bool) (x y : Nat) : Nat :=
  if field then 8 * (y / 2) + x % 8 else 8 * (y % 8) + x % 8

/-- Does pixel `(x, y)` of a component whose macroblocks are `m × m` belong to macroblock (row, addr)? -/
def inMB (m row addr x y : Nat) : Prop := x / m = addr ∧ y / m = row
instance (m row addr x y : Nat) : Decidable (inMB m row addr x y) := by unfold inMB; infer_instance

/-- Does it belong to one of the `n` macroblocks of the row from `col` on? -/
def inRun (m row col n x y : Nat) : Prop := col ≤ x / m ∧ x / m < col + n ∧ y / m = row
instance (m row col n x y : Nat) : Decidable (inRun m row col n x y) := by unfold inRun; infer_instance

/-- `floor` mean of the sample at `(x, y)` and its right / lower / three neighbours, by half sample flags. -/
def interpolate (p : Nat → Nat → Nat) (x y : Nat) (hHalf vHalf : Bool) : Nat :=
  match hHalf, vHalf with
  | false, false => p x y
  | true, false => (p x y + p (x + 1) y) / 2
  | false, true => (p x y + p x (y + 1)) / 2
  | true, true => (p x y + p (x + 1) y + p x (y + 1) + p (x + 1) (y + 1)) / 4

/-- The same with the rounding of ISO 13818-2 7.6.4: `//`, halves upwards. -/
def isoInterpolate (p : Nat → Nat → Nat) (x y : Nat) (hHalf vHalf : Bool) : Nat :=
  match hHalf, vHalf with
  | false, false => p x y
  | true, false => (p x y + p (x + 1) y + 1) / 2
  | false, true => (p x y + p x (y + 1) + 1) / 2
  | true, true => (p x y + p (x + 1) y + p x (y + 1) + p (x + 1) (y + 1) + 2) / 4

/-- Position of block `i` of macroblock (row, addr) in its component, and the size of that component. -/
def blockX (i addr : Nat) : Nat := if i < 4 then 16 * addr + 8 * (i % 2) else 8 * addr
def blockY (i row : Nat) : Nat := if i < 4 then 16 * row + 8 * (i / 2) else 8 * row
def compSize (i n : Nat) : Nat := if i < 4 then 16 * n else 8 * n

/-- The component that holds block `i`. -/
def pix (f : Frame) (i x y : Nat) : Nat :=
  if i < 4 then pixY f x y else if i = 4 then pixCb f x y else pixCr f x y

/-- A vector component for block `i`, in half samples of its component: chroma components have half the resolution. -/
def blockVec (i : Nat) (m : Int) : Int := if i < 4 then m else m / 2

/-- A vector component is inside for an interval of `n` samples from `b` on in a component of size `s`: all samples
read at integer and half positions exist. -/
def inside (b n s : Nat) (m : Int) : Prop := 0 ≤ (b : Int) + m / 2 ∧ (b : Int) + n + m / 2 + m % 2 ≤ s

/-- The prediction of sample `(u, v)` of block `i` of macroblock (row, addr) with vector `(h, w)`. -/
def predict (f : Frame) (i row addr : Nat) (h w : Int) (u v : Nat) : Nat :=
  interpolate (pix f i) ((blockX i addr : Int) + u + blockVec i h / 2).toNat
    ((blockY i row : Int) + v + blockVec i w / 2).toNat (blockVec i h % 2 = 1) (blockVec i w % 2 = 1)

/-- All samples are bytes. -/
def Bytes (f : Frame) : Prop := ∀ i, f.y.data i ≤ 255 ∧ f.cb.data i ≤ 255 ∧ f.cr.data i ≤ 255

end Mpeg.Video.Spec
