/-
What the pictures that `Next` returns look like: strides, sizes of the planes, samples.
-/
import Verif.Video.MacroblockModel
namespace Mpeg.Video.Spec

/-- The number of macroblocks that cover `n` samples. -/
def mbCount (n : Nat) : Nat := (n + 15) / 16

/-- An `image.YCbCr` for a picture of `w × h` luma samples whose macroblocks have `c × c` samples of each chroma component:
the planes cover whole macroblocks, and every sample is a byte. -/
structure WellFormed (w h c : Nat) (f : Frame) : Prop where
  yStride : f.yStride = 16 * mbCount w
  cStride : f.cStride = c * mbCount w
  yLen : f.y.len = 16 * mbCount w * (16 * mbCount h)
  cbLen : f.cb.len = c * mbCount w * (c * mbCount h)
  crLen : f.cr.len = c * mbCount w * (c * mbCount h)
  yByte : ∀ i < f.y.len, f.y.data i ≤ 255
  cbByte : ∀ i < f.cb.len, f.cb.data i ≤ 255
  crByte : ∀ i < f.cr.len, f.cr.data i ≤ 255

/-- The states of a decoder in use: a new one, one on which `Next` has returned, and one whose bit reader has been moved or
exchanged by other means (`VideoSequence` embeds the bit reader, so its methods are available to everybody). -/
inductive Used : VS → Prop
  | new (br : BR) : Used (VS.new br)
  | next {s s' : VS} {r : Res Frame} (fuel k : Nat) (h : Used s) (hn : VS.next fuel k s = (r, s')) : Used s'
  | reader {s : VS} (br : BR) (h : Used s) : Used { s with br := br }

end Mpeg.Video.Spec
