/-
What it means for a frame to be near an image; sizes.
-/
import Verif.Video.RefSpec
import Verif.Video.ShapeSpec
namespace Mpeg.Video.Spec

/-- All samples of the image are 8-bit values. -/
def EightBit (P : Image) : Prop := ∀ c x y, P c x y ≤ 255

/-- The frame of `W × H` macroblocks is the image up to `d` levels in every sample of every component. -/
def NearImage (d W H : Nat) (f : Frame) (P : Image) : Prop :=
  Geometry f W H ∧ ∀ c x y, c < 3 → x < side c * W → y < side c * H →
    sampleOf f c x y ≤ P c x y + d ∧ P c x y ≤ sampleOf f c x y + d

end Mpeg.Video.Spec
