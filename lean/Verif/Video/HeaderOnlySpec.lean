/-
What of a picture may decide when it is returned.
-/
import Verif.Video.OrderSpec
namespace Mpeg.Video.Spec

/-- Whether a header of a group of pictures precedes, whether the picture is a reference picture, and its temporal reference. -/
def heading (p : Pict) : Bool × Bool × Nat := (p.newGop, p.kind == 1 || p.kind == 2, p.tr)

/-- The frame of the `i`-th picture in the order of coding. -/
def frameAt (ps : List Pict) (i : Nat) : Option Frame := (ps[i]?).map fun p => p.frame

end Mpeg.Video.Spec
