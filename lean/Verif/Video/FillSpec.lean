/-
Counting the samples of a frame.
-/
import Verif.Video.MacroblockModel
namespace Mpeg.Video.Spec

/-- Samples of a plane that are not 0. -/
def Plane.nonzero (p : Plane) : Nat := (List.range p.len).countP fun i => p.data i != 0

/-- Samples of a frame, of all three components, that are not 0. -/
def nonzero (f : Frame) : Nat := Plane.nonzero f.y + Plane.nonzero f.cb + Plane.nonzero f.cr

end Mpeg.Video.Spec
