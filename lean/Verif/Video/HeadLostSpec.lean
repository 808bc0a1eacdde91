/-
Streams in which headers of groups of pictures are missing, independent of the frame store.
-/
import Verif.Video.OrderSpec
namespace Mpeg.Video.Spec

/-- A group of pictures with its header, and the groups of pictures behind it that have lost theirs. -/
structure Cluster where
  headed : List Group
  bare : List (List Group)

/-- all groups of a cluster -/
def Cluster.all (c : Cluster) : List (List Group) := c.headed :: c.bare
/-- the pictures in coding order -/
def Cluster.coded (c : Cluster) : List Pict := c.all.flatMap Spec.coded

/-- No picture is missing, only headers are. -/
structure Cluster.Legal (c : Cluster) : Prop where
  headed : LegalGop c.headed
  bare : ∀ gs ∈ c.bare, LegalFrom 0 gs
  short : Short c.all

/-- Of every group of pictures the frames from position `n` on (in display order), where `n` is the number of pictures of the longest of the
groups of pictures before it (at least the `n` one begins with). -/
def beyond : Nat → List (List Group) → List Frame
  | _, [] => []
  | n, gs :: rest => ((display gs).drop n).map (·.frame) ++ beyond (max n (display gs).length) rest

end Mpeg.Video.Spec
