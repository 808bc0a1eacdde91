/-
Groups of pictures of which pictures are missing, independent of the frame store.
-/
import Verif.Video.OrderSpec
namespace Mpeg.Video.Spec

/-- What the headers say about a picture: its coding type and its temporal reference. -/
def Pict.header (p : Pict) : Nat × Nat := (p.kind, p.tr)

/-- What is left of a group of pictures after any of its pictures were lost, but not all of them, and not the group of
pictures header: the headers of the pictures are those of a legal group of at most 1024 pictures, in coding order, with
gaps. -/
structure Damaged (ps : List Pict) : Prop where
  head : ∃ p rest, ps = p :: rest ∧ p.newGop = true ∧ ∀ q ∈ rest, q.newGop = false
  order : ∃ gs, LegalFrom 0 gs ∧ (display gs).length ≤ 1024 ∧ (ps.map Pict.header).Sublist ((coded gs).map Pict.header)

/-- `l` holds the frames of the pictures with the temporal references 0, 1, 2, … up to the first one that is missing. -/
def Shown (ps : List Pict) (l : List Frame) : Prop :=
  (∀ i (h : i < l.length), ∃ p ∈ ps, p.tr = i ∧ p.frame = l[i]) ∧ ∀ p ∈ ps, p.tr ≠ l.length

end Mpeg.Video.Spec
