/-
Pictures in any order, legal or not, and the frames that may be returned of them; independent of the frame store.
-/
import Verif.Video.OrderSpec
namespace Mpeg.Video.Spec

/-- The picture joins the first group. -/
def joinFirst (p : Pict) : List (List Pict) → List (List Pict)
  | [] => [[p]]
  | g :: gs => (p :: g) :: gs

/-- The pictures before the first header of a group of pictures, and the groups of pictures with header. -/
def cutGops : List Pict → List (List Pict)
  | [] => [[]]
  | p :: ps => if p.newGop then [] :: joinFirst p (cutGops ps) else joinFirst p (cutGops ps)

/-- The frames of pictures with the temporal references `c`, `c + 1`, `c + 2`, …, one each, without gap. -/
def Counts (c : Nat) (ps : List Pict) (l : List Frame) : Prop := ∀ i (h : i < l.length), ∃ p ∈ ps, p.tr = c + i ∧ p.frame = l[i]

/-- The frames are those of one group of pictures after the other, counted from 0 in each. -/
inductive InOrder : List (List Pict) → List Frame → Prop
  | nil : InOrder [] []
  | cons {g : List Pict} {gs : List (List Pict)} {l l' : List Frame} : Counts 0 g l → InOrder gs l' → InOrder (g :: gs) (l ++ l')

end Mpeg.Video.Spec
