/-
How many pictures of a group of pictures have to be returned.
-/
import Verif.Video.AnyOrderSpec
namespace Mpeg.Video.Spec

/-- Among the pictures are, in the order of coding, some with the temporal references `c`, `c + 1`, …, `c + n - 1`; others may be between them. -/
def Ascends (c n : Nat) (g : List Pict) : Prop := ∃ xs : List Pict, xs.Sublist g ∧ xs.map (fun p => p.tr) = List.range' c n

/-- The frames are those of one group of pictures after the other, counted from 0 in each, and of every group at least as many as come in order. -/
inductive Served : List (List Pict) → List Frame → Prop
  | nil : Served [] []
  | cons {g : List Pict} {gs : List (List Pict)} {l l' : List Frame} : Counts 0 g l → (∀ n, Ascends 0 n g → n ≤ l.length) → Served gs l' →
      Served (g :: gs) (l ++ l')

end Mpeg.Video.Spec
