/-
Sessions of an application that goes on after errors.
-/
import Verif.Video.LostSpec
namespace Mpeg.Video.Spec

/-- What happens at successive pictures of a stream: a picture is decoded, or decoding fails.  `gop`: before it failed, the
decoder had read a group of pictures header. -/
inductive Event
  | pict (p : Pict)
  | fail (gop : Bool)

/-- The pictures that were decoded; a group of pictures header that was read by a failing attempt belongs to the next
picture that is decoded.  `g`: such a header is pending. -/
def kept (g : Bool) : List Event → List Pict
  | [] => []
  | .pict p :: es => { p with newGop := p.newGop || g } :: kept false es
  | .fail b :: es => kept (g || b) es

/-- How often decoding failed. -/
def failures : List Event → Nat
  | [] => 0
  | .pict _ :: es => failures es
  | .fail _ :: es => failures es + 1

/-- Lists whose elements correspond. -/
inductive Pairwise2 {α β : Type} (R : α → β → Prop) : List α → List β → Prop
  | nil : Pairwise2 R [] []
  | cons {a : α} {b : β} {l : List α} {m : List β} : R a b → Pairwise2 R l m → Pairwise2 R (a :: l) (b :: m)

/-- The same pictures in the same order, as far as the headers tell; their frames correspond. -/
inductive SamePicts (R : Frame → Frame → Prop) : List Pict → List Pict → Prop
  | nil : SamePicts R [] []
  | cons {p q : Pict} {ps qs : List Pict} : p.newGop = q.newGop → p.kind = q.kind → p.tr = q.tr → R p.frame q.frame →
      SamePicts R ps qs → SamePicts R (p :: ps) (q :: qs)

theorem SamePicts.length {R : Frame → Frame → Prop} {ps qs : List Pict} (h : SamePicts R ps qs) : ps.length = qs.length := by
  induction h with
  | nil => rfl
  | cons _ _ _ _ _ ih => rw [List.length_cons, List.length_cons, ih]

end Mpeg.Video.Spec
