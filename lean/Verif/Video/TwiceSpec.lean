/-
Everything an application can do with a decoder, and the pictures it got.
-/
import Verif.Video.HeapSpec
namespace Mpeg.Video.Spec

/-- The histories of a decoder: the pointers that `Next` has returned so far (the last one first) and the state.  The application calls
`Next`, also after errors and recovered panics; between the calls it writes through pointers, and moves the reader or replaces its input. -/
inductive History : List Nat → HVS → Prop
  | new (br : BR) : History [] (HVS.new br)
  | got {l : List Nat} {h h' : HVS} {a : Nat} (fuel k : Nat) : History l h → HVS.next fuel k h = (.ok a, h') → History (a :: l) h'
  | failed {l : List Nat} {h h' : HVS} {r : Res Nat} (fuel k : Nat) : History l h → HVS.next fuel k h = (r, h') → (∀ a, r ≠ .ok a) → History l h'
  | draw {l : List Nat} {h : HVS} (a : Nat) (f : Frame) : History l h → a < h.free → History l (draw h a f)
  | seek {l : List Nat} {h : HVS} (br : BR) : History l h → History l { h with br := br }

/-- the pointers among the results of calls -/
def returned : List (Res Nat) → List Nat
  | [] => []
  | .ok a :: l => a :: returned l
  | _ :: l => returned l

end Mpeg.Video.Spec
