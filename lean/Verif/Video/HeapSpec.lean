/-
Consecutive calls of `Next` with pointers, and looking at the pictures afterwards.
-/
import Verif.Video.HeapModel
namespace Mpeg.Video.Spec

/-- The results of `n` consecutive calls of `Next`, and the state after them; a call that panics or does not return is the
last one. -/
def pointers (fuel k : Nat) : Nat → HVS → List (Res Nat) × HVS
  | 0, h => ([], h)
  | n + 1, h =>
    match HVS.next fuel k h with
    | (.ok a, h') => (.ok a :: (pointers fuel k n h').1, (pointers fuel k n h').2)
    | (.err e, h') => (.err e :: (pointers fuel k n h').1, (pointers fuel k n h').2)
    | (.panic, h') => ([.panic], h')
    | (.hang, h') => ([.hang], h')

/-- What is seen at the end through a pointer that a call returned. -/
def look (m : Mem) : Res Nat → Res Frame
  | .ok a => .ok (m a)
  | .err e => .err e
  | .panic => .panic
  | .hang => .hang

/-- The decoder holds the pointer: a later call can read through it. -/
def Held (h : HVS) (a : Nat) : Prop :=
  (∃ r, (h.fs.f0 = some r ∨ h.fs.f1 = some r) ∧ r.frame = a) ∨ h.fs.past = some a ∨ h.fs.future = some a

/-- The caller writes through a pointer. -/
def draw (h : HVS) (a : Nat) (f : Frame) : HVS := { h with mem := h.mem.write a f }

/-- The states of a decoder in use: after any calls of `Next` on a new decoder, between which the caller may have written
through any pointers it was given. -/
inductive HUsed : HVS → Prop
  | new (br : BR) : HUsed (HVS.new br)
  | next {h h' : HVS} {r : Res Nat} (fuel k : Nat) : HUsed h → HVS.next fuel k h = (r, h') → HUsed h'
  | draw {h : HVS} (a : Nat) (f : Frame) : HUsed h → a < h.free → HUsed (draw h a f)

end Mpeg.Video.Spec
