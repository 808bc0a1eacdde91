/-
How far the samples of two decoders are apart that decode the same bits with different reference frames.
-/
import Verif.Video.MacroblockModel
namespace Mpeg.Video.Spec

/-- Two numbers that differ by at most `d`. -/
def NNear (d a b : Nat) : Prop := a ≤ b + d ∧ b ≤ a + d

/-- Planes of the same length whose samples differ by at most `d`. -/
structure PlaneNear (d : Nat) (p q : Plane) : Prop where
  len : p.len = q.len
  near : ∀ i < p.len, NNear d (p.data i) (q.data i)

/-- Frames of the same shape whose luma, Cb and Cr samples differ by at most `D 0`, `D 1`, `D 2`. -/
structure FrameNear (D : Nat → Nat) (f g : Frame) : Prop where
  yStride : f.yStride = g.yStride
  cStride : f.cStride = g.cStride
  y : PlaneNear (D 0) f.y g.y
  cb : PlaneNear (D 1) f.cb g.cb
  cr : PlaneNear (D 2) f.cr g.cr

/-- Both are absent, or both are present and `R` holds. -/
inductive Both {α : Type} (R : α → α → Prop) : Option α → Option α → Prop
  | none : Both R none none
  | some {a b : α} : R a b → Both R (some a) (some b)

/-- The same outcome; two results are related by `R`. -/
inductive SameRes {α : Type} (R : α → α → Prop) : Res α → Res α → Prop
  | ok {a b : α} : R a b → SameRes R (.ok a) (.ok b)
  | err (e : Err) : SameRes R (.err e) (.err e)
  | panic : SameRes R .panic .panic
  | hang : SameRes R .hang .hang

/-- Slots of the frame store that hold near frames and are otherwise the same. -/
structure SlotNear (D : Nat → Nat) (r q : RefFrame) : Prop where
  frame : FrameNear D r.frame q.frame
  temporal : r.temporalReference = q.temporalReference
  gop : r.previousGOP = q.previousGOP

structure StoreNear (D : Nat → Nat) (a b : FrameStore) : Prop where
  f0 : Both (SlotNear D) a.f0 b.f0
  f1 : Both (SlotNear D) a.f1 b.f1
  past : Both (FrameNear D) a.past b.past
  future : Both (FrameNear D) a.future b.future

/-- Decoders that are the same (input and position, headers, matrices, counter) except for the frames they hold. -/
structure Twins (Q : FrameStore → FrameStore → Prop) (s t : VS) : Prop where
  br : s.br = t.br
  sh : s.sh = t.sh
  se : s.se = t.se
  gop : s.gop = t.gop
  ph : s.ph = t.ph
  pce : s.pce = t.pce
  qm : s.qm = t.qm
  counter : s.frameCounter = t.frameCounter
  store : Q s.fs t.fs

/-- What an application does with a decoder: call `Next`, or something with its bit reader (such as `AlignTo`). -/
inductive Action where
  | next
  | reader (m : Go BR Unit)

/-- The results of `Next` in the course of some actions, and the decoder afterwards. -/
def perform (fuel k : Nat) : List Action → VS → List (Res Frame) × VS
  | [], s => ([], s)
  | .next :: l, s =>
    ((VS.next fuel k s).1 :: (perform fuel k l (VS.next fuel k s).2).1, (perform fuel k l (VS.next fuel k s).2).2)
  | .reader m :: l, s => perform fuel k l (VS.lift m s).2

end Mpeg.Video.Spec
