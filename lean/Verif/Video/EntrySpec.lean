/-
Decoders with different histories after an entry point.
-/
import Verif.Video.DriftLemmas2
namespace Mpeg.Video.Spec

/-- A slot of the frame store that is empty or holds a picture of an earlier group of pictures. -/
def Old : Option RefFrame → Prop
  | none => True
  | some r => r.previousGOP = true

/-- Stores that hold the same last `n` reference pictures; what else they hold is the same too, or from an earlier group of
pictures.  (The selected frames `past` and `future` may be anything.) -/
structure Since (n : Nat) (a b : FrameStore) : Prop where
  f1 : a.f1 = b.f1 ∨ n = 0 ∧ Old a.f1 ∧ Old b.f1
  f0 : a.f0 = b.f0 ∨ n ≤ 1 ∧ Old a.f0 ∧ Old b.f0

/-- The picture in the slot is displayed before the one with temporal reference `tr`. -/
def shownBefore (tr : Nat) : Option RefFrame → Bool
  | none => false
  | some r => r.previousGOP || decide (r.temporalReference < tr)

/-- There is a picture in the slot and it is not displayed before. -/
def shownAfter (tr : Nat) : Option RefFrame → Bool
  | none => false
  | some r => !(r.previousGOP || decide (r.temporalReference < tr))

/-- The picture whose headers decoder `v` has read is an I picture, a P picture with one of the last `n` reference pictures before
it in display order, or a B picture between the two last reference pictures, and `n` is at least 2. -/
def refersTo (n : Nat) (v : VS) : Bool :=
  match v.ph with
  | none => true
  | some ph =>
    if ph.pictureCodingType = 1 then true
    else if ph.pictureCodingType = 2 then
      (decide (1 ≤ n) && shownBefore ph.temporalReference v.fs.f1) || (decide (2 ≤ n) && shownBefore ph.temporalReference v.fs.f0)
    else if ph.pictureCodingType = 3 then
      decide (2 ≤ n) && ((shownBefore ph.temporalReference v.fs.f0 && shownAfter ph.temporalReference v.fs.f1) ||
        (shownAfter ph.temporalReference v.fs.f0 && shownBefore ph.temporalReference v.fs.f1))
    else false

/-- The same for the next picture that `Next` reads (`stepHead` is what `step` does before it reads the picture data: `step_head`);
true also if there is none, because the headers are damaged or the input ends. -/
def nextRefersTo (fuel n : Nat) (s : VS) : Bool :=
  match stepHead fuel s with
  | (.ok _, v) => refersTo n v
  | _ => true

/-- The number of reference pictures decoded since then, after one more picture: one more if an I or P picture is decoded. -/
def grown (fuel n : Nat) (s : VS) : Nat :=
  match (step fuel s).1, (step fuel s).2.ph with
  | .ok _, some ph => if ph.pictureCodingType = 1 ∨ ph.pictureCodingType = 2 then n + 1 else n
  | _, _ => n

/-- No picture that is read before one is returned refers to pictures before the last `n`; the number of reference pictures then
decoded since. -/
def loopSince (fuel : Nat) : Nat → Nat → VS → Bool × Nat
  | 0, n, _ => (true, n)
  | k + 1, n, s =>
    if nextRefersTo fuel n s then
      match step fuel s with
      | (.ok _, u) =>
        match u.ph with
        | none => (true, grown fuel n s)
        | some ph => if ph.temporalReference = u.frameCounter then (true, grown fuel n s) else loopSince fuel k (grown fuel n s) u
      | _ => (true, grown fuel n s)
    else (false, n)

/-- The same for a call of `Next`, which returns a picture that is waiting, or reads pictures until one is to be returned. -/
def callSince (fuel k n : Nat) (s : VS) : Bool × Nat :=
  match s.fs.tryGet s.frameCounter with
  | some _ => (true, n)
  | none => loopSince fuel k n s

/-- In the course of the actions no picture refers to pictures before the last `n` reference pictures that the decoder has at
the beginning. -/
def refersSince (fuel k : Nat) : Nat → List Action → VS → Bool
  | _, [], _ => true
  | n, .next :: l, s => (callSince fuel k n s).1 && refersSince fuel k (callSince fuel k n s).2 l (VS.next fuel k s).2
  | n, .reader m :: l, s => refersSince fuel k n l (VS.lift m s).2

end Mpeg.Video.Spec
