/-
Specification for C149: what a decoder returns after it has joined a stream of given images.
-/
import Verif.Video.UniversalSpec
import Verif.Video.RecoverSpec
import Verif.Video.OrderLemmas2
set_option linter.all false
namespace Mpeg.Video.Spec

/-- The codings `bs` of pictures stand one behind the other: the position of the first bit of picture `i`. -/
def picStart (bs : List (List Bool)) (i : Nat) : Nat := (bs.take i).flatten.length

/-- From `s1` on the calls of `Next` return at most two frames that the decoder had decoded before (it was in the state `s`; none if it had nothing
to return), then exactly one frame for each of the images `Ps`, in their order and within 4 levels of them, and then report the end of the stream;
`rest` is left unread. -/
def ReturnsAll (W H fuel k : Nat) (Ps : List Image) (s s1 : VS) (rest : List Bool) : Prop :=
  ∃ w frames t, nexts fuel k (w.length + Ps.length) s1 = (.ok (w ++ frames), t) ∧ w.length ≤ 2 ∧
    (∀ f ∈ w, ∃ r, (s.fs.f0 = some r ∨ s.fs.f1 = some r) ∧ r.frame = f) ∧ (s.fs.tryGet s.frameCounter = none → w = []) ∧
    frames.length = Ps.length ∧ (∀ i (h1 : i < frames.length) (h2 : i < Ps.length), NearImage 4 W H frames[i] Ps[i]) ∧
    (VS.next fuel k t).1 = .err .eos ∧ (VS.next fuel k t).2.br.bits = rest

end Mpeg.Video.Spec
