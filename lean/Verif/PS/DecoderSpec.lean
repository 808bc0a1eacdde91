/-
What a decoder run must look like, independently of the goroutines.
-/
import Verif.PS.DecoderModel
namespace Mpeg.PS.Spec

/-- The events of one complete pack: announced, its packets in order, its channel closed.  Without packets the
channel may be closed before the pack is received. -/
inductive PackEvs (k : Nat) : PackHeader → List PES.Packet → List Ev → Prop
  | full (h : PackHeader) (qs : List PES.Packet) :
      PackEvs k h qs (Ev.pack k h :: (qs.map (Ev.packet k) ++ [Ev.closed k]))
  | empty (h : PackHeader) : PackEvs k h [] [Ev.closed k, Ev.pack k h]

/-- The events of a sequence of complete packs, numbered from 0. -/
inductive PacksEvs : List (PackHeader × List PES.Packet) → List Ev → Prop
  | nil : PacksEvs [] []
  | snoc {l : List (PackHeader × List PES.Packet)} {evs e : List Ev} {h : PackHeader} {qs : List PES.Packet} :
      PacksEvs l evs → PackEvs l.length h qs e → PacksEvs (l ++ [(h, qs)]) (evs ++ e)

/-- The events of a pack that is not finished: nothing, closed but not announced, or announced with some of its
packets. -/
inductive OpenEvs (k : Nat) : PackHeader → List PES.Packet → List Ev → Prop
  | none (h : PackHeader) : OpenEvs k h [] []
  | closed (h : PackHeader) : OpenEvs k h [] [Ev.closed k]
  | part (h : PackHeader) (qs : List PES.Packet) : OpenEvs k h qs (Ev.pack k h :: qs.map (Ev.packet k))

/-- The end of a run: `Packs()` closed, one value on the done channel, the done channel closed. -/
def endEvs (b : Bool) : List Ev := [.packsClosed, .done b, .doneClosed]

end Mpeg.PS.Spec
