/-
What the PES payload reader is expected to deliver, over the packets that successive calls of
`Packet.Next` produce.
-/
import Verif.PES.Model
namespace Mpeg.PES

/-- `Run s ps s'`: successive calls of `Next` on one `Packet` all succeed; `ps` are the packet values
observed after each of them. -/
inductive Run : St → List Packet → St → Prop
  | nil (s : St) : Run s [] s
  | cons {s s1 s2 : St} {ps : List Packet} :
      Packet.next s = (.ok (), s1) → Run s1 ps s2 → Run s (s1.pkt :: ps) s2

/-- A source made of parts: in each part `Next` succeeds a number of times; all parts but the last are
ended by `ts.EOP` (which is not final: `Next` may be called again), the last one by another error `e`. -/
inductive Parts : St → List (List Packet) → Err → Prop
  | last {s s1 s2 : St} {ps : List Packet} {e : Err} :
      Run s ps s1 → Packet.next s1 = (.err e, s2) → e ≠ .eop → Parts s [ps] e
  | part {s s1 s2 : St} {ps : List Packet} {pss : List (List Packet)} {e : Err} :
      Run s ps s1 → Packet.next s1 = (.err .eop, s2) → Parts s2 pss e → Parts s (ps :: pss) e

namespace Spec

/-- all payload bytes, in order -/
def payloads (ps : List Packet) : List UInt8 := (ps.map Packet.payload).flatten

/-- Reading byte strings one after another with buffers of the given sizes.  A short read ends a string:
with `EOP` if there is another one, with `e` (and the end of reading) if not. -/
def deliverParts (e : Err) : List UInt8 → List (List UInt8) → List Nat → List (List UInt8 × Option Err)
  | _, _, [] => []
  | cur, [], n :: ns =>
    if n ≤ cur.length then (cur.take n, none) :: deliverParts e (cur.drop n) [] ns
    else [(cur, some e)]
  | cur, u :: us, n :: ns =>
    if n ≤ cur.length then (cur.take n, none) :: deliverParts e (cur.drop n) (u :: us) ns
    else (cur, some .eop) :: deliverParts e u us ns

end Spec

/-- Successive Reads, up to the first error other than `EOP`. -/
def PR.reads (fuel : Nat) : List Nat → Go PR (List (List UInt8 × Option Err))
  | [] => pure []
  | n :: ns => do
    let o ← PR.read fuel n
    if o.2 = none ∨ o.2 = some .eop then do
      let os ← PR.reads fuel ns
      pure (o :: os)
    else pure [o]

end Mpeg.PES
