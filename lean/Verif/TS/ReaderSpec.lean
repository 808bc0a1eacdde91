/-
What a stream reader is expected to deliver, stated over the packets that successive calls of
`Packet.Next` produce.
-/
import Verif.TS.ReaderModel
namespace Mpeg.TS

/-- `Run s ps s'`: starting from `s`, successive calls of `Next` on one `Packet` all succeed; `ps` are the
packet values observed after each of them, `s'` is the final state. -/
inductive Run : St → List Packet → St → Prop
  | nil (s : St) : Run s [] s
  | cons {s s1 s2 : St} {ps : List Packet} :
      Packet.next s = (.ok (), s1) → Run s1 ps s2 → Run s (s1.pkt :: ps) s2

/-- The source yields the packets `ps`, then `Next` reports `e` and leaves the state `s'`. -/
def Ends (s : St) (ps : List Packet) (e : Err) (s' : St) : Prop :=
  ∃ s1, Run s ps s1 ∧ Packet.next s1 = (.err e, s')

namespace Spec

/-- The payload bytes of the packets accepted by `w`, in order. -/
def payloads (w : Packet → Bool) (ps : List Packet) : List UInt8 :=
  ((ps.filter w).map Packet.payload).flatten

/-- Reading `content` with buffers of the given sizes until the first short read, which reports `e`. -/
def deliver (content : List UInt8) (e : Err) : List Nat → List (List UInt8 × Option Err)
  | [] => []
  | n :: ns =>
    if n ≤ content.length then (content.take n, none) :: deliver (content.drop n) e ns
    else [(content, some e)]

/-- The same, where the short read still gets what fits of `tail`, and the rest of `tail` is lost. -/
def deliverCut (content tail : List UInt8) (e : Err) : List Nat → List (List UInt8 × Option Err)
  | [] => []
  | n :: ns =>
    if n ≤ content.length then (content.take n, none) :: deliverCut (content.drop n) tail e ns
    else [(content ++ tail.take (n - content.length), some e)]

/-- All bytes of a list of read results. -/
def allBytes (outs : List (List UInt8 × Option Err)) : List UInt8 := (outs.map (·.1)).flatten

/-- A payload unit of a packet sequence: its start packet and the packets up to the next start. -/
abbrev Group := Packet × List Packet

/-- `ps` is a run of packets without unit start, followed by the groups `gs`.
(Every packet sequence can be written like that: `exists_split`.) -/
def Split (start : Packet → Bool) (ps pre : List Packet) (gs : List Group) : Prop :=
  ps = pre ++ (gs.map fun g => g.1 :: g.2).flatten ∧
  (∀ p ∈ pre, start p = false) ∧
  ∀ g ∈ gs, start g.1 = true ∧ ∀ p ∈ g.2, start p = false

/-- The payload bytes of a unit: those of its packets that are accepted by `w`. -/
def unitBytes (w : Packet → Bool) (g : Group) : List UInt8 := payloads w (g.1 :: g.2)

/-- Reading the units `us` one after another with buffers of the given sizes: each unit is followed by one
`EOP`; when there is no further unit, `e` is reported (and reading stops).
`cur` is the rest of the unit being read. -/
def deliverUnits (e : Err) : Option (List UInt8) → List (List UInt8) → List Nat →
    List (List UInt8 × Option Err)
  | _, _, [] => []
  | none, [], _ :: _ => [([], some e)]
  | none, u :: us, n :: ns =>
    if n ≤ u.length then (u.take n, none) :: deliverUnits e (some (u.drop n)) us ns
    else (u, some .eop) :: deliverUnits e none us ns
  | some b, us, n :: ns =>
    if n ≤ b.length then (b.take n, none) :: deliverUnits e (some (b.drop n)) us ns
    else (b, some .eop) :: deliverUnits e none us ns

/-- What a consumer has seen: the byte strings ended by `EOP`, and the bytes after the last `EOP`. -/
def sections : List (List UInt8 × Option Err) → List (List UInt8) × List UInt8
  | [] => ([], [])
  | (d, e) :: outs =>
    if e = some .eop then (d :: (sections outs).1, (sections outs).2)
    else
      match (sections outs).1 with
      | [] => ([], d ++ (sections outs).2)
      | u :: us => ((d ++ u) :: us, (sections outs).2)

end Spec

/-- Successive Reads of a payload reader with the given buffer sizes, up to the first error. -/
def PR.reads (c : PRCfg) (fuel : Nat) : List Nat → Go PR (List (List UInt8 × Option Err))
  | [] => pure []
  | n :: ns => do
    let o ← PR.read c fuel n
    if o.2.isSome then pure [o]
    else do
      let os ← PR.reads c fuel ns
      pure (o :: os)

/-- Successive Reads of a payload unit reader, up to the first error other than `EOP`. -/
def PU.reads (w : Tester) (fuel : Nat) : List Nat → Go PU (List (List UInt8 × Option Err))
  | [] => pure []
  | n :: ns => do
    let o ← PU.read w fuel n
    if o.2 = none ∨ o.2 = some .eop then do
      let os ← PU.reads w fuel ns
      pure (o :: os)
    else pure [o]

end Mpeg.TS
