/-
Reading on after errors: what a payload reader may deliver over any history of calls.
-/
import Verif.TS.ReaderSpec
import Verif.PES.ReaderSpec
namespace Mpeg

/-- One `Read(p)` with `len(p) = n`, as package io prescribes it: at most `n` bytes, and fewer exactly when an error
is reported. -/
def FullRead (n : Nat) (o : List UInt8 × Option Err) : Prop :=
  o.1.length ≤ n ∧ (o.2 = none ↔ o.1.length = n)

namespace TS

/-- `Calls s ps s'`: from `s`, some calls of `Next` on one `Packet` lead to `s'`; each of them succeeds or reports an
error, and `ps` are the packet values observed after the successful ones. -/
inductive Calls : St → List Packet → St → Prop
  | nil (s : St) : Calls s [] s
  | ok {s s1 s2 : St} {ps : List Packet} :
      Packet.next s = (.ok (), s1) → Calls s1 ps s2 → Calls s (s1.pkt :: ps) s2
  | err {s s1 s2 : St} {ps : List Packet} {e : Err} :
      Packet.next s = (.err e, s1) → Calls s1 ps s2 → Calls s ps s2

/-- Successive Reads of a payload reader with the given buffer sizes; errors do not stop the caller. -/
def PR.all (c : PRCfg) (fuel : Nat) : List Nat → Go PR (List (List UInt8 × Option Err))
  | [] => pure []
  | n :: ns => do
    let o ← PR.read c fuel n
    let os ← PR.all c fuel ns
    pure (o :: os)

/-- The same for a payload unit reader. -/
def PU.all (w : Tester) (fuel : Nat) : List Nat → Go PU (List (List UInt8 × Option Err))
  | [] => pure []
  | n :: ns => do
    let o ← PU.read w fuel n
    let os ← PU.all w fuel ns
    pure (o :: os)

end TS

namespace PES

/-- The same for PES packets. -/
inductive Calls : St → List Packet → St → Prop
  | nil (s : St) : Calls s [] s
  | ok {s s1 s2 : St} {ps : List Packet} :
      Packet.next s = (.ok (), s1) → Calls s1 ps s2 → Calls s (s1.pkt :: ps) s2
  | err {s s1 s2 : St} {ps : List Packet} {e : Err} :
      Packet.next s = (.err e, s1) → Calls s1 ps s2 → Calls s ps s2

/-- Successive Reads of a PES payload reader; errors do not stop the caller. -/
def PR.all (fuel : Nat) : List Nat → Go PR (List (List UInt8 × Option Err))
  | [] => pure []
  | n :: ns => do
    let o ← PR.read fuel n
    let os ← PR.all fuel ns
    pure (o :: os)

end PES
end Mpeg
