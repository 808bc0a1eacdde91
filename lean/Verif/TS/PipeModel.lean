/-
The demuxer together with a `PayloadOnly` goroutine on one of its channels: both goroutines share one packet.
-/
import Verif.TS.DemuxProps
namespace Mpeg.TS
open Spec

/-- Program counter of the `PayloadOnly` goroutine (ts/packet_channel.go:12-17) when its input is a channel of a demuxer.  A
`[]byte` that is sent is a view of the packet's buffer, so only its length is part of the state. -/
inductive WPC where
  /-- about to receive (line 14) -/
  | idle
  /-- blocked in the receive of line 14 -/
  | recv
  /-- has received the pointer, has not evaluated `packet.Payload` (line 15) -/
  | got
  /-- blocked in the send of line 15 with a slice of length `n` -/
  | send (n : Nat)
  | finished
deriving DecidableEq

/-- `d` is the demuxer with the shared packet; `out` are the bytes the consumer found in the slices it received, at the time of
each receive; `closed`: how often the output was closed. -/
structure PipeSt where
  d : DSt
  pc : WPC := .idle
  out : List (List UInt8) := []
  closed : Nat := 0

/-- Steps of the two goroutines, `PayloadOnly` reading channel `k` of the demuxer (ts/demuxer.go:62-97,
ts/packet_channel.go:12-17).  `Next` is one step (a consumer that reads while `Next` runs would be a data race; what it sees is
not modelled), evaluating `packet.Payload` is one step. -/
inductive PipeStep (c : Demuxer) (k : Nat) : PipeSt → PipeSt → Prop
  /-- a step of the demuxer that sends nothing on channel `k` -/
  | demux {s : PipeSt} {d' : DSt} (h : DStep c s.d d') (hl : received k d'.log = received k s.d.log) :
      PipeStep c k s { s with d := d' }
  /-- the demuxer sends on channel `k` -/
  | handoff {s : PipeSt} {d' : DSt} (hpc : s.pc = .recv) (h : DStep c s.d d')
      (hl : received k d'.log ≠ received k s.d.log) : PipeStep c k s { s with d := d', pc := .got }
  /-- line 14: start to receive -/
  | ready {s : PipeSt} (hpc : s.pc = .idle) :
      PipeStep c k s { s with pc := .recv, d := { s.d with waiting := setW s.d.waiting k true } }
  /-- line 15: evaluate `packet.Payload` -/
  | eval {s : PipeSt} (hpc : s.pc = .got) : PipeStep c k s { s with pc := .send s.d.st.pkt.payloadLen }
  /-- line 15: the consumer receives the slice -/
  | take {s : PipeSt} {n : Nat} (hpc : s.pc = .send n) :
      PipeStep c k s { s with pc := .idle, out := s.out ++ [s.d.st.pkt.buf.take n] }
  /-- lines 13-14: the input is closed -/
  | close {s : PipeSt} (hpc : s.pc = .recv) (h : closes k s.d.log ≠ 0) :
      PipeStep c k s { s with pc := .finished, closed := s.closed + 1 }

/-- States reachable by any interleaving; consumers of other channels become ready at any time. -/
inductive PipeReach (c : Demuxer) (k : Nat) (br : BR) : PipeSt → Prop
  | init : PipeReach c k br { d := DSt.new br }
  | step {s s' : PipeSt} : PipeReach c k br s → PipeStep c k s s' → PipeReach c k br s'
  | env {s : PipeSt} {d' : DSt} : PipeReach c k br s → EStep s.d d' → d'.waiting k = s.d.waiting k →
      PipeReach c k br { s with d := d' }

/-- The same with a consumer so fast that the demuxer never parses a packet while a slice is under way. -/
inductive FastReach (c : Demuxer) (k : Nat) (br : BR) : PipeSt → Prop
  | init : FastReach c k br { d := DSt.new br }
  | step {s s' : PipeSt} : FastReach c k br s → PipeStep c k s s' →
      (s.d.pc = .fetch → DStep c s.d s'.d → s.pc ≠ .got ∧ ∀ n, s.pc ≠ .send n) → FastReach c k br s'
  | env {s : PipeSt} {d' : DSt} : FastReach c k br s → EStep s.d d' → d'.waiting k = s.d.waiting k →
      FastReach c k br { s with d := d' }

end Mpeg.TS
