/-
Model of ts.Demuxer and ts.PacketChannel as small-step machines.  The steps of the goroutine and those of
its environment (consumers that become ready to receive) may be interleaved in any way.
-/
import Verif.TS.ReaderModel
namespace Mpeg.TS

/-- Demuxer configuration (ts/demuxer.go:25-31): the testers of the registered channels in the order of the
`Where` calls, `SkipUntil`, `TakeWhile`.  Registration happens before `Go` (a `Where` during the run would be a
data race and is not modelled). -/
structure Demuxer where
  chans : List Tester
  skipUntil : Tester := alwaysTrue
  takeWhile : Tester := alwaysTrue

/-- What can be observed on the channels: a packet received on channel `i` (the contents at the time of
the receive), channel `i` closed, a value received from `done`. -/
inductive Ev where
  | recv (i : Nat) (p : Packet)
  | close (i : Nat)
  | done
deriving DecidableEq

/-- Program counter of the goroutine (ts/demuxer.go:62-97). -/
inductive DPC where
  /-- line 72 -/
  | fetch
  /-- line 91-95, at channel `i` -/
  | send (i : Nat)
  /-- line 65-67, at channel `i` -/
  | closing (i : Nat)
  /-- line 68 -/
  | doneSend
  | finished
  /-- `Next` panicked (for the deferred calls that still run then, see LifeModel) -/
  | crashed
deriving DecidableEq

/-- `st.pkt` is the one packet `p` (line 60) that all sends share; `waiting i` says that the consumer of
channel `i` is blocked in a receive, `waitDone` that somebody receives from `done`; `log` records what
happened on the channels. -/
structure DSt where
  st : St
  skipping : Bool := true
  pc : DPC := .fetch
  lastErr : Option Err := none
  waiting : Nat → Bool := fun _ => false
  waitDone : Bool := false
  log : List Ev := []

/-- ts/demuxer.go:54-60 -/
def DSt.new (br : BR) : DSt := { st := ⟨Packet.new, br⟩ }

def setW (f : Nat → Bool) (i : Nat) (b : Bool) : Nat → Bool := fun j => if j = i then b else f j

/-- Steps of the demuxer goroutine. -/
inductive DStep (d : Demuxer) : DSt → DSt → Prop
  /-- lines 74-77 -/
  | err {s : DSt} {st : St} {e : Err} (hpc : s.pc = .fetch) (h : Packet.next s.st = (.err e, st)) :
      DStep d s { s with st := st, lastErr := some e, pc := .closing 0 }
  | panic {s : DSt} {st : St} (hpc : s.pc = .fetch) (h : Packet.next s.st = (.panic, st)) :
      DStep d s { s with st := st, pc := .crashed }
  /-- lines 79-81 -/
  | skip {s : DSt} {st : St} (hpc : s.pc = .fetch) (h : Packet.next s.st = (.ok (), st))
      (hs : s.skipping = true) (ht : d.skipUntil st.pkt = false) : DStep d s { s with st := st }
  /-- lines 82-84 -/
  | start {s : DSt} {st : St} (hpc : s.pc = .fetch) (h : Packet.next s.st = (.ok (), st))
      (hs : s.skipping = true) (ht : d.skipUntil st.pkt = true) :
      DStep d s { s with st := st, skipping := false, pc := .send 0 }
  /-- lines 85-88, accepted -/
  | take {s : DSt} {st : St} (hpc : s.pc = .fetch) (h : Packet.next s.st = (.ok (), st))
      (hs : s.skipping = false) (ht : d.takeWhile st.pkt = true) :
      DStep d s { s with st := st, pc := .send 0 }
  /-- lines 86-87, rejected -/
  | stop {s : DSt} {st : St} (hpc : s.pc = .fetch) (h : Packet.next s.st = (.ok (), st))
      (hs : s.skipping = false) (ht : d.takeWhile st.pkt = false) :
      DStep d s { s with st := st, pc := .closing 0 }
  /-- line 92, not accepted by this channel -/
  | pass {s : DSt} {i : Nat} {t : Tester} (hpc : s.pc = .send i) (hi : d.chans[i]? = some t)
      (ht : t s.st.pkt = false) : DStep d s { s with pc := .send (i + 1) }
  /-- line 93: unbuffered send, needs a waiting receiver -/
  | deliver {s : DSt} {i : Nat} {t : Tester} (hpc : s.pc = .send i) (hi : d.chans[i]? = some t)
      (ht : t s.st.pkt = true) (hw : s.waiting i = true) :
      DStep d s { s with pc := .send (i + 1), waiting := setW s.waiting i false,
                         log := s.log ++ [.recv i s.st.pkt] }
  /-- line 91: the loop over the channels ends -/
  | loop {s : DSt} {i : Nat} (hpc : s.pc = .send i) (hi : d.chans[i]? = none) :
      DStep d s { s with pc := .fetch }
  /-- lines 65-67 -/
  | close {s : DSt} {i : Nat} {t : Tester} (hpc : s.pc = .closing i) (hi : d.chans[i]? = some t) :
      DStep d s { s with pc := .closing (i + 1), log := s.log ++ [.close i] }
  | closed {s : DSt} {i : Nat} (hpc : s.pc = .closing i) (hi : d.chans[i]? = none) :
      DStep d s { s with pc := .doneSend }
  /-- line 68 -/
  | done {s : DSt} (hpc : s.pc = .doneSend) (hw : s.waitDone = true) :
      DStep d s { s with pc := .finished, waitDone := false, log := s.log ++ [.done] }

/-- Steps of the environment: some consumer starts a receive. -/
inductive EStep : DSt → DSt → Prop
  | ready (s : DSt) (i : Nat) : EStep s { s with waiting := setW s.waiting i true }
  | readyDone (s : DSt) : EStep s { s with waitDone := true }

/-- States reachable by any interleaving. -/
inductive Reach (d : Demuxer) (br : BR) : DSt → Prop
  | init : Reach d br (DSt.new br)
  | demux {s s' : DSt} : Reach d br s → DStep d s s' → Reach d br s'
  | env {s s' : DSt} : Reach d br s → EStep s s' → Reach d br s'

/-! ### PacketChannel (ts/packet_channel.go) -/

/-- Program counter of the `PayloadOnly` goroutine (ts/packet_channel.go:12-17; the code of
pes/packet_channel.go:9-14 is the same). `send d`: line 15 with the payload `d`. -/
inductive CPC where
  | recv
  | send (d : List UInt8)
  | finished
deriving DecidableEq

/-- `input`: what the sender will still send before it closes the channel; `out`: what the consumer has
received; `closed`: how often the output was closed.  Packets are passed by value here (a producer that
reuses its packet is the subject of C19). -/
structure CSt where
  input : List Packet
  pc : CPC := .recv
  out : List (List UInt8) := []
  closed : Nat := 0

/-- One step of `PayloadOnly`; receives and sends happen when the other side takes part, so any of these
steps may be delayed arbitrarily. -/
inductive CStep : CSt → CSt → Prop
  | recv {s : CSt} {p : Packet} {ps : List Packet} (hpc : s.pc = .recv) (h : s.input = p :: ps) :
      CStep s { s with input := ps, pc := .send p.payload }
  | send {s : CSt} {d : List UInt8} (hpc : s.pc = .send d) :
      CStep s { s with pc := .recv, out := s.out ++ [d] }
  | close {s : CSt} (hpc : s.pc = .recv) (h : s.input = []) :
      CStep s { s with pc := .finished, closed := s.closed + 1 }

inductive CReach (ps : List Packet) : CSt → Prop
  | init : CReach ps { input := ps }
  | step {s s' : CSt} : CReach ps s → CStep s s' → CReach ps s'

/-- `ioutil.ReadAll(&buf)` on a `bytes.Buffer`: all bytes, never an error. -/
def readAllBuffer (buf : List UInt8) : List UInt8 × Option Err := (buf, none)

/-- State of the `PayloadUnit` goroutine (ts/packet_channel.go:21-43). -/
structure USt where
  input : List Packet
  buf : List UInt8 := []
  started : Bool := false
  pc : CPC := .recv
  out : List (List UInt8) := []
  closed : Nat := 0

/-- One step of `PayloadUnit`. -/
inductive UStep : USt → USt → Prop
  /-- line 28, 36-38 or no start -/
  | recv {s : USt} {p : Packet} {ps : List Packet} (hpc : s.pc = .recv) (h : s.input = p :: ps)
      (hn : (p.payloadUnitStartIndicator && s.started) = false) :
      UStep s { s with input := ps, buf := s.buf ++ p.payload,
                       started := s.started || p.payloadUnitStartIndicator }
  /-- lines 31-35: `if err != nil { output <- data }` -/
  | unit {s : USt} {p : Packet} {ps : List Packet} (hpc : s.pc = .recv) (h : s.input = p :: ps)
      (hn : (p.payloadUnitStartIndicator && s.started) = true) :
      UStep s { s with input := ps, buf := [],
                       pc := if (readAllBuffer (s.buf ++ p.payload)).2.isSome
                             then .send (readAllBuffer (s.buf ++ p.payload)).1 else .recv }
  | send {s : USt} {d : List UInt8} (hpc : s.pc = .send d) :
      UStep s { s with pc := .recv, out := s.out ++ [d] }
  | close {s : USt} (hpc : s.pc = .recv) (h : s.input = []) :
      UStep s { s with pc := .finished, closed := s.closed + 1 }

inductive UReach (ps : List Packet) : USt → Prop
  | init : UReach ps { input := ps }
  | step {s s' : USt} : UReach ps s → UStep s s' → UReach ps s'

end Mpeg.TS
