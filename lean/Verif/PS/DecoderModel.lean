/-
Model of ps.Decoder: the goroutine of `Go()` (ps/decoder.go:19-50) and the goroutine that `readPack` starts for
every pack (ps/pack.go:31-56), as small-step machines over one bit reader.

A send on a channel of the consumer is a step that may be delayed arbitrarily (the consumer decides when to
receive); the packets of a pack can only be received after the pack itself was received.  Closing never blocks.
`close(packComplete)` (ps/pack.go:32) is left out: nobody uses that channel after the receive of line 33 of
ps/decoder.go.
-/
import Verif.PS.Model
namespace Mpeg.PS

/-- What happens on the channels, in the order in which it happens: pack number `k` received by the consumer,
a packet received from the channel of pack `k`, that channel closed, `Packs()` closed, a value received from the
done channel, the done channel closed. -/
inductive Ev where
  | pack (k : Nat) (h : PackHeader)
  | packet (k : Nat) (p : PES.Packet)
  | closed (k : Nat)
  | packsClosed
  | done (b : Bool)
  | doneClosed
deriving DecidableEq

/-- program counter of the decoder goroutine (ps/decoder.go) -/
inductive DPC where
  /-- line 25 -/
  | readPack
  /-- line 31 -/
  | send (h : PackHeader)
  /-- line 33 -/
  | wait
  /-- line 35 -/
  | peekNext
  /-- line 43 -/
  | peekEnd
  /-- line 22 (deferred calls run in reverse order) -/
  | closePacks
  /-- line 21 -/
  | sendDone
  /-- line 20 -/
  | closeDone
  | finished
deriving DecidableEq

/-- program counter of a pack goroutine (ps/pack.go) -/
inductive PPC where
  /-- not started, or ended -/
  | none
  /-- line 38 -/
  | peek24
  /-- line 44 -/
  | peek32
  /-- line 50 -/
  | next
  /-- line 53 -/
  | send (p : PES.Packet)
  /-- line 34 (deferred) -/
  | close
  /-- line 33 (deferred) -/
  | complete
deriving DecidableEq

structure DSt where
  br : BR
  d : DPC := .readPack
  p : PPC := .none
  /-- number of packs for which `readPack` has started a goroutine -/
  packs : Nat := 0
  /-- `d.err` -/
  err : Option Err := Option.none
  /-- a goroutine panicked: the program is gone -/
  crashed : Bool := false
  log : List Ev := []

/-- `NewDecoder(r)` and `Go()` (ps/decoder.go:17-19, 61-67) -/
def DSt.new (br : BR) : DSt := { br := br }

/-- One step of the decoder goroutine. -/
inductive DStep : DSt → DSt → Prop
  /-- ps/decoder.go:25-29, ps/pack.go:26-29 -/
  | header_err {s : DSt} {e : Err} {b : BR} (hpc : s.d = .readPack) (h : newPackHeader s.br = (.err e, b)) :
      DStep s { s with br := b, err := some e, d := .closePacks }
  /-- ps/pack.go:31, 58 -/
  | header {s : DSt} {h : PackHeader} {b : BR} (hpc : s.d = .readPack) (hh : newPackHeader s.br = (.ok h, b)) :
      DStep s { s with br := b, d := .send h, p := .peek24, packs := s.packs + 1 }
  /-- ps/decoder.go:31: the consumer receives the pack -/
  | announce {s : DSt} {h : PackHeader} (hpc : s.d = .send h) :
      DStep s { s with d := .wait, log := s.log ++ [.pack (s.packs - 1) h] }
  /-- ps/decoder.go:33, ps/pack.go:33 -/
  | join {s : DSt} (hpc : s.d = .wait) (hp : s.p = .complete) : DStep s { s with d := .peekNext, p := .none }
  /-- ps/decoder.go:35-37 -/
  | next_err {s : DSt} {e : Err} {b : BR} (hpc : s.d = .peekNext) (h : BR.peek 32 s.br = (.err e, b)) :
      DStep s { s with br := b, err := some e, d := .closePacks }
  /-- the loop goes on -/
  | next_pack {s : DSt} {v : Nat} {b : BR} (hpc : s.d = .peekNext) (h : BR.peek 32 s.br = (.ok v, b))
      (hv : v = packStartCode) : DStep s { s with br := b, d := .readPack }
  /-- ps/decoder.go:38-39 -/
  | next_other {s : DSt} {v : Nat} {b : BR} (hpc : s.d = .peekNext) (h : BR.peek 32 s.br = (.ok v, b))
      (hv : v ≠ packStartCode) : DStep s { s with br := b, d := .peekEnd }
  /-- ps/decoder.go:43-45 -/
  | end_err {s : DSt} {e : Err} {b : BR} (hpc : s.d = .peekEnd) (h : BR.peek 32 s.br = (.err e, b)) :
      DStep s { s with br := b, err := some e, d := .closePacks }
  /-- ps/decoder.go:46-49 -/
  | end_other {s : DSt} {v : Nat} {b : BR} (hpc : s.d = .peekEnd) (h : BR.peek 32 s.br = (.ok v, b))
      (hv : v ≠ programEndCode) :
      DStep s { s with br := b, err := some .programEndCodeNotFound, d := .closePacks }
  /-- ps/decoder.go:50 -/
  | end_ok {s : DSt} {v : Nat} {b : BR} (hpc : s.d = .peekEnd) (h : BR.peek 32 s.br = (.ok v, b))
      (hv : v = programEndCode) : DStep s { s with br := b, d := .closePacks }
  /-- ps/decoder.go:22 -/
  | closePacks {s : DSt} (hpc : s.d = .closePacks) :
      DStep s { s with d := .sendDone, log := s.log ++ [.packsClosed] }
  /-- ps/decoder.go:21 -/
  | sendDone {s : DSt} (hpc : s.d = .sendDone) :
      DStep s { s with d := .closeDone, log := s.log ++ [.done (s.err == Option.none)] }
  /-- ps/decoder.go:20 -/
  | closeDone {s : DSt} (hpc : s.d = .closeDone) :
      DStep s { s with d := .finished, log := s.log ++ [.doneClosed] }

/-- the pack of the running pack goroutine has been received by the consumer -/
def DSt.announced (s : DSt) : Prop := ∃ h, Ev.pack (s.packs - 1) h ∈ s.log

/-- One step of a pack goroutine. -/
inductive PStep : DSt → DSt → Prop
  /-- ps/pack.go:38-39 -/
  | peek_err {s : DSt} {e : Err} {b : BR} (hpc : s.p = .peek24) (h : BR.peek 24 s.br = (.err e, b)) :
      PStep s { s with br := b, p := .close }
  /-- ps/pack.go:40-42 -/
  | no_prefix {s : DSt} {v : Nat} {b : BR} (hpc : s.p = .peek24) (h : BR.peek 24 s.br = (.ok v, b))
      (hv : v ≠ 1) : PStep s { s with br := b, p := .close }
  | prefix {s : DSt} {v : Nat} {b : BR} (hpc : s.p = .peek24) (h : BR.peek 24 s.br = (.ok v, b))
      (hv : v = 1) : PStep s { s with br := b, p := .peek32 }
  /-- ps/pack.go:44-45 -/
  | code_err {s : DSt} {e : Err} {b : BR} (hpc : s.p = .peek32) (h : BR.peek 32 s.br = (.err e, b)) :
      PStep s { s with br := b, p := .close }
  /-- ps/pack.go:46-48 -/
  | code_stop {s : DSt} {v : Nat} {b : BR} (hpc : s.p = .peek32) (h : BR.peek 32 s.br = (.ok v, b))
      (hv : v = packStartCode ∨ v = programEndCode) : PStep s { s with br := b, p := .close }
  | code_next {s : DSt} {v : Nat} {b : BR} (hpc : s.p = .peek32) (h : BR.peek 32 s.br = (.ok v, b))
      (hv : ¬ (v = packStartCode ∨ v = programEndCode)) : PStep s { s with br := b, p := .next }
  /-- ps/pack.go:50-51 -/
  | packet_err {s : DSt} {e : Err} {b : BR} (hpc : s.p = .next) (h : newPacket s.br = (.err e, b)) :
      PStep s { s with br := b, p := .close }
  | packet_panic {s : DSt} {b : BR} (hpc : s.p = .next) (h : newPacket s.br = (.panic, b)) :
      PStep s { s with br := b, crashed := true }
  | packet {s : DSt} {q : PES.Packet} {b : BR} (hpc : s.p = .next) (h : newPacket s.br = (.ok q, b)) :
      PStep s { s with br := b, p := .send q }
  /-- ps/pack.go:53: the consumer receives the packet -/
  | send {s : DSt} {q : PES.Packet} (hpc : s.p = .send q) (ha : s.announced) :
      PStep s { s with p := .peek24, log := s.log ++ [.packet (s.packs - 1) q] }
  /-- ps/pack.go:34 -/
  | close {s : DSt} (hpc : s.p = .close) :
      PStep s { s with p := .complete, log := s.log ++ [.closed (s.packs - 1)] }

/-- Any interleaving of the two goroutines and the consumer. -/
inductive Step : DSt → DSt → Prop
  | d {s s' : DSt} (hc : s.crashed = false) : DStep s s' → Step s s'
  | p {s s' : DSt} (hc : s.crashed = false) : PStep s s' → Step s s'

inductive Reach (br : BR) : DSt → Prop
  | init : Reach br (DSt.new br)
  | step {s s' : DSt} : Reach br s → Step s s' → Reach br s'

end Mpeg.PS
