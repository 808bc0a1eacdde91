/-
The program stream decoder together with a program that ranges over `Packs()` and, for each pack, over
`pack.Packets().PayloadOnly()`, and then receives from the done channel:

    done := decoder.Go()
    for pack := range decoder.Packs() {
        for payload := range pack.Packets().PayloadOnly() { ... }
    }
    ok := <-done
-/
import Verif.PS.DecoderModel
namespace Mpeg.PS

/-- Program counter of the program. -/
inductive MPC where
  /-- ranges over `Packs()` (ps/decoder.go:52-54) -/
  | packs
  /-- ranges over the payloads of pack `k` -/
  | payloads (k : Nat)
  /-- receives from the done channel -/
  | waitDone
  | finished (ok : Bool)
deriving DecidableEq

/-- Program counter of the `PayloadOnly` goroutine of the pack that the program is at (pes/packet_channel.go:9-14). -/
inductive WPC where
  /-- not started -/
  | none
  /-- line 11 -/
  | recv
  /-- line 12, with the payload `d` -/
  | send (d : List UInt8)
  /-- line 10: the output has been closed -/
  | closed
deriving DecidableEq

/-- `out`: the payloads that the program has received.  They are passed by value: every packet is a new one with a new buffer
(pes/packet.go:44, 89, 97), and nobody writes into it. -/
structure PipeSt where
  d : DSt
  m : MPC := .packs
  w : WPC := .none
  out : List (List UInt8) := []

def PipeSt.new (b0 : BR) : PipeSt := { d := DSt.new b0 }

/-- Steps of the four goroutines: the decoder's, the current pack's, `PayloadOnly` and the program. -/
inductive PipeStep : PipeSt → PipeSt → Prop
  /-- a step of the decoder goroutine that needs no receiver -/
  | dec {s : PipeSt} {d' : DSt} (hc : s.d.crashed = false) (h : DStep s.d d') (h1 : ∀ h, s.d.d ≠ .send h)
      (h2 : s.d.d ≠ .sendDone) : PipeStep s { s with d := d' }
  /-- a step of the pack goroutine that needs no receiver -/
  | pck {s : PipeSt} {d' : DSt} (hc : s.d.crashed = false) (h : PStep s.d d') (h1 : ∀ q, s.d.p ≠ .send q) :
      PipeStep s { s with d := d' }
  /-- the program receives a pack and starts `PayloadOnly` (ps/decoder.go:31) -/
  | announce {s : PipeSt} {h : PackHeader} {d' : DSt} (hc : s.d.crashed = false) (hm : s.m = .packs)
      (hd : s.d.d = .send h) (h : DStep s.d d') :
      PipeStep s { s with d := d', m := .payloads (s.d.packs - 1), w := .recv }
  /-- `PayloadOnly` receives a packet (ps/pack.go:53, pes/packet_channel.go:11) -/
  | packet {s : PipeSt} {k : Nat} {q : PES.Packet} {d' : DSt} (hc : s.d.crashed = false) (hm : s.m = .payloads k)
      (hk : k = s.d.packs - 1) (hw : s.w = .recv) (hp : s.d.p = .send q) (h : PStep s.d d') :
      PipeStep s { s with d := d', w := .send q.payload }
  /-- the program receives a payload (pes/packet_channel.go:12) -/
  | take {s : PipeSt} {k : Nat} {x : List UInt8} (hc : s.d.crashed = false) (hm : s.m = .payloads k)
      (hw : s.w = .send x) : PipeStep s { s with w := .recv, out := s.out ++ [x] }
  /-- `PayloadOnly` finds its input closed and closes its output -/
  | wclose {s : PipeSt} {k : Nat} (hc : s.d.crashed = false) (hm : s.m = .payloads k) (hw : s.w = .recv)
      (h : Ev.closed k ∈ s.d.log) : PipeStep s { s with w := .closed }
  /-- the inner loop of the program ends -/
  | next {s : PipeSt} {k : Nat} (hc : s.d.crashed = false) (hm : s.m = .payloads k) (hw : s.w = .closed) :
      PipeStep s { s with m := .packs, w := .none }
  /-- the outer loop ends -/
  | packsEnd {s : PipeSt} (hc : s.d.crashed = false) (hm : s.m = .packs) (h : Ev.packsClosed ∈ s.d.log) :
      PipeStep s { s with m := .waitDone }
  /-- the program receives from the done channel (ps/decoder.go:21) -/
  | done {s : PipeSt} {d' : DSt} (hc : s.d.crashed = false) (hm : s.m = .waitDone) (hd : s.d.d = .sendDone)
      (h : DStep s.d d') : PipeStep s { s with d := d', m := .finished (s.d.err == Option.none) }

/-- Any interleaving. -/
inductive PipeReach (b0 : BR) : PipeSt → Prop
  | init : PipeReach b0 (PipeSt.new b0)
  | step {s s' : PipeSt} : PipeReach b0 s → PipeStep s s' → PipeReach b0 s'

/-- `n` steps. -/
inductive PipeSteps (b0 : BR) : Nat → PipeSt → Prop
  | init : PipeSteps b0 0 (PipeSt.new b0)
  | step {n : Nat} {s s' : PipeSt} : PipeSteps b0 n s → PipeStep s s' → PipeSteps b0 (n + 1) s'

end Mpeg.PS
