/-
The program stream decoder as a whole: `Go`, the deferred calls after a panic in either goroutine, and `Go` called again.
-/
import Verif.PS.DecoderModel
namespace Mpeg.PS

/-- The decoder (`run`, of which `crashed` is not used here), and what the deferred calls depend on. -/
structure Life where
  run : DSt
  /-- the goroutine of `Go` has been started and has not ended -/
  running : Bool := false
  /-- the goroutine of `Go` is unwinding after a panic -/
  panicking : Bool := false
  /-- the goroutine of the current pack is unwinding after a panic of `pes.NewPacket` -/
  packPanic : Bool := false
  /-- such a goroutine has sent on packComplete: what is left is `close(packComplete)` and the crash -/
  dying : Bool := false
  /-- `d.packs` is closed -/
  closed : Bool := false
  /-- how often `Go` was called -/
  gos : Nat := 0
  /-- the program has crashed -/
  gone : Bool := false

/-- `NewDecoder` (ps/decoder.go:61-67) -/
def Life.new (br : BR) : Life := { run := .new br }

/-- Steps of the program (`Go`, only while no goroutine of an earlier call runs: anything else is a data race), of the goroutines and
of the consumers, which receive when they like. -/
inductive LifeStep : Life → Life → Prop
  /-- ps/decoder.go:17-19: a new `done`; reader, `packs` and `err` stay as they are -/
  | go {s : Life} (hg : s.gone = false) (h : s.running = false) :
      LifeStep s { s with running := true, gos := s.gos + 1, run := { s.run with d := .readPack } }
  /-- the goroutine of `Go`, as in `DStep`: reading, sending and closing on the open channel, receiving from a pack goroutine that has
  not panicked -/
  | d {s : Life} {r : DSt} (hg : s.gone = false) (hr : s.running = true) (h : DStep s.run r) (hf : r.d ≠ .finished)
      (ho : ∀ x, s.run.d = .send x → s.closed = false) (hc : s.run.d = .closePacks → s.closed = false)
      (hj : s.run.d = .wait → s.packPanic = false) :
      LifeStep s { s with run := r, closed := s.closed || s.run.d == .closePacks }
  /-- ps/decoder.go:33 and ps/pack.go:33 (deferred) with a pack goroutine that has panicked: both go on -/
  | joinPanic {s : Life} {r : DSt} (hg : s.gone = false) (hr : s.running = true) (hd : s.run.d = .wait) (hp : s.packPanic = true)
      (h : DStep s.run r) : LifeStep s { s with run := r, packPanic := false, dying := true }
  /-- ps/decoder.go:31: a send on the closed channel panics; the deferred calls run -/
  | sendClosed {s : Life} {x : PackHeader} (hg : s.gone = false) (hr : s.running = true) (hd : s.run.d = .send x)
      (hc : s.closed = true) : LifeStep s { s with run := { s.run with d := .closePacks }, panicking := true }
  /-- ps/decoder.go:22: closing the closed channel panics; the remaining deferred calls run -/
  | closeClosed {s : Life} (hg : s.gone = false) (hr : s.running = true) (hd : s.run.d = .closePacks) (hc : s.closed = true) :
      LifeStep s { s with run := { s.run with d := .sendDone }, panicking := true }
  /-- ps/decoder.go:20, the last deferred call; after a panic the program crashes -/
  | finish {s : Life} {r : DSt} (hg : s.gone = false) (hr : s.running = true) (h : DStep s.run r) (hf : r.d = .finished) :
      LifeStep s { s with run := r, running := s.panicking, gone := s.panicking }
  /-- the goroutine of the pack, as in `PStep`, but for a panic -/
  | p {s : Life} {r : DSt} (hg : s.gone = false) (h : PStep s.run r) (hc : r.crashed = s.run.crashed) : LifeStep s { s with run := r }
  /-- ps/pack.go:50: `pes.NewPacket` panics; the deferred calls (lines 32-34) run -/
  | packetPanic {s : Life} {b : BR} (hg : s.gone = false) (hp : s.run.p = .next) (h : newPacket s.run.br = (.panic, b)) :
      LifeStep s { s with run := { s.run with br := b, p := .close }, packPanic := true }
  /-- ps/pack.go:32 (deferred), then the program crashes -/
  | die {s : Life} (hg : s.gone = false) (h : s.dying = true) : LifeStep s { s with gone := true }

/-- Any number of steps. -/
inductive LifeSteps : Life → Life → Prop
  | refl (s : Life) : LifeSteps s s
  | tail {s s1 s2 : Life} : LifeSteps s s1 → LifeStep s1 s2 → LifeSteps s s2

end Mpeg.PS
