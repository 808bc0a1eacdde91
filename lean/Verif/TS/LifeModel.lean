/-
The demuxer as a whole: configuration, `Go`, the deferred calls after a panic, and `Go` called again.
-/
import Verif.TS.DemuxModel
namespace Mpeg.TS

/-- The calls that configure a demuxer. `Where` makes a new channel; channels are numbered in the order of their creation. -/
inductive Call where
  | where_ (t : Tester)
  | skipUntil (t : Tester)
  | takeWhile (t : Tester)

/-- `NewDemuxer` (ts/demuxer.go:7-13) -/
def Demuxer.new : Demuxer := { chans := [], skipUntil := alwaysTrue, takeWhile := alwaysTrue }

/-- `Where`, `SkipUntil`, `TakeWhile` (ts/demuxer.go:35-51) -/
def Demuxer.call (d : Demuxer) : Call → Demuxer
  | .where_ t => { d with chans := d.chans ++ [t] }
  | .skipUntil t => { d with skipUntil := t }
  | .takeWhile t => { d with takeWhile := t }

/-- The demuxer, its goroutine (if `running`), whether that is unwinding after a panic, which channels have been closed, and how
often `Go` was called. -/
structure LSt where
  d : Demuxer
  run : DSt
  running : Bool := false
  panicking : Bool := false
  closed : Nat → Bool := fun _ => false
  gos : Nat := 0

/-- ts/demuxer.go:7-13 -/
def LSt.new (br : BR) : LSt := { d := .new, run := .new br }

/-- The channels closed after a step of the goroutine (line 66). -/
def LSt.closedAfter (s : LSt) : Nat → Bool :=
  match s.run.pc with
  | .closing i => if i < s.d.chans.length then setW s.closed i true else s.closed
  | _ => s.closed

/-- The goroutine is about to use (send on, or close) channel `i`. -/
def LSt.uses (s : LSt) (i : Nat) : Prop :=
  ∃ t, s.d.chans[i]? = some t ∧ ((s.run.pc = .send i ∧ t s.run.st.pkt = true) ∨ s.run.pc = .closing i)

/-- Steps of the program (configuration and `Go`, only while no goroutine runs: anything else is a data race), of the goroutine, and
of the consumers. A crash is the end of the program. -/
inductive LStep : LSt → LSt → Prop
  | call {s : LSt} (c : Call) (h : s.running = false) : LStep s { s with d := s.d.call c }
  /-- ts/demuxer.go:54-60: a new `Packet`, a new `done`; the reader and `lastErr` stay as they are -/
  | go {s : LSt} (h : s.running = false) :
      LStep s { s with running := true, gos := s.gos + 1,
                       run := { s.run with st := ⟨Packet.new, s.run.st.br⟩, skipping := true, pc := .fetch, waitDone := false } }
  /-- the goroutine, as in `DStep`, on open channels -/
  | step {s : LSt} {r : DSt} (hr : s.running = true) (h : DStep s.d s.run r) (hp : r.pc ≠ .crashed) (hf : r.pc ≠ .finished)
      (ho : ∀ i, s.uses i → s.closed i = false) : LStep s { s with run := r, closed := s.closedAfter }
  /-- the value of `done` is received (line 68) and the goroutine ends; after a panic the program crashes -/
  | finish {s : LSt} {r : DSt} (hr : s.running = true) (h : DStep s.d s.run r) (hf : r.pc = .finished) :
      LStep s { s with run := if s.panicking then { r with pc := .crashed } else r, running := s.panicking }
  /-- a panic of `Next` (line 72): the deferred function (lines 64-69) runs -/
  | nextPanic {s : LSt} {st : St} (hr : s.running = true) (hpc : s.run.pc = .fetch) (h : Packet.next s.run.st = (.panic, st)) :
      LStep s { s with run := { s.run with st := st, pc := .closing 0 }, panicking := true }
  /-- a send on a closed channel (line 93) panics: the deferred function runs -/
  | sendClosed {s : LSt} {i : Nat} {t : Tester} (hr : s.running = true) (hpc : s.run.pc = .send i) (hi : s.d.chans[i]? = some t)
      (ht : t s.run.st.pkt = true) (hc : s.closed i = true) :
      LStep s { s with run := { s.run with pc := .closing 0 }, panicking := true }
  /-- closing a closed channel (line 66) panics, inside of the deferred function -/
  | closeClosed {s : LSt} {i : Nat} {t : Tester} (hr : s.running = true) (hpc : s.run.pc = .closing i) (hi : s.d.chans[i]? = some t)
      (hc : s.closed i = true) : LStep s { s with run := { s.run with pc := .crashed }, panicking := true }
  | env {s : LSt} {r : DSt} (h : EStep s.run r) (hc : s.run.pc ≠ .crashed) : LStep s { s with run := r }

/-- States reachable by any interleaving from a new demuxer. -/
inductive LReach (br : BR) : LSt → Prop
  | new : LReach br (.new br)
  | step {s s' : LSt} : LReach br s → LStep s s' → LReach br s'

end Mpeg.TS
