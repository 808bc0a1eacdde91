/-
Model of the ts stream readers: packet testers, payload reader, payload unit reader.
A `PacketTester` is an arbitrary (pure) Boolean function of the packet.
-/
import Verif.TS.Model
namespace Mpeg.TS

/-- ts/packet_tester.go:4 -/
abbrev Tester := Packet → Bool

/-- ts/packet_tester.go:6 -/
def alwaysTrue : Tester := fun _ => true
/-- ts/packet_tester.go:9-11 -/
def Tester.not (t : Tester) : Tester := fun p => !t p
/-- ts/packet_tester.go:14-16 -/
def Tester.and (t o : Tester) : Tester := fun p => t p && o p
/-- ts/packet_tester.go:19-21 -/
def Tester.or (t o : Tester) : Tester := fun p => t p || o p
/-- ts/packet_tester.go:25-27 -/
def isPID (pid : Nat) : Tester := fun p => p.pid == pid
/-- ts/packet_tester.go:32 -/
def isPayloadUnitStart : Tester := fun p => p.payloadUnitStartIndicator

/-! ### payload reader (ts/payload_reader.go) -/

/-- The testers of a payload reader (ts/payload_reader.go:22-24, 29-35). -/
structure PRCfg where
  whre : Tester
  skipUntil : Option Tester := none
  takeWhile : Tester := alwaysTrue

/-- ts/payload_reader.go:19-27.  `started = false` stands for `currentPacket == nil`; `st` holds the
current packet and the bit reader; `remainder` is the content of the `bytes.Buffer`. -/
structure PR where
  started : Bool := false
  st : St
  remainder : List UInt8 := []
  closed : Bool := false

/-- `NewPayloadReader` (ts/payload_reader.go:9-17) -/
def PR.new (br : BR) : PR := { st := ⟨Packet.new, br⟩ }

/-- ts/payload_reader.go:97-109: the error of `next` is ignored. -/
def PR.realign (t : Tester) : Nat → Go PR Unit
  | 0 => Go.hang
  | f + 1 => fun r =>
    match Packet.next r.st with
    | (.panic, st) => (.panic, { r with st := st })
    | (.hang, st) => (.hang, { r with st := st })
    | (_, st) =>
      if t st.pkt then
        (.ok (), { r with st := st, remainder := r.remainder ++ st.pkt.payload })
      else PR.realign t f { r with st := st }

/-- ts/payload_reader.go:69-91.  `n` is `len(p)`, `out` the bytes stored so far, `rem` the local
`remainder` slice. -/
def PR.fill (c : PRCfg) : Nat → Nat → List UInt8 → List UInt8 → Go PR (List UInt8 × Option Err)
  | 0, _, _, _ => Go.hang
  | f + 1, n, out, rem => fun r =>
    if n = 0 then (.ok (out, none), { r with remainder := r.remainder ++ rem })
    else
      match Packet.next r.st with
      | (.panic, st) => (.panic, { r with st := st })
      | (.hang, st) => (.hang, { r with st := st })
      | (.err e, st) => (.ok (out, some e), { r with st := st })
      | (.ok _, st) =>
        let p := st.pkt
        let w := c.whre p
        let out' := if w then out ++ p.payload.take n else out
        let n' := if w then n - min n p.payload.length else n
        let rem' := if w then p.payload.drop n else rem
        if c.takeWhile p = false then (.ok (out', some .eof), { r with st := st, closed := true })
        else PR.fill c f n' out' rem' { r with st := st }

/-- ts/payload_reader.go:55-66: `bytes.Buffer.Read` copies `min(len(p), len(buffer))` bytes and reports
`io.EOF` when the buffer is empty, so the drain loop ends with `p` full or the buffer empty. -/
def PR.drain (c : PRCfg) (fuel n : Nat) : Go PR (List UInt8 × Option Err) := fun r =>
  PR.fill c fuel (n - r.remainder.length) (r.remainder.take n) []
    { r with remainder := r.remainder.drop n }

/-- `Read(p)` with `len(p) = n` (ts/payload_reader.go:37-91): the bytes stored and the error.
`fuel` bounds the two loops. -/
def PR.read (c : PRCfg) (fuel n : Nat) : Go PR (List UInt8 × Option Err) := fun r =>
  if r.closed then (.ok ([], some .eof), r)
  else if r.started then PR.drain c fuel n r
  else
    match c.skipUntil with
    | none => PR.drain c fuel n { r with started := true }
    | some t => (do PR.realign t fuel; PR.drain c fuel n) { r with started := true }

/-! ### payload unit reader (ts/payload_unit_reader.go) -/

/-- ts/payload_unit_reader.go:32-39 (`ready = false` is the state `drained`; `startIndicator` is
`where.And(IsPayloadUnitStart)`, lines 24-28). -/
structure PU where
  started : Bool := false
  st : St
  buffer : List UInt8 := []
  ready : Bool := false

/-- `NewPayloadUnitReader` (ts/payload_unit_reader.go:23-30) -/
def PU.new (br : BR) : PU := { st := ⟨Packet.new, br⟩ }

/-- ts/payload_unit_reader.go:73-82: step until the first start indicator. -/
def PU.seek (w : Tester) : Nat → Go PU (Option Err)
  | 0 => Go.hang
  | f + 1 => fun r =>
    if (w.and isPayloadUnitStart) r.st.pkt then (.ok none, r)
    else
      match Packet.next r.st with
      | (.panic, st) => (.panic, { r with st := st })
      | (.hang, st) => (.hang, { r with st := st })
      | (.err e, st) => (.ok (some e), { r with st := st })
      | (.ok _, st) => PU.seek w f { r with st := st }

/-- ts/payload_unit_reader.go:86-103: read until the next start indicator. -/
def PU.collect (w : Tester) : Nat → Go PU (Option Err)
  | 0 => Go.hang
  | f + 1 => fun r =>
    let r := if w r.st.pkt then { r with buffer := r.buffer ++ r.st.pkt.payload } else r
    match Packet.next r.st with
    | (.panic, st) => (.panic, { r with st := st })
    | (.hang, st) => (.hang, { r with st := st })
    | (.err e, st) => (.ok (some e), { r with st := st })
    | (.ok _, st) =>
      if (w.and isPayloadUnitStart) st.pkt then (.ok none, { r with st := st })
      else PU.collect w f { r with st := st }

/-- ts/payload_unit_reader.go:66-106 -/
def PU.fill (w : Tester) (fuel : Nat) : Go PU (Option Err) := fun r =>
  if r.started then PU.collect w fuel r
  else (do
    let e ← PU.seek w fuel
    match e with
    | some e => pure (some e)
    | none => PU.collect w fuel) { r with started := true }

/-- ts/payload_unit_reader.go:50-63: hand out the buffered unit; an empty buffer ends it. -/
def PU.give (n : Nat) : Go PU (List UInt8 × Option Err) := fun r =>
  if n ≤ r.buffer.length then (.ok (r.buffer.take n, none), { r with buffer := r.buffer.drop n })
  else (.ok (r.buffer, some .eop), { r with buffer := [], ready := false })

/-- `Read(p)` with `len(p) = n` (ts/payload_unit_reader.go:41-64) -/
def PU.read (w : Tester) (fuel n : Nat) : Go PU (List UInt8 × Option Err) := fun r =>
  if r.ready then PU.give n r
  else
    (do
      let e ← PU.fill w fuel
      match e with
      | some e => pure ([], some e)
      | none => do
        Go.modify (fun r => { r with ready := true })
        PU.give n) r

end Mpeg.TS
