/-
Model of package pes: packet and header parsing, payload reader.
-/
import Verif.TS.Model
namespace Mpeg.PES
open Mpeg.TS (sub32)

/-- pes/packet.go:10 -/
abbrev startCodePrefix : Nat := 1
/-- pes/stream_assigments.go:6 -/
abbrev paddingStream : Nat := 0xbe

/-- pes/stream_assigments.go:24-33 -/
def hasPESHeader (id : Nat) : Bool :=
  id != 0xbc && id != 0xbe && id != 0xbf && id != 0xf0 && id != 0xf1 && id != 0xff &&
  id != 0xf2 && id != 0xf8

/-- pes/extension.go:18-21 -/
structure PStdBuffer where
  scale : Nat
  size : Nat
deriving DecidableEq, Repr

/-- pes/extension.go:7-16 -/
structure Extension where
  privateDataFlag : Bool := false
  packHeaderFieldFlag : Bool := false
  programPacketSequenceCounterFlag : Bool := false
  pStdBufferFlag : Bool := false
  extensionFlag2 : Bool := false
  privateData : List UInt8 := []
  pStdBuffer : Option PStdBuffer := none
deriving DecidableEq, Repr

/-- pes/header.go:10-29 -/
structure Header where
  scramblingControl : Nat := 0
  priority : Bool := false
  dataAlignmentIndicator : Bool := false
  copyright : Bool := false
  originalOrCopy : Bool := false
  ptsDtsFlags : Nat := 0
  escrFlag : Bool := false
  esRateFlag : Bool := false
  dsmTrickModeFlag : Bool := false
  additionalCopyInfoFlag : Bool := false
  crcFlag : Bool := false
  extensionFlag : Bool := false
  headerDataLength : Nat := 0
  presentationTimeStamp : Nat := 0
  decodingTimeStamp : Nat := 0
  extension : Option Extension := none
deriving DecidableEq, Repr

/-- pes/packet.go:35-40 -/
structure Packet where
  streamID : Nat := 0
  packetLength : Nat := 0
  header : Option Header := none
  payload : List UInt8 := []
deriving DecidableEq, Repr

/-- `val, err := r.Read32(k); if val != v || err != nil { return ErrMarkerNotFound }`
(pes/header.go:33-36, 200-203, 212-215, 224-227, 236-239, pes/extension.go:69-71): a read error is
reported as a missing marker as well. -/
def marker (k v : Nat) : Go BR Unit := fun s =>
  match BR.read k s with
  | (.ok x, s') => if x = v then (.ok (), s') else (.err .markerNotFound, s')
  | (.err _, s') => (.err .markerNotFound, s')
  | (.panic, s') => (.panic, s')
  | (.hang, s') => (.hang, s')

/-- pes/header.go:192-242 (`uint32` arithmetic); the returned length is always 5. -/
def readTimeStamp (m : Nat) : Go BR Nat := do
  marker 4 m
  let v1 ← BR.read 3
  marker 1 1
  let v2 ← BR.read 15
  marker 1 1
  let v3 ← BR.read 15
  marker 1 1
  pure (((v1 <<< 30) % 2 ^ 32 ||| (v2 <<< 15) % 2 ^ 32) ||| v3)

/-- pes/header.go:179-190: `n` bytes still to read. -/
def readStuffing : Nat → Go BR Unit
  | 0 => pure ()
  | n + 1 => do
    let v ← BR.read 8
    Go.check (v == 255) .invalidStuffingByte
    readStuffing n

/-- `io.ReadAtLeast(r, buf, len(buf))` followed by `if err != nil { return err }`: the error is passed on. -/
def readExact (n : Nat) : Go BR (List UInt8) := do
  let r ← BR.readFull n
  match r.2 with
  | none => pure r.1
  | some e => Go.throw e

/-- pes/extension.go:68-83 -/
def readPStd : Go BR PStdBuffer := do
  marker 2 1
  let scale ← BR.read 1
  let size ← BR.read 13
  pure ⟨scale, size⟩

/-- pes/extension.go:23-90; returns the extension and the number of bytes read. -/
def readExtension : Go BR (Extension × Nat) := do
  let f0 ← BR.read1
  let f1 ← BR.read1
  let f2 ← BR.read1
  let f3 ← BR.read1
  BR.skip 3
  let f4 ← BR.read1
  let priv ← Go.opt f0 [] (readExact 16)
  Go.opt f1 () Go.panic
  Go.opt f2 () Go.panic
  let pstd ← Go.opt f3 none (some <$> readPStd)
  Go.opt f4 () Go.panic
  pure ({ privateDataFlag := f0, packHeaderFieldFlag := f1, programPacketSequenceCounterFlag := f2,
          pStdBufferFlag := f3, extensionFlag2 := f4, privateData := priv, pStdBuffer := pstd },
        1 + (if f0 then 16 else 0) + (if f3 then 2 else 0))

/-- pes/header.go:107-136: PTS, DTS and the number of bytes read. -/
def readStamps (flags : Nat) : Go BR (Nat × Nat × Nat) :=
  if flags = 2 then do
    let p ← readTimeStamp 2
    pure (p, 0, 5)
  else if flags = 3 then do
    let p ← readTimeStamp 3
    let d ← readTimeStamp 1
    pure (p, d, 10)
  else pure (0, 0, 0)

/-- pes/header.go:40-103: the fixed part of the header after the `10` marker. -/
def readFixed : Go BR Header := do
  let sc ← BR.read 2
  let b0 ← BR.read1
  let b1 ← BR.read1
  let b2 ← BR.read1
  let b3 ← BR.read1
  let pd ← BR.read 2
  let f0 ← BR.read1
  let f1 ← BR.read1
  let f2 ← BR.read1
  let f3 ← BR.read1
  let f4 ← BR.read1
  let f5 ← BR.read1
  let len ← BR.read 8
  pure { scramblingControl := sc, priority := b0, dataAlignmentIndicator := b1, copyright := b2,
         originalOrCopy := b3, ptsDtsFlags := pd, escrFlag := f0, esRateFlag := f1,
         dsmTrickModeFlag := f2, additionalCopyInfoFlag := f3, crcFlag := f4, extensionFlag := f5,
         headerDataLength := len }

/-- pes/header.go:138-156: the optional fields that are not implemented panic. -/
def Header.unsupported (h : Header) : Bool :=
  h.escrFlag || h.esRateFlag || h.dsmTrickModeFlag || h.additionalCopyInfoFlag || h.crcFlag

/-- pes/header.go:31-177; returns the header and the number of bytes read (`uint32`). -/
def readHeader : Go BR (Header × Nat) := do
  marker 2 2
  let h ← readFixed
  let (pts, dts, n) ← readStamps h.ptsDtsFlags
  Go.opt h.unsupported () Go.panic
  let ext ← Go.opt h.extensionFlag none (some <$> readExtension)
  let n := n + (ext.map (·.2)).getD 0
  let stuffing := sub32 h.headerDataLength n
  readStuffing stuffing
  pure ({ h with presentationTimeStamp := pts, decodingTimeStamp := dts,
                 extension := ext.map (·.1) }, (3 + n + stuffing) % 2 ^ 32)

/-- A packet being filled from a bit reader. -/
structure St where
  pkt : Packet := {}
  br : BR
deriving DecidableEq, Repr

def St.lift {α : Type} (m : Go BR α) : Go St α := fun s =>
  ((m s.br).1, { s with br := (m s.br).2 })

/-- `packet.F, err = m(..); if err != nil { return err }` : on error the field gets the zero value. -/
def readInto {α : Type} (m : Go BR α) (zero : α) (set : α → Packet → Packet) : Go St α := fun s =>
  match m s.br with
  | (.ok a, b) => (.ok a, ⟨set a s.pkt, b⟩)
  | (.err e, b) => (.err e, ⟨set zero s.pkt, b⟩)
  | (.panic, b) => (.panic, ⟨s.pkt, b⟩)
  | (.hang, b) => (.hang, ⟨s.pkt, b⟩)

/-- pes/packet.go:82-85: `packet.Header, headerLen, err = readHeader(reader)`. -/
def headerInto : Go St Nat := fun s =>
  match readHeader s.br with
  | (.ok (h, n), b) => (.ok n, ⟨{ s.pkt with header := some h }, b⟩)
  | (.err e, b) => (.err e, ⟨{ s.pkt with header := none }, b⟩)
  | (.panic, b) => (.panic, ⟨s.pkt, b⟩)
  | (.hang, b) => (.hang, ⟨s.pkt, b⟩)

/-- pes/packet.go:88-93: a new slice of `n` bytes is filled; bytes that could not be read stay 0.
(The allocation itself always succeeds: out-of-memory is not modelled; `int` has 64 bits.) -/
def boundedPayload (n : Nat) : Go St Unit := fun s =>
  match BR.readFull n s.br with
  | (.ok (bs, e), b) =>
    let st : St := ⟨{ s.pkt with payload := bs ++ List.replicate (n - bs.length) 0 }, b⟩
    match e with
    | none => (.ok (), st)
    | some e => (.err e, st)
  | (.err e, b) => (.err e, ⟨s.pkt, b⟩)
  | (.panic, b) => (.panic, ⟨s.pkt, b⟩)
  | (.hang, b) => (.hang, ⟨s.pkt, b⟩)

/-- pes/packet.go:97-100: everything up to the end of the segment; `ts.EOP` is not an error. -/
def unboundedPayload : Go St Unit := fun s =>
  match BR.readAll s.br with
  | (.ok (bs, e), b) =>
    let st : St := ⟨{ s.pkt with payload := bs }, b⟩
    match e with
    | none => (.ok (), st)
    | some .eop => (.ok (), st)
    | some e => (.err e, st)
  | (.err e, b) => (.err e, ⟨s.pkt, b⟩)
  | (.panic, b) => (.panic, ⟨s.pkt, b⟩)
  | (.hang, b) => (.hang, ⟨s.pkt, b⟩)

/-- pes/packet.go:79-111 -/
def Packet.body (id len : Nat) : Go St Unit :=
  if hasPESHeader id then do
    let hlen ← headerInto
    if len > 0 then boundedPayload (sub32 len hlen)
    else unboundedPayload
  else if id = paddingStream then do
    let _ ← St.lift (readExact len)
    pure ()
  else pure ()

/-- pes/packet.go:57-67 -/
def prefix24 : Go BR Unit := do
  let v ← BR.peek 24
  Go.check (v == startCodePrefix) .startCodePrefixNotFound
  Go.ignoreErr (BR.skip 24)

/-- `Packet.Next` (pes/packet.go:50-112) -/
def Packet.next : Go St Unit := do
  St.lift prefix24
  let id ← readInto (BR.read 8) 0 (fun v p => { p with streamID := v })
  let len ← readInto (BR.read 16) 0 (fun v p => { p with packetLength := v })
  Packet.body id len

/-- `NewPacket` (pes/packet.go:43-47) -/
def newPacket (br : BR) : Res Unit × St := Packet.next ⟨{}, br⟩

/-! ### payload reader (pes/payload_reader.go) -/

/-- pes/payload_reader.go:15-19 -/
structure PR where
  st : St
  remainder : List UInt8 := []
deriving DecidableEq, Repr

/-- `NewPayloadReader` (pes/payload_reader.go:8-13) -/
def PR.new (br : BR) : PR := { st := ⟨{}, br⟩ }

/-- pes/payload_reader.go:35-53.  `n` is `len(p)`, `out` the bytes stored so far, `rem` the local
`remainder` slice. -/
def PR.fill : Nat → Nat → List UInt8 → List UInt8 → Go PR (List UInt8 × Option Err)
  | 0, _, _, _ => Go.hang
  | f + 1, n, out, rem => fun r =>
    if n = 0 then (.ok (out, none), { r with remainder := r.remainder ++ rem })
    else
      match Packet.next r.st with
      | (.panic, st) => (.panic, { r with st := st })
      | (.hang, st) => (.hang, { r with st := st })
      | (.err e, st) => (.ok (out, some e), { r with st := st })
      | (.ok _, st) =>
        PR.fill f (n - min n st.pkt.payload.length) (out ++ st.pkt.payload.take n)
          (st.pkt.payload.drop n) { r with st := st }

/-- `Read(p)` with `len(p) = n` (pes/payload_reader.go:21-54): the bytes stored and the error. -/
def PR.read (fuel n : Nat) : Go PR (List UInt8 × Option Err) := fun r =>
  PR.fill fuel (n - r.remainder.length) (r.remainder.take n) []
    { r with remainder := r.remainder.drop n }

end Mpeg.PES
