/-
Model of package ts: packet parsing.
-/
import Verif.Base.BR
namespace Mpeg.TS

/-- Go `uint32` subtraction. -/
def sub32 (a b : Nat) : Nat := (a + 2 ^ 32 - b % 2 ^ 32) % 2 ^ 32

/-- ts/packet.go:9 -/
abbrev syncByte : Nat := 0x47
/-- ts/packet.go:13 -/
abbrev maxPayloadSize : Nat := 184

/-- ts/adaptation_field.go:21-25 -/
structure TransportPrivateData where
  length : Nat := 0
  data : List UInt8 := []
deriving DecidableEq, Repr

/-- ts/adaptation_field.go:45-59 -/
structure AdaptationExt where
  legalTimeWindowFlag : Bool := false
  piecewiseRateFlag : Bool := false
  seamlessSpliceFlag : Bool := false
  ltwValidFlag : Bool := false
  ltwOffset : Nat := 0
  piecewiseRate : Nat := 0
  spliceType : Nat := 0
  dtsNextAU : Nat := 0
  length : Nat := 0
deriving DecidableEq, Repr

/-- ts/adaptation_field.go:126-146 -/
structure AdaptationField where
  discontinuityIndicator : Bool := false
  randomAccessIndicator : Bool := false
  elementaryStreamPriorityIndicator : Bool := false
  pcrFlag : Bool := false
  opcrFlag : Bool := false
  splicingPointFlag : Bool := false
  transportPrivateDataFlag : Bool := false
  adaptationFieldExtensionFlag : Bool := false
  pcr : Nat := 0
  opcr : Nat := 0
  spliceCountdown : Nat := 0
  transportPrivateData : Option TransportPrivateData := none
  adaptationExtension : Option AdaptationExt := none
  length : Nat := 0
  junk : List UInt8 := []
deriving DecidableEq, Repr

/-- ts/packet.go:39-51.  `buf` is `payloadBuffer`; `Payload` is always the slice
`payloadBuffer[0:payloadLen]` (nil and the empty slice are not distinguished). -/
structure Packet where
  transportErrorIndicator : Bool := false
  payloadUnitStartIndicator : Bool := false
  transportPriority : Bool := false
  pid : Nat := 0
  transportScramblingControl : Nat := 0
  adaptationFieldControl : Nat := 0
  continuityCounter : Nat := 0
  adaptationField : Option AdaptationField := none
  payloadLen : Nat := 0
  buf : List UInt8 := List.replicate 184 0
deriving DecidableEq, Repr

/-- `Packet.Payload` (ts/packet.go:48): a view of the packet's own buffer. -/
def Packet.payload (p : Packet) : List UInt8 := p.buf.take p.payloadLen

/-- `new(Packet)` -/
def Packet.new : Packet := {}

/-- `io.ReadFull` followed by `if err == io.EOF { return io.ErrUnexpectedEOF } else if err != nil { return err }`
(ts/adaptation_field.go:35-40, 240-245). -/
def readFullUE (n : Nat) : Go BR (List UInt8) := do
  let r ← BR.readFull n
  match r.2 with
  | none => pure r.1
  | some .eof => Go.throw .unexpectedEOF
  | some e => Go.throw e

/-- ts/adaptation_field.go:27-43.  (`make` of the private data buffer is not modelled as an
allocation.) -/
def newTransportPrivateData : Go BR (TransportPrivateData × Nat) := do
  let len ← BR.read 8
  let data ← Go.opt (decide (len > 0)) [] (readFullUE len)
  pure ({ length := len, data := data }, len)

/-- ts/adaptation_field.go:69-81 -/
def extFlags (c : Bool) : Go BR (Bool × Bool × Bool) :=
  Go.opt c (false, false, false) (do
    let l ← BR.read1
    let p ← BR.read1
    let s ← BR.read1
    Go.ignoreErr (BR.skip 5)
    pure (l, p, s))

/-- ts/adaptation_field.go:83-91 -/
def extLTW (c : Bool) : Go BR (Bool × Nat) :=
  Go.opt c (false, 0) (do
    let v ← BR.read1
    let o ← BR.read 15
    pure (v, o))

/-- ts/adaptation_field.go:93-99 -/
def extPiecewise (c : Bool) : Go BR Nat :=
  Go.opt c 0 (do
    Go.ignoreErr (BR.skip 2)
    BR.read 22)

/-- ts/adaptation_field.go:101-120 (the last marker bit is not read). -/
def extSplice (c : Bool) : Go BR (Nat × Nat) :=
  Go.opt c (0, 0) (do
    let t ← BR.read 4
    let v1 ← BR.read 3
    Go.ignoreErr (BR.skip 1)
    let v2 ← BR.read 15
    Go.ignoreErr (BR.skip 1)
    let v3 ← BR.read 15
    pure (t, v1 * 2 ^ 30 + v2 * 2 ^ 15 + v3))

/-- ts/adaptation_field.go:61-123.  Bytes of the extension that are not described by the flags
are not consumed here. -/
def newAdaptationExt : Go BR (AdaptationExt × Nat) := do
  let len ← BR.read 8
  let (l, p, s) ← extFlags (decide (len ≥ 1))
  let remain := if len ≥ 1 then len - 1 else len
  let (lv, lo) ← extLTW (decide (remain ≥ 2) && l)
  let remain := if remain ≥ 2 && l then remain - 2 else remain
  let pr ← extPiecewise (decide (remain ≥ 3) && p)
  let remain := if remain ≥ 3 && p then remain - 3 else remain
  let (st, dts) ← extSplice (decide (remain ≥ 5) && s)
  pure ({ legalTimeWindowFlag := l, piecewiseRateFlag := p, seamlessSpliceFlag := s,
          ltwValidFlag := lv, ltwOffset := lo, piecewiseRate := pr,
          spliceType := st, dtsNextAU := dts, length := len }, len)

/-- ts/adaptation_field.go:185-198 (`uint64` arithmetic: `% 2^64`). -/
def readPcr : Go BR Nat := do
  let base ← BR.read 33
  let _ ← BR.read 6
  let ext ← BR.read 9
  pure ((base * 300 + ext) % 2 ^ 64)

/-- ts/adaptation_field.go:157-183 -/
def afFlags (c : Bool) : Go BR AdaptationField :=
  Go.opt c {} (do
    let b0 ← BR.read1
    let b1 ← BR.read1
    let b2 ← BR.read1
    let b3 ← BR.read1
    let b4 ← BR.read1
    let b5 ← BR.read1
    let b6 ← BR.read1
    let b7 ← BR.read1
    pure { discontinuityIndicator := b0, randomAccessIndicator := b1,
           elementaryStreamPriorityIndicator := b2, pcrFlag := b3, opcrFlag := b4,
           splicingPointFlag := b5, transportPrivateDataFlag := b6,
           adaptationFieldExtensionFlag := b7 })

/-- `remainLength -= length + 1` when the part is present (ts/adaptation_field.go:226, 234) -/
def afterPart {α : Type} (remain : Nat) : Option (α × Nat) → Nat
  | some (_, l) => sub32 remain (l + 1)
  | none => remain

/-- ts/adaptation_field.go:148-249 -/
def newAdaptationField : Go BR (AdaptationField × Nat) := do
  let len ← BR.read 8
  let f ← afFlags (decide (len ≥ 1))
  let remain := if len ≥ 1 then len - 1 else len
  let pcr ← Go.opt (decide (remain ≥ 6) && f.pcrFlag) 0 readPcr
  let remain := if remain ≥ 6 && f.pcrFlag then remain - 6 else remain
  let opcr ← Go.opt (decide (remain ≥ 6) && f.opcrFlag) 0 readPcr
  let remain := if remain ≥ 6 && f.opcrFlag then remain - 6 else remain
  let sc ← Go.opt (decide (remain ≥ 1) && f.splicingPointFlag) 0 (BR.read 8)
  let remain := if remain ≥ 1 && f.splicingPointFlag then remain - 1 else remain
  let tpd ← Go.opt (decide (remain ≥ 1) && f.transportPrivateDataFlag) none
    (some <$> newTransportPrivateData)
  let remain := afterPart remain tpd
  let ext ← Go.opt (decide (remain ≥ 2) && f.adaptationFieldExtensionFlag) none
    (some <$> newAdaptationExt)
  let remain := afterPart remain ext
  let junk ← Go.opt (decide (remain > 0)) [] (readFullUE remain)
  pure ({ f with pcr := pcr, opcr := opcr, spliceCountdown := sc,
                 transportPrivateData := tpd.map (·.1), adaptationExtension := ext.map (·.1),
                 length := len, junk := junk }, len)

/-- A packet being filled from a bit reader. -/
structure St where
  pkt : Packet
  br : BR
deriving DecidableEq, Repr

def St.lift {α : Type} (m : Go BR α) : Go St α := fun s =>
  ((m s.br).1, { s with br := (m s.br).2 })

/-- `packet.F, err = br.ReadX(..); if err != nil { return }` : on error the field gets the zero value. -/
def readInto {α : Type} (m : Go BR α) (zero : α) (set : α → Packet → Packet) : Go St Unit := fun s =>
  match m s.br with
  | (.ok a, b) => (.ok (), ⟨set a s.pkt, b⟩)
  | (.err e, b) => (.err e, ⟨set zero s.pkt, b⟩)
  | (.panic, b) => (.panic, ⟨s.pkt, b⟩)
  | (.hang, b) => (.hang, ⟨s.pkt, b⟩)

/-- ts/packet.go:141-152 -/
def isAligned : Go BR Bool := fun s =>
  if s.isAligned = false then (.ok false, s)
  else (do let v ← BR.peek 8; pure (v == syncByte)) s

/-- ts/packet.go:159-171, `n` rounds left -/
def realignLoop : Nat → Go BR Unit
  | 0 => Go.throw .noSyncByte
  | n + 1 => do
    let v ← BR.peek 8
    if v = syncByte then pure ()
    else do
      BR.skip 8
      realignLoop n

/-- ts/packet.go:154-172 -/
def realign : Go BR Unit := fun s =>
  if s.isAligned = false then (do BR.align; realignLoop 188) s
  else realignLoop 188 s

/-- ts/packet.go:61-74 -/
def sync : Go BR Unit := do
  let a ← isAligned
  Go.opt (!a) () realign
  BR.skip 8

/-- ts/packet.go:117-125: `packet.AdaptationField, length, err = newAdaptationField(br)`;
the pointer becomes nil on error. -/
def readAdaptation : Go St Nat := fun s =>
  match newAdaptationField s.br with
  | (.ok (af, len), b) => (.ok len, ⟨{ s.pkt with adaptationField := some af }, b⟩)
  | (.err e, b) => (.err e, ⟨{ s.pkt with adaptationField := none }, b⟩)
  | (.panic, b) => (.panic, ⟨s.pkt, b⟩)
  | (.hang, b) => (.hang, ⟨s.pkt, b⟩)

/-- ts/packet.go:127-136: slice the buffer (panics when longer than the array) and fill it. -/
def readPayload (size : Nat) : Go St Unit := fun s =>
  if size > maxPayloadSize then (.panic, s)
  else
    match BR.readFull size s.br with
    | (.ok (bs, e), b) =>
      let st : St := ⟨{ s.pkt with payloadLen := size, buf := bs ++ s.pkt.buf.drop bs.length }, b⟩
      match e with
      | none => (.ok (), st)
      | some .eof => (.err .unexpectedEOF, st)
      | some e => (.err e, st)
    | (.err e, b) => (.err e, ⟨s.pkt, b⟩)
    | (.panic, b) => (.panic, ⟨s.pkt, b⟩)
    | (.hang, b) => (.hang, ⟨s.pkt, b⟩)

/-- ts/packet.go:61-139 -/
def Packet.next : Go St Unit := do
  St.lift sync
  readInto BR.read1 false (fun v p => { p with transportErrorIndicator := v })
  readInto BR.read1 false (fun v p => { p with payloadUnitStartIndicator := v })
  readInto BR.read1 false (fun v p => { p with transportPriority := v })
  readInto (BR.read 13) 0 (fun v p => { p with pid := v })
  readInto (BR.read 2) 0 (fun v p => { p with transportScramblingControl := v })
  let afc ← St.lift (BR.read 2)
  Go.modify (fun s => { s with pkt := { s.pkt with adaptationFieldControl := afc } })
  readInto (BR.read 4) 0 (fun v p => { p with continuityCounter := v })
  let size ← Go.opt (afc == 2 || afc == 3) maxPayloadSize (do
    let len ← readAdaptation
    pure (sub32 maxPayloadSize (len + 1)))
  Go.opt (afc == 1 || afc == 3) () (readPayload size)

/-- ts/packet.go:54-58 -/
def newPacket (br : BR) : Res Unit × St := Packet.next ⟨Packet.new, br⟩

end Mpeg.TS
