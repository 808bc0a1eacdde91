/-
Model of package ps: pack header, system header, pack reader.
-/
import Verif.Base.StartCode
import Verif.PES.Model
namespace Mpeg.PS

/-- ps/start_code.go:14-16 -/
abbrev packStartCode : Nat := 0x1ba
abbrev programEndCode : Nat := 0x1b9
abbrev systemHeaderStartCode : Nat := 0x1bb

/-- `v, err := r.Read32(k); err != nil → return err; v != x → return ErrMarkerNotFound`
(ps/pack_header.go:18-22, 32-36, .., ps/system_header.go:38-42, ..) -/
def marker (k x : Nat) : Go BR Unit := do
  let v ← BR.read k
  Go.check (v == x) .markerNotFound

/-- ps/system_header.go:18-22 -/
structure Stream where
  streamID : Nat := 0
  boundScale : Bool := false
  sizeBound : Nat := 0
deriving DecidableEq, Repr

/-- ps/system_header.go:5-16 -/
structure SystemHeader where
  headerLength : Nat := 0
  rateBound : Nat := 0
  audioBound : Nat := 0
  fixed : Bool := false
  csps : Bool := false
  audioLock : Bool := false
  videoLock : Bool := false
  videoBound : Nat := 0
  packetRateRestriction : Bool := false
  streams : List Stream := []
deriving DecidableEq, Repr

/-- ps/system_header.go:115-139: one stream entry -/
def readStream : Go BR Stream := do
  let sid ← BR.read 8
  marker 2 3
  let scale ← BR.read1
  let size ← BR.read 13
  pure ⟨sid, scale, size⟩

/-- ps/system_header.go:108-142; the first argument bounds the iterations. -/
def streamsLoop : Nat → Go BR (List Stream)
  | 0 => Go.hang
  | f + 1 => do
    let b ← BR.peek 1
    if b = 1 then do
      let x ← readStream
      let l ← streamsLoop f
      pure (x :: l)
    else pure []

/-- ps/system_header.go:108-142.  Every iteration consumes bits of the current segment, so its number of bits
bounds the iterations (`PS.streams_return`). -/
def readStreams : Go BR (List Stream) := fun s => streamsLoop (s.bits.length + 1) s

/-- `readSystemHeader` (ps/system_header.go:24-145).  The video bound (lines 92-96) is stored in `AudioBound`. -/
def readSystemHeader : Go BR SystemHeader := do
  BR.skip 32
  let hl ← BR.read 16
  marker 1 1
  let rb ← BR.read 22
  marker 1 1
  let _ ← BR.read 6
  let fixed ← BR.read1
  let csps ← BR.read1
  let al ← BR.read1
  let vl ← BR.read1
  marker 1 1
  let ab ← BR.read 5
  let prr ← BR.read1
  BR.skip 7
  let streams ← readStreams
  pure { headerLength := hl, rateBound := rb, audioBound := ab, fixed := fixed, csps := csps, audioLock := al,
         videoLock := vl, packetRateRestriction := prr, streams := streams }

/-- ps/pack_header.go:5-10 -/
structure PackHeader where
  scrBase : Nat := 0
  scrExtension : Nat := 0
  muxRate : Nat := 0
  system : Option SystemHeader := none
deriving DecidableEq, Repr

/-- ps/pack_header.go:99-102: `n` stuffing bytes; the result of `Skip` is ignored. -/
def skipStuffing : Nat → Go BR Unit
  | 0 => pure ()
  | n + 1 => do
    Go.ignoreErr (BR.skip 8)
    skipStuffing n

/-- ps/pack_header.go:14-103: everything before the optional system header (`uint32` arithmetic) -/
def readPackFixed : Go BR PackHeader := do
  codeAssert 32 packStartCode .unexpectedStartCode
  marker 2 1
  let v1 ← BR.read 3
  marker 1 1
  let v2 ← BR.read 15
  marker 1 1
  let v3 ← BR.read 15
  marker 1 1
  let ext ← BR.read 9
  marker 1 1
  let rate ← BR.read 22
  marker 1 1
  marker 1 1
  BR.skip 5
  let n ← BR.read 3
  skipStuffing n
  pure { scrBase := ((v1 <<< 30) % 2 ^ 32 ||| (v2 <<< 15) % 2 ^ 32) ||| v3, scrExtension := ext, muxRate := rate }

/-- `NewPackHeader` (ps/pack_header.go:12-115) -/
def newPackHeader : Go BR PackHeader := do
  let h ← readPackFixed
  let t ← codeCheck 32 systemHeaderStartCode
  let sys ← Go.opt t none (some <$> readSystemHeader)
  pure { h with system := sys }

/-- `pes.NewPacket(r)` (pes/packet.go:43-47) over the reader alone -/
def newPacket : Go BR PES.Packet := fun s =>
  match PES.Packet.next ⟨{}, s⟩ with
  | (.ok _, t) => (.ok t.pkt, t.br)
  | (.err e, t) => (.err e, t.br)
  | (.panic, t) => (.panic, t.br)
  | (.hang, t) => (.hang, t.br)

/-! ### pack reader (ps/pack_reader.go) -/

/-- ps/pack_reader.go:13-16 -/
structure PackReader where
  br : BR
  remainder : List UInt8 := []
deriving DecidableEq, Repr

/-- `NewPackReader` (ps/pack_reader.go:18-23) -/
def PackReader.new (br : BR) : PackReader := { br := br }

/-- The outcome of `Read(d)`: the bytes stored in `d`, the reported count and error. -/
structure RR where
  stored : List UInt8
  count : Nat
  err : Option Err
deriving DecidableEq, Repr

/-- label MORE_PACKETS (ps/pack_reader.go:58-73) with `k` bytes wanted and `out` stored so far; `again` is
label STEP. -/
def PackReader.more (again : Nat → List UInt8 → Go PackReader RR) (k : Nat) (out : List UInt8) :
    Go PackReader RR := fun r =>
  match newPacket r.br with
  | (.ok p, b) =>
    if k ≤ p.payload.length then
      (.ok ⟨out ++ p.payload.take k, (out ++ p.payload.take k).length, none⟩,
        { r with br := b, remainder := r.remainder ++ p.payload.drop k })
    else again (k - p.payload.length) (out ++ p.payload) { r with br := b }
  | (.err _, b) => (.ok ⟨out, 0, none⟩, { r with br := b })
  | (.panic, b) => (.panic, { r with br := b })
  | (.hang, b) => (.hang, { r with br := b })

/-- label STEP (ps/pack_reader.go:42-80) with `k > 0` bytes wanted and `out` stored so far; the first argument
bounds the iterations. -/
def PackReader.step : Nat → Nat → List UInt8 → Go PackReader RR
  | 0, _, _ => Go.hang
  | f + 1, k, out => fun r =>
    match BR.peek 32 r.br with
    | (.ok v, b) =>
      if v = programEndCode then
        (.ok ⟨out, out.length, some .eof⟩, { r with br := (BR.skip 32 b).2 })
      else if v = packStartCode then
        match newPackHeader b with
        | (.ok _, b') => PackReader.more (PackReader.step f) k out { r with br := b' }
        | (.err e, b') => (.ok ⟨out, 0, some e⟩, { r with br := b' })
        | (.panic, b') => (.panic, { r with br := b' })
        | (.hang, b') => (.hang, { r with br := b' })
      else PackReader.more (PackReader.step f) k out { r with br := b }
    | (.err _, b) => (.ok ⟨out, 0, none⟩, { r with br := b })
    | (.panic, b) => (.panic, { r with br := b })
    | (.hang, b) => (.hang, { r with br := b })

/-- number of unread bits, over all segments -/
def bitsLeft (s : BR) : Nat := s.bits.length + (s.later.map (·.1.length)).sum

/-- `Read(d)` with `len(d) = n` (ps/pack_reader.go:25-81).  Every iteration consumes bits, so the number of unread
bits bounds the iterations (`PS.read_returns`). -/
def PackReader.read (n : Nat) : Go PackReader RR := fun r =>
  if n ≤ r.remainder.length then
    (.ok ⟨r.remainder.take n, n, none⟩, { r with remainder := r.remainder.drop n })
  else PackReader.step (bitsLeft r.br + 1) (n - r.remainder.length) r.remainder { r with remainder := [] }

end Mpeg.PS
