/-
Package pes with the sizes of the buffers that `make` is asked for (as in TS/AllocModel).
-/
import Verif.PES.Model
import Verif.TS.AllocModel
namespace Mpeg.PES
open Mpeg.TS (sub32)

/-- pes/extension.go:23-90, the request in line 52 -/
def aReadExtension : Go (Logged BR) (Extension × Nat) := do
  let f0 ← Logged.lift BR.read1
  let f1 ← Logged.lift BR.read1
  let f2 ← Logged.lift BR.read1
  let f3 ← Logged.lift BR.read1
  Logged.lift (BR.skip 3)
  let f4 ← Logged.lift BR.read1
  let priv ← Go.opt f0 [] (do
    Logged.make 16
    Logged.lift (readExact 16))
  Go.opt f1 () Go.panic
  Go.opt f2 () Go.panic
  let pstd ← Logged.lift (Go.opt f3 none (some <$> readPStd))
  Go.opt f4 () Go.panic
  pure ({ privateDataFlag := f0, packHeaderFieldFlag := f1, programPacketSequenceCounterFlag := f2,
          pStdBufferFlag := f3, extensionFlag2 := f4, privateData := priv, pStdBuffer := pstd },
        1 + (if f0 then 16 else 0) + (if f3 then 2 else 0))

/-- pes/header.go:31-177 -/
def aReadHeader : Go (Logged BR) (Header × Nat) := do
  Logged.lift (marker 2 2)
  let h ← Logged.lift readFixed
  let (pts, dts, n) ← Logged.lift (readStamps h.ptsDtsFlags)
  Go.opt h.unsupported () Go.panic
  let ext ← Go.opt h.extensionFlag none (some <$> aReadExtension)
  let n := n + (ext.map (·.2)).getD 0
  let stuffing := sub32 h.headerDataLength n
  Logged.lift (readStuffing stuffing)
  pure ({ h with presentationTimeStamp := pts, decodingTimeStamp := dts,
                 extension := ext.map (·.1) }, (3 + n + stuffing) % 2 ^ 32)

/-- pes/packet.go:82-85 -/
def aHeaderInto : Go (Logged St) Nat := fun s =>
  match aReadHeader ⟨s.st.br, s.sizes⟩ with
  | (.ok (h, n), b) => (.ok n, ⟨⟨{ s.st.pkt with header := some h }, b.st⟩, b.sizes⟩)
  | (.err e, b) => (.err e, ⟨⟨{ s.st.pkt with header := none }, b.st⟩, b.sizes⟩)
  | (.panic, b) => (.panic, ⟨⟨s.st.pkt, b.st⟩, b.sizes⟩)
  | (.hang, b) => (.hang, ⟨⟨s.st.pkt, b.st⟩, b.sizes⟩)

/-- pes/packet.go:79-111, the requests in lines 89 and 104.  (`ioutil.ReadAll` in line 97 grows its buffer with what it
reads and is not counted.) -/
def Packet.aBody (id len : Nat) : Go (Logged St) Unit :=
  if hasPESHeader id then do
    let hlen ← aHeaderInto
    if len > 0 then do
      Logged.make (sub32 len hlen)
      Logged.lift (boundedPayload (sub32 len hlen))
    else Logged.lift unboundedPayload
  else if id = paddingStream then do
    Logged.make len
    let _ ← Logged.lift (St.lift (readExact len))
    pure ()
  else pure ()

/-- `Packet.Next` (pes/packet.go:50-112) -/
def Packet.aNext : Go (Logged St) Unit := do
  Logged.lift (St.lift prefix24)
  let id ← Logged.lift (readInto (BR.read 8) 0 (fun v p => { p with streamID := v }))
  let len ← Logged.lift (readInto (BR.read 16) 0 (fun v p => { p with packetLength := v }))
  Packet.aBody id len

end Mpeg.PES
