/-
Package ts with the sizes of the buffers that `make` is asked for.  The functions are those of `TS.Model`, in the same
order; `TS.C121_same` (Pipe/AllocProps) shows that forgetting the sizes gives back `TS.Model`.
-/
import Verif.TS.Model
namespace Mpeg

/-- A state with the sizes requested so far, in bytes. -/
structure Logged (σ : Type) where
  st : σ
  sizes : List Nat

/-- Code that requests nothing. -/
def Logged.lift {σ α : Type} (m : Go σ α) : Go (Logged σ) α := fun s => ((m s.st).1, ⟨(m s.st).2, s.sizes⟩)

/-- `make([]byte, n)` -/
def Logged.make {σ : Type} (n : Nat) : Go (Logged σ) Unit := fun s => (.ok (), ⟨s.st, s.sizes ++ [n]⟩)

namespace TS

/-- ts/adaptation_field.go:27-43, the request in line 34 -/
def aTransportPrivateData : Go (Logged BR) (TransportPrivateData × Nat) := do
  let len ← Logged.lift (BR.read 8)
  let data ← Go.opt (decide (len > 0)) [] (do
    Logged.make len
    Logged.lift (readFullUE len))
  pure ({ length := len, data := data }, len)

/-- ts/adaptation_field.go:148-249, the request in line 239 -/
def aAdaptationField : Go (Logged BR) (AdaptationField × Nat) := do
  let len ← Logged.lift (BR.read 8)
  let f ← Logged.lift (afFlags (decide (len ≥ 1)))
  let remain := if len ≥ 1 then len - 1 else len
  let pcr ← Logged.lift (Go.opt (decide (remain ≥ 6) && f.pcrFlag) 0 readPcr)
  let remain := if remain ≥ 6 && f.pcrFlag then remain - 6 else remain
  let opcr ← Logged.lift (Go.opt (decide (remain ≥ 6) && f.opcrFlag) 0 readPcr)
  let remain := if remain ≥ 6 && f.opcrFlag then remain - 6 else remain
  let sc ← Logged.lift (Go.opt (decide (remain ≥ 1) && f.splicingPointFlag) 0 (BR.read 8))
  let remain := if remain ≥ 1 && f.splicingPointFlag then remain - 1 else remain
  let tpd ← Go.opt (decide (remain ≥ 1) && f.transportPrivateDataFlag) none
    (some <$> aTransportPrivateData)
  let remain := afterPart remain tpd
  let ext ← Logged.lift (Go.opt (decide (remain ≥ 2) && f.adaptationFieldExtensionFlag) none
    (some <$> newAdaptationExt))
  let remain := afterPart remain ext
  let junk ← Go.opt (decide (remain > 0)) [] (do
    Logged.make remain
    Logged.lift (readFullUE remain))
  pure ({ f with pcr := pcr, opcr := opcr, spliceCountdown := sc,
                 transportPrivateData := tpd.map (·.1), adaptationExtension := ext.map (·.1),
                 length := len, junk := junk }, len)

/-- ts/packet.go:117-125 -/
def aReadAdaptation : Go (Logged St) Nat := fun s =>
  match aAdaptationField ⟨s.st.br, s.sizes⟩ with
  | (.ok (af, len), b) => (.ok len, ⟨⟨{ s.st.pkt with adaptationField := some af }, b.st⟩, b.sizes⟩)
  | (.err e, b) => (.err e, ⟨⟨{ s.st.pkt with adaptationField := none }, b.st⟩, b.sizes⟩)
  | (.panic, b) => (.panic, ⟨⟨s.st.pkt, b.st⟩, b.sizes⟩)
  | (.hang, b) => (.hang, ⟨⟨s.st.pkt, b.st⟩, b.sizes⟩)

/-- `Next` (ts/packet.go:61-139); the payload goes to the array of the packet. -/
def Packet.aNext : Go (Logged St) Unit := do
  Logged.lift (St.lift sync)
  Logged.lift (readInto BR.read1 false (fun v p => { p with transportErrorIndicator := v }))
  Logged.lift (readInto BR.read1 false (fun v p => { p with payloadUnitStartIndicator := v }))
  Logged.lift (readInto BR.read1 false (fun v p => { p with transportPriority := v }))
  Logged.lift (readInto (BR.read 13) 0 (fun v p => { p with pid := v }))
  Logged.lift (readInto (BR.read 2) 0 (fun v p => { p with transportScramblingControl := v }))
  let afc ← Logged.lift (St.lift (BR.read 2))
  Logged.lift (Go.modify (fun s => { s with pkt := { s.pkt with adaptationFieldControl := afc } }))
  Logged.lift (readInto (BR.read 4) 0 (fun v p => { p with continuityCounter := v }))
  let size ← Go.opt (afc == 2 || afc == 3) maxPayloadSize (do
    let len ← aReadAdaptation
    pure (sub32 maxPayloadSize (len + 1)))
  Logged.lift (Go.opt (afc == 1 || afc == 3) () (readPayload size))

end TS
end Mpeg
