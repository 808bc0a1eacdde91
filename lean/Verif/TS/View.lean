/-
What the API has to report for an encoded packet (specification side).
-/
import Verif.TS.Spec
import Verif.TS.Model
namespace Mpeg.TS.Spec

def viewExt (e : Ext) : AdaptationExt where
  legalTimeWindowFlag := e.ltw.isSome
  piecewiseRateFlag := e.piecewise.isSome
  seamlessSpliceFlag := e.splice.isSome
  ltwValidFlag := match e.ltw with | some (v, _) => v | none => false
  ltwOffset := match e.ltw with | some (_, o) => o | none => 0
  piecewiseRate := match e.piecewise with | some (_, o) => o | none => 0
  spliceType := match e.splice with | some (t, _) => t | none => 0
  dtsNextAU := match e.splice with | some (_, d, _) => d | none => 0
  length := e.len

def viewClock : Option Clock → Nat
  | none => 0
  | some c => c.base * 300 + c.ext

def viewAF (a : AF) : AdaptationField where
  discontinuityIndicator := a.discontinuity
  randomAccessIndicator := a.randomAccess
  elementaryStreamPriorityIndicator := a.esPriority
  pcrFlag := a.pcr.isSome
  opcrFlag := a.opcr.isSome
  splicingPointFlag := a.spliceCountdown.isSome
  transportPrivateDataFlag := a.priv.isSome
  adaptationFieldExtensionFlag := a.ext.isSome
  pcr := viewClock a.pcr
  opcr := viewClock a.opcr
  spliceCountdown := (a.spliceCountdown.map UInt8.toNat).getD 0
  transportPrivateData := a.priv.map (fun d => { length := d.length, data := d })
  adaptationExtension := a.ext.map viewExt
  length := a.len
  junk := a.stuffing

def viewAF? : Option AF → AdaptationField
  | none => {}
  | some a => viewAF a

/-- Header fields of `p` as encoded. -/
def HdrIs (p : Packet) (h : Hdr) (afc : Nat) : Prop :=
  p.transportErrorIndicator = h.tei ∧ p.payloadUnitStartIndicator = h.pusi ∧
  p.transportPriority = h.prio ∧ p.pid = h.pid ∧ p.transportScramblingControl = h.tsc ∧
  p.adaptationFieldControl = afc ∧ p.continuityCounter = h.cc

/-- The packet value after reading `b` into a packet that held `p0`:
fields that the new packet does not carry keep their old contents. -/
def AfterBody (p0 p : Packet) : Body → Prop
  | .payload d => p.payload = d ∧ p.adaptationField = p0.adaptationField
  | .af a => p.payload = p0.payload ∧ p.adaptationField = some (viewAF? a)
  | .afPayload a d => p.payload = d ∧ p.adaptationField = some (viewAF? a)

end Mpeg.TS.Spec
