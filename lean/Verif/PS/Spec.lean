/-
Program streams as laid out by ISO/IEC 13818-1 §2.5.3 (pack header, system header), written as an encoder.
-/
import Verif.PES.Spec
namespace Mpeg.PS.Spec

/-- stream entry of a system header: stream_id (top bit set), buffer bound scale and size -/
structure Entry where
  id : Nat
  scale : Bool := false
  size : Nat := 0
deriving DecidableEq, Repr

def Entry.WF (e : Entry) : Prop := 128 ≤ e.id ∧ e.id < 256 ∧ e.size < 2 ^ 13
instance (e : Entry) : Decidable e.WF := by unfold Entry.WF; infer_instance

def encEntry (e : Entry) : List Bool := bitsOf 8 e.id ++ bitsOf 2 3 ++ [e.scale] ++ bitsOf 13 e.size

structure Sys where
  rateBound : Nat := 0
  audioBound : Nat := 0
  fixed : Bool := false
  csps : Bool := false
  audioLock : Bool := false
  videoLock : Bool := false
  videoBound : Nat := 0
  packetRateRestriction : Bool := false
  reserved : Nat := 127
  streams : List Entry := []
deriving DecidableEq, Repr

/-- header_length -/
def Sys.len (s : Sys) : Nat := 6 + 3 * s.streams.length

def Sys.WF (s : Sys) : Prop :=
  s.rateBound < 2 ^ 22 ∧ s.audioBound < 2 ^ 6 ∧ s.videoBound < 2 ^ 5 ∧ s.reserved < 2 ^ 7 ∧
  (∀ e ∈ s.streams, e.WF) ∧ s.len < 65536
instance (s : Sys) : Decidable s.WF := by unfold Sys.WF; infer_instance

def encSys (s : Sys) : List Bool :=
  bitsOf 32 0x1bb ++ bitsOf 16 s.len ++ [true] ++ bitsOf 22 s.rateBound ++ [true] ++ bitsOf 6 s.audioBound ++
  [s.fixed, s.csps, s.audioLock, s.videoLock, true] ++ bitsOf 5 s.videoBound ++ [s.packetRateRestriction] ++
  bitsOf 7 s.reserved ++ s.streams.flatMap encEntry

structure PHdr where
  scrBase : Nat := 0
  scrExt : Nat := 0
  muxRate : Nat := 0
  reserved : Nat := 31
  stuffing : List UInt8 := []
  system : Option Sys := none
deriving DecidableEq, Repr

def PHdr.WF (h : PHdr) : Prop :=
  h.scrBase < 2 ^ 33 ∧ h.scrExt < 2 ^ 9 ∧ h.muxRate < 2 ^ 22 ∧ h.reserved < 2 ^ 5 ∧ h.stuffing.length < 8 ∧
  ∀ s ∈ h.system, s.WF
instance (h : PHdr) : Decidable h.WF := by unfold PHdr.WF; infer_instance

/-- pack_start_code, `01`, SCR base in 3+15+15 bits, SCR extension, mux rate, marker bits, stuffing -/
def encPHdrFixed (h : PHdr) : List Bool :=
  bitsOf 32 0x1ba ++ bitsOf 2 1 ++ bitsOf 3 (h.scrBase / 2 ^ 30) ++ [true] ++
  bitsOf 15 (h.scrBase / 2 ^ 15 % 2 ^ 15) ++ [true] ++ bitsOf 15 (h.scrBase % 2 ^ 15) ++ [true] ++
  bitsOf 9 h.scrExt ++ [true] ++ bitsOf 22 h.muxRate ++ [true, true] ++ bitsOf 5 h.reserved ++
  bitsOf 3 h.stuffing.length ++ bitsOfBytes h.stuffing

def encOptSys : Option Sys → List Bool
  | none => []
  | some s => encSys s

def encPHdr (h : PHdr) : List Bool := encPHdrFixed h ++ encOptSys h.system

/-- A PES packet of a program stream: with header, or padding. -/
inductive Item where
  | media (id : Nat) (h : PES.Spec.Hdr) (d : List UInt8)
  | padding (d : List UInt8)

/-- stream ids of PES packets start at 0xBC -/
def Item.WF : Item → Prop
  | .media id h d => 0xbc ≤ id ∧ id < 256 ∧ id ∉ PES.Spec.noHeaderIds ∧ h.WF ∧ h.defect = none ∧
      3 + h.dataLen + d.length < 65536
  | .padding d => d.length < 65536

def encItem : Item → List Bool
  | .media id h d => PES.Spec.encPacket id h d
  | .padding d => PES.Spec.encPadding d

def Item.payload : Item → List UInt8
  | .media _ _ d => d
  | .padding _ => []

structure Pack where
  hdr : PHdr
  items : List Item

def Pack.WF (p : Pack) : Prop := p.hdr.WF ∧ ∀ i ∈ p.items, i.WF
def encPack (p : Pack) : List Bool := encPHdr p.hdr ++ p.items.flatMap encItem
def Pack.payload (p : Pack) : List UInt8 := p.items.flatMap Item.payload

/-- a program: packs and the MPEG_program_end_code -/
def encProgram (ps : List Pack) : List Bool := ps.flatMap encPack ++ bitsOf 32 0x1b9

end Mpeg.PS.Spec
