/-
PES packets as laid out by ISO/IEC 13818-1 §2.4.3.6, written as an encoder.  The fields whose value is
prescribed (the `10` marker, time stamp prefixes, marker bits, the `01` of the P-STD buffer, stuffing
bytes) are free here, so that malformed headers can be written down too; `defect` says which ones are wrong.
-/
import Verif.Base.Bits
import Verif.Base.Go
namespace Mpeg.PES.Spec

/-- A time stamp field: prefix, 33-bit value, three marker bits. -/
structure Stamp where
  pre : Nat
  value : Nat
  m1 : Bool := true
  m2 : Bool := true
  m3 : Bool := true
deriving DecidableEq, Repr

def Stamp.WF (t : Stamp) : Prop := t.pre < 16 ∧ t.value < 2 ^ 33
instance (t : Stamp) : Decidable t.WF := by unfold Stamp.WF; infer_instance

def encStamp (t : Stamp) : List Bool :=
  bitsOf 4 t.pre ++ bitsOf 3 (t.value / 2 ^ 30) ++ [t.m1] ++ bitsOf 15 (t.value / 2 ^ 15 % 2 ^ 15) ++
    [t.m2] ++ bitsOf 15 (t.value % 2 ^ 15) ++ [t.m3]

/-- a stamp with the given prefix and all its marker bits -/
def Stamp.good (pre : Nat) (t : Stamp) : Bool := t.pre == pre && t.m1 && t.m2 && t.m3

/-- The PTS_DTS_flags and the fields they announce (`01` is forbidden and announces nothing). -/
inductive Stamps where
  | none
  | forbidden
  | pts (p : Stamp)
  | ptsDts (p d : Stamp)
deriving DecidableEq, Repr

def Stamps.WF : Stamps → Prop
  | .none => True
  | .forbidden => True
  | .pts p => p.WF
  | .ptsDts p d => p.WF ∧ d.WF
instance (t : Stamps) : Decidable t.WF := by cases t <;> unfold Stamps.WF <;> infer_instance

def Stamps.flags : Stamps → Nat
  | .none => 0
  | .forbidden => 1
  | .pts _ => 2
  | .ptsDts _ _ => 3

def Stamps.len : Stamps → Nat
  | .none => 0
  | .forbidden => 0
  | .pts _ => 5
  | .ptsDts _ _ => 10

def encStamps : Stamps → List Bool
  | .none => []
  | .forbidden => []
  | .pts p => encStamp p
  | .ptsDts p d => encStamp p ++ encStamp d

def Stamps.good : Stamps → Bool
  | .none => true
  | .forbidden => true
  | .pts p => p.good 2
  | .ptsDts p d => p.good 3 && d.good 1

/-- Header extension: private data (16 bytes), P-STD buffer (2-bit marker, scale, size), and the three
reserved bits of the flags byte. -/
structure Ext where
  priv : Option (List UInt8) := .none
  reserved : Nat := 0
  pstd : Option (Nat × Nat × Nat) := .none
deriving DecidableEq, Repr

def Ext.WF (e : Ext) : Prop :=
  (∀ d ∈ e.priv, d.length = 16) ∧ ∀ b ∈ e.pstd, b.1 < 4 ∧ b.2.1 < 2 ∧ b.2.2 < 2 ^ 13
instance (e : Ext) : Decidable e.WF := by unfold Ext.WF; infer_instance

def encPriv : Option (List UInt8) → List Bool
  | .none => []
  | some d => bitsOfBytes d

def encPStd : Option (Nat × Nat × Nat) → List Bool
  | .none => []
  | some (m, sc, sz) => bitsOf 2 m ++ bitsOf 1 sc ++ bitsOf 13 sz

def encExt (e : Ext) : List Bool :=
  [e.priv.isSome, false, false, e.pstd.isSome] ++ bitsOf 3 e.reserved ++ [false] ++
    encPriv e.priv ++ encPStd e.pstd

def Ext.len (e : Ext) : Nat :=
  1 + (if e.priv.isSome then 16 else 0) + (if e.pstd.isSome then 2 else 0)

def Ext.good (e : Ext) : Bool := e.pstd.all (fun b => b.1 == 1)

structure Hdr where
  mark : Nat := 2
  scrambling : Nat := 0
  priority : Bool := false
  alignment : Bool := false
  copyright : Bool := false
  original : Bool := false
  stamps : Stamps := .none
  ext : Option Ext := .none
  stuffing : List UInt8 := []
deriving DecidableEq, Repr

def extLen : Option Ext → Nat
  | .none => 0
  | some e => e.len

/-- PES_header_data_length -/
def Hdr.dataLen (h : Hdr) : Nat := h.stamps.len + extLen h.ext + h.stuffing.length

def Hdr.WF (h : Hdr) : Prop :=
  h.mark < 4 ∧ h.scrambling < 4 ∧ h.stamps.WF ∧ (∀ e ∈ h.ext, e.WF) ∧ h.dataLen < 256
instance (h : Hdr) : Decidable h.WF := by unfold Hdr.WF; infer_instance

def encOptExt : Option Ext → List Bool
  | .none => []
  | some e => encExt e

/-- the three fixed bytes -/
def encFixed (h : Hdr) : List Bool :=
  bitsOf 2 h.mark ++ bitsOf 2 h.scrambling ++
    [h.priority, h.alignment, h.copyright, h.original] ++ bitsOf 2 h.stamps.flags ++
    [false, false, false, false, false, h.ext.isSome] ++ bitsOf 8 h.dataLen

def encHdr (h : Hdr) : List Bool :=
  encFixed h ++ encStamps h.stamps ++ encOptExt h.ext ++ bitsOfBytes h.stuffing

/-- The first defect of a header in reading order, with the error that reports it. -/
def Hdr.defect (h : Hdr) : Option Err :=
  if h.mark ≠ 2 then some .markerNotFound
  else if h.stamps.good = false then some .markerNotFound
  else if h.ext.all Ext.good = false then some .markerNotFound
  else if h.stuffing.all (· == 255) = false then some .invalidStuffingByte
  else .none

/-- the eight stream ids whose packets carry no PES header (ISO/IEC 13818-1 table 2-18 / §2.4.3.6) -/
def noHeaderIds : List Nat :=
  [0xbc /- program_stream_map -/, 0xbe /- padding_stream -/, 0xbf /- private_stream_2 -/,
   0xf0 /- ECM -/, 0xf1 /- EMM -/, 0xf2 /- DSMCC -/, 0xf8 /- H.222.1 type E -/,
   0xff /- program_stream_directory -/]

/-- packet_start_code_prefix, stream_id, PES_packet_length -/
def encStart (id len : Nat) : List Bool := bitsOf 24 1 ++ bitsOf 8 id ++ bitsOf 16 len

/-- A packet of known length. -/
def encPacket (id : Nat) (h : Hdr) (d : List UInt8) : List Bool :=
  encStart id (3 + h.dataLen + d.length) ++ encHdr h ++ bitsOfBytes d

/-- A packet of unspecified length (PES_packet_length = 0); it ends with its unit. -/
def encUnbounded (id : Nat) (h : Hdr) (d : List UInt8) : List Bool :=
  encStart id 0 ++ encHdr h ++ bitsOfBytes d

/-- A padding packet. -/
def encPadding (d : List UInt8) : List Bool := encStart 0xbe d.length ++ bitsOfBytes d

end Mpeg.PES.Spec
