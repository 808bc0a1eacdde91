/-
Transport packet syntax of ISO/IEC 13818-1 (2.4.3.2, 2.4.3.4) as an encoder,
written independently of the parser model.
-/
import Verif.Base.Bits
namespace Mpeg.TS.Spec

/-- Header fields other than adaptation_field_control. -/
structure Hdr where
  tei : Bool
  pusi : Bool
  prio : Bool
  pid : Nat
  tsc : Nat
  cc : Nat
deriving DecidableEq, Repr

def Hdr.WF (h : Hdr) : Prop := h.pid < 2 ^ 13 ∧ h.tsc < 4 ∧ h.cc < 16
instance (h : Hdr) : Decidable h.WF := by unfold Hdr.WF; infer_instance

/-- transport_packet() up to and including continuity_counter -/
def encHdr (h : Hdr) (afc : Nat) : List Bool :=
  bitsOf 8 0x47 ++ (h.tei :: h.pusi :: h.prio :: (bitsOf 13 h.pid ++ (bitsOf 2 h.tsc ++
    (bitsOf 2 afc ++ bitsOf 4 h.cc))))

/-- program clock reference: base, reserved bits, extension -/
structure Clock where
  base : Nat
  reserved : Nat
  ext : Nat
deriving DecidableEq, Repr

def Clock.WF (c : Clock) : Prop := c.base < 2 ^ 33 ∧ c.ext < 2 ^ 9
def encClock (c : Clock) : List Bool := bitsOf 33 c.base ++ (bitsOf 6 c.reserved ++ bitsOf 9 c.ext)

/-- adaptation_field_extension -/
structure Ext where
  /-- ltw_valid_flag, ltw_offset -/
  ltw : Option (Bool × Nat)
  /-- reserved bits, piecewise_rate -/
  piecewise : Option (Nat × Nat)
  /-- Splice_type, DTS_next_AU, three marker bits -/
  splice : Option (Nat × Nat × Bool × Bool × Bool)
  /-- reserved bits of the flags byte -/
  res5 : Nat
  /-- trailing reserved bytes -/
  reserved : List UInt8
deriving DecidableEq, Repr

def Ext.WF (e : Ext) : Prop :=
  (∀ v o, e.ltw = some (v, o) → o < 2 ^ 15) ∧
  (∀ r o, e.piecewise = some (r, o) → o < 2 ^ 22) ∧
  (∀ t d m, e.splice = some (t, d, m) → t < 16 ∧ d < 2 ^ 33)

/-- number of bytes after the length byte -/
def Ext.len (e : Ext) : Nat :=
  1 + (if e.ltw.isSome then 2 else 0) + (if e.piecewise.isSome then 3 else 0) +
    (if e.splice.isSome then 5 else 0) + e.reserved.length

def encLtw : Option (Bool × Nat) → List Bool
  | none => []
  | some (v, o) => v :: bitsOf 15 o
def encPiecewise : Option (Nat × Nat) → List Bool
  | none => []
  | some (r, o) => bitsOf 2 r ++ bitsOf 22 o
def encSplice : Option (Nat × Nat × Bool × Bool × Bool) → List Bool
  | none => []
  | some (t, d, m1, m2, m3) =>
    bitsOf 4 t ++ (bitsOf 3 (d / 2 ^ 30) ++ (m1 :: (bitsOf 15 (d / 2 ^ 15) ++
      (m2 :: (bitsOf 15 d ++ [m3])))))

def encExt (e : Ext) : List Bool :=
  bitsOf 8 e.len ++ (e.ltw.isSome :: e.piecewise.isSome :: e.splice.isSome :: (bitsOf 5 e.res5 ++
    (encLtw e.ltw ++ (encPiecewise e.piecewise ++ (encSplice e.splice ++ bitsOfBytes e.reserved)))))

/-- An adaptation field of non-zero length. -/
structure AF where
  discontinuity : Bool
  randomAccess : Bool
  esPriority : Bool
  pcr : Option Clock
  opcr : Option Clock
  spliceCountdown : Option UInt8
  priv : Option (List UInt8)
  ext : Option Ext
  stuffing : List UInt8
deriving DecidableEq, Repr

def optLen {α : Type} (n : Nat) (o : Option α) : Nat := if o.isSome then n else 0

/-- adaptation_field_length -/
def AF.len (a : AF) : Nat :=
  1 + optLen 6 a.pcr + optLen 6 a.opcr + optLen 1 a.spliceCountdown +
    (match a.priv with | none => 0 | some d => 1 + d.length) +
    (match a.ext with | none => 0 | some e => 1 + e.len) + a.stuffing.length

/-- the fields are in range -/
def AF.Fields (a : AF) : Prop :=
  (∀ c, a.pcr = some c → c.WF) ∧ (∀ c, a.opcr = some c → c.WF) ∧ (∀ e, a.ext = some e → e.WF)
/-- ... and the field fits into a packet -/
def AF.WF (a : AF) : Prop := a.Fields ∧ a.len ≤ 183

def encPriv : Option (List UInt8) → List Bool
  | none => []
  | some d => bitsOf 8 d.length ++ bitsOfBytes d
def encOpt {α : Type} (f : α → List Bool) : Option α → List Bool
  | none => []
  | some c => f c

/-- adaptation_field() -/
def encAF (a : AF) : List Bool :=
  bitsOf 8 a.len ++ (a.discontinuity :: a.randomAccess :: a.esPriority :: a.pcr.isSome ::
    a.opcr.isSome :: a.spliceCountdown.isSome :: a.priv.isSome :: a.ext.isSome ::
    (encOpt encClock a.pcr ++ (encOpt encClock a.opcr ++
      (encOpt (fun b : UInt8 => bitsOf 8 b.toNat) a.spliceCountdown ++
      (encPriv a.priv ++ (encOpt encExt a.ext ++ bitsOfBytes a.stuffing))))))

/-- An adaptation field, possibly the one-byte one (length 0). -/
def encAF? : Option AF → List Bool
  | none => bitsOf 8 0
  | some a => encAF a
def len? : Option AF → Nat
  | none => 0
  | some a => a.len
def wf? : Option AF → Prop
  | none => True
  | some a => a.WF

/-- The body of a packet after the four header bytes. -/
inductive Body where
  /-- adaptation_field_control = 01 -/
  | payload (data : List UInt8)
  /-- adaptation_field_control = 10 -/
  | af (a : Option AF)
  /-- adaptation_field_control = 11 -/
  | afPayload (a : Option AF) (data : List UInt8)
deriving Repr

def Body.afc : Body → Nat
  | .payload _ => 1
  | .af _ => 2
  | .afPayload _ _ => 3

def encBody : Body → List Bool
  | .payload d => bitsOfBytes d
  | .af a => encAF? a
  | .afPayload a d => encAF? a ++ bitsOfBytes d

/-- fills the 184 bytes after the header -/
def Body.WF : Body → Prop
  | .payload d => d.length = 184
  | .af a => wf? a ∧ len? a = 183
  | .afPayload a d => wf? a ∧ 1 + len? a + d.length = 184

structure Pkt where
  hdr : Hdr
  body : Body
deriving Repr

def Pkt.WF (p : Pkt) : Prop := p.hdr.WF ∧ p.body.WF
/-- transport_packet() -/
def encPkt (p : Pkt) : List Bool := encHdr p.hdr p.body.afc ++ encBody p.body

/-- The extension uses neither seamless splice nor reserved bytes. -/
def Ext.Plain (e : Ext) : Prop := e.splice = none ∧ e.reserved = []
def AF.Plain (a : AF) : Prop := ∀ e, a.ext = some e → e.Plain
def plain? : Option AF → Prop
  | none => True
  | some a => a.Plain
def Body.Plain : Body → Prop
  | .payload _ => True
  | .af a => plain? a
  | .afPayload a _ => plain? a

/-! the encodings have the lengths the standard gives them -/

theorem length_encHdr (h : Hdr) (afc : Nat) : (encHdr h afc).length = 32 := by simp [encHdr]
theorem length_encClock (c : Clock) : (encClock c).length = 48 := by simp [encClock]
theorem length_encExt (e : Ext) : (encExt e).length = 8 * (1 + e.len) := by
  rcases e with ⟨l, p, s, r5, r⟩
  rcases l with _ | ⟨v, o⟩ <;> rcases p with _ | ⟨q, o'⟩ <;> rcases s with _ | ⟨t, d, m1, m2, m3⟩ <;>
    simp [encExt, encLtw, encPiecewise, encSplice, Ext.len] <;> omega
theorem length_encAF (a : AF) : (encAF a).length = 8 * (1 + a.len) := by
  rcases a with ⟨d, ra, ep, pcr, opcr, sc, priv, ext, st⟩
  rcases pcr with _ | pcr <;> rcases opcr with _ | opcr <;> rcases sc with _ | sc <;>
  rcases priv with _ | priv <;> rcases ext with _ | ext <;>
  simp [encAF, AF.len, encOpt, optLen, encPriv, length_encClock, length_encExt] <;> omega
theorem length_encAF? (a : Option AF) : (encAF? a).length = 8 * (1 + len? a) := by
  cases a with
  | none => simp [encAF?, len?]
  | some a => simp [encAF?, len?, length_encAF]
theorem length_encPkt (p : Pkt) (h : p.WF) : (encPkt p).length = 188 * 8 := by
  rcases p with ⟨h0, b⟩
  have hb := h.2
  cases b with
  | payload d => simp only [Body.WF] at hb; simp [encPkt, length_encHdr, encBody, hb]
  | af a => simp only [Body.WF] at hb; simp [encPkt, length_encHdr, encBody, hb, length_encAF?]
  | afPayload a d =>
    simp only [Body.WF] at hb; simp [encPkt, length_encHdr, encBody, length_encAF?]; omega

end Mpeg.TS.Spec
