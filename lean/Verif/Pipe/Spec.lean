/-
Readers stacked on each other: transport stream, PES, elementary stream.
-/
import Verif.PES.Spec
import Verif.Base.BR
namespace Mpeg.Pipe
open PES.Spec

/-! ### the contract of a bit reader on top of a reader -/

/-- What Reads with buffers of the given sizes return from a source of segments of bytes, each ended by an error.
Reading stops after the last segment. -/
def deliverSegs : List (List UInt8 × Err) → List Nat → List (List UInt8 × Option Err)
  | _, [] => []
  | [], _ :: _ => []
  | (c, e) :: rest, n :: ns =>
    if n ≤ c.length then (c.take n, none) :: deliverSegs ((c.drop n, e) :: rest) ns
    else (c, some e) :: deliverSegs rest ns

/-- `br` is `bitreader.NewReader(r)` for a reader `r` whose Reads with (non-empty) buffers of the sizes `ns` return
`reads ns`: the segments of `br` are those that the Reads of `r` deliver, whatever the sizes.  (This is the contract of
the bit reader, `Base/BR`, for sources with errors that are not final.) -/
def IsSource (reads : List Nat → Res (List (List UInt8 × Option Err))) (br : BR) : Prop :=
  ∃ (c : List UInt8) (e : Err) (rest : List (List UInt8 × Err)),
    br = ⟨bitsOfBytes c, 0, e, rest.map fun s => (bitsOfBytes s.1, s.2)⟩ ∧
    ∀ ns, (∀ n ∈ ns, 0 < n) → reads ns = .ok (deliverSegs ((c, e) :: rest) ns)

/-! ### payload units that carry PES packets -/

/-- A PES packet with header. -/
structure PesPkt where
  id : Nat
  hdr : Hdr
  data : List UInt8

def PesPkt.WF (p : PesPkt) : Prop := p.id < 256 ∧ p.id ∉ noHeaderIds ∧ p.hdr.WF ∧ p.hdr.defect = none

/-- A payload unit: PES packets of known length, the last of which may be one of unknown length, which ends with the
unit. -/
structure PesUnit where
  closed : List PesPkt
  last : Option PesPkt

def PesUnit.WF (u : PesUnit) : Prop :=
  (∀ p ∈ u.closed, p.WF ∧ 3 + p.hdr.dataLen + p.data.length < 65536) ∧ ∀ p, u.last = some p → p.WF

def PesUnit.enc (u : PesUnit) : List Bool :=
  u.closed.flatMap (fun p => encPacket p.id p.hdr p.data) ++
    match u.last with
    | none => []
    | some p => encUnbounded p.id p.hdr p.data

/-- the payload of a unit -/
def PesUnit.payload (u : PesUnit) : List UInt8 :=
  u.closed.flatMap (·.data) ++
    match u.last with
    | none => []
    | some p => p.data

/-- The elementary stream in pieces: a piece ends where a unit ends with a packet of known length. -/
def pieces : List PesUnit → List (List UInt8)
  | [] => [[]]
  | u :: us =>
    match u.last, pieces us with
    | none, ps => u.payload :: ps
    | some _, [] => [u.payload]
    | some _, p :: ps => (u.payload ++ p) :: ps

end Mpeg.Pipe
