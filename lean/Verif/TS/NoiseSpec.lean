/-
Transport streams with bytes between the packets that belong to no packet.
-/
import Verif.TS.Spec
namespace Mpeg.TS.Spec

/-- Bytes that can lie between two packets: at most 187, none of them the sync byte. -/
def Noise (g : List UInt8) : Prop := (∀ b ∈ g, b ≠ 0x47) ∧ g.length ≤ 187

/-- Packets, each with the bytes in front of it, and the bytes after the last packet. -/
def noisy : List (List UInt8 × Pkt) → List UInt8 → List Bool
  | [], t => bitsOfBytes t
  | (g, p) :: l, t => bitsOfBytes g ++ (encPkt p ++ noisy l t)

/-- The same packets with nothing in between. -/
def clean (l : List (List UInt8 × Pkt)) : List Bool := (l.map fun x => encPkt x.2).flatten

/-- Legal packets between legal noise. -/
def NoisyWF (l : List (List UInt8 × Pkt)) (t : List UInt8) : Prop :=
  (∀ x ∈ l, Noise x.1 ∧ x.2.WF ∧ x.2.body.Plain) ∧ Noise t

end Mpeg.TS.Spec
