/-
Inputs without the bytes that make packet parsing panic.
-/
import Verif.Base.BR
import Verif.TS.Spec
import Verif.PES.PanicSpec
namespace Mpeg

/-- No run of bits that is left of the source contains a word of `P`, at whatever bit position. -/
def BR.Free (P : List Bool → Prop) (s : BR) : Prop :=
  ∀ g ∈ s.bits :: s.later.map (·.1), ∀ a w r, g = a ++ w ++ r → ¬ P w

/-- The source is one run of whole bytes in which no word of `P` begins with a byte. -/
def BR.FreeBytes (P : List Bool → Prop) (s : BR) : Prop :=
  s.later = [] ∧ (s.pos + s.bits.length) % 8 = 0 ∧ ∀ a w r, s.bits = a ++ w ++ r → (s.pos + a.length) % 8 = 0 → ¬ P w

/-- The beginning of a transport packet with payload whose adaptation field claims to be longer than 183 bytes. -/
def TS.Spec.LongWord (w : List Bool) : Prop :=
  ∃ (h : TS.Spec.Hdr) (n : Nat), h.WF ∧ 183 < n ∧ n < 256 ∧ w = TS.Spec.encHdr h 3 ++ bitsOf 8 n

/-- At place `i` of the bytes: a sync byte, three bytes further adaptation_field_control 11, and then a length above 183. -/
def TS.Spec.LongAt (bs : List UInt8) (i : Nat) : Prop :=
  bs[i]? = some 0x47 ∧ ∃ c n, bs[i + 3]? = some c ∧ bs[i + 4]? = some n ∧ c.toNat / 16 % 4 = 3 ∧ 183 < n.toNat

/-- Sixty-four bits that begin a PES packet with header, in which one of the six flags behind the time stamp flags is set. -/
def PES.Spec.FlagWord (w : List Bool) : Prop :=
  w.length = 64 ∧ w.take 24 = bitsOf 24 1 ∧ natOfBits ((w.drop 24).take 8) ∉ PES.Spec.noHeaderIds ∧
    (w.drop 48).take 2 = [true, false] ∧ (w.drop 58).any id = true

instance (w : List Bool) : Decidable (PES.Spec.FlagWord w) := by unfold PES.Spec.FlagWord; infer_instance

end Mpeg
