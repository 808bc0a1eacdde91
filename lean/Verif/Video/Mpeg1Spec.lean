/-
Start codes in an input.
-/
import Verif.Base.Bits
namespace Mpeg.Video.Spec

/-- The 32 bits `v` are somewhere in `g`, at whatever bit. -/
def Occurs (v : Nat) (g : List Bool) : Prop := ∃ j r, g.drop j = bitsOf 32 v ++ r

end Mpeg.Video.Spec
