/-
The streams on which the decoder does not return: an extension after a group of pictures header.
-/
import Verif.Video.HeaderSpec
namespace Mpeg.Video.Spec

/-- Any number of user data sections and then an extension start code (`0x1B5`).  User data (`0x1B2`) are bytes up
to the first byte-aligned start code prefix (ISO 13818-2 6.2.2.2.2). -/
inductive UserThenExtension : List Bool → Prop
  | ext (r : List Bool) : UserThenExtension (bitsOf 32 0x1B5 ++ r)
  | user (d : List Nat) (r : List Bool) : (∀ x ∈ d, x < 256) →
      (∀ j < d.length, ((d.flatMap (bitsOf 8) ++ r).drop (8 * j)).take 24 ≠ prefix1) → UserThenExtension r →
      UserThenExtension (encUser d ++ r)

/-- A group of pictures header (`0x1B8` and 27 bits), fewer than 8 bits of padding and zero bytes, followed by user
data and an extension start code; between the header and the extension there is no other start code. -/
inductive GroupThenExtension : List Bool → Prop
  | mk (t pad : List Bool) (k : Nat) (r : List Bool) : t.length = 27 → pad.length < 8 → UserThenExtension r →
      GroupThenExtension (bitsOf 32 0x1B8 ++ (t ++ (pad ++ (zeros (8 * k) ++ r))))

end Mpeg.Video.Spec
