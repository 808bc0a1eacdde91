/-
Slices whose contents are damaged on the way: what is sent, what is received, and which samples are not harmed.
-/
import Verif.Video.SliceLossSpec
import Verif.Video.SynSpec
namespace Mpeg.Video.Spec

/-- `bits` starts with the start code of a slice in macroblock row `row` and is a slice by its syntax (with zero bits up to a
byte boundary and any number of zero bytes behind it): apart from that its contents (quantiser, addresses, types, vectors,
coefficients) are arbitrary, in particular addresses and vectors may point out of the picture. -/
def LooksLikeSlice (e : PicEnv) (row : Nat) (bits : List Bool) : Prop :=
  ∃ l k t, SliceWord e (LaxWord e) l ∧ row < 175 ∧ l = bitsOf 32 (0x101 + row) ++ t ∧
    bits = l ++ (zeros (padding l.length) ++ zeros (8 * k))

/-- A slice, its bits with the stuffing behind it, and if it is damaged what arrives in place of the bits: the macroblock row
of the start code, and the bits. -/
structure DPiece where
  slice : SliceData
  bits : List Bool
  damage : Option (Nat × List Bool)

def DPiece.received (p : DPiece) : List Bool :=
  match p.damage with
  | none => p.bits
  | some d => d.2

/-- A piece of a picture: a legal slice, and if it is damaged something that looks like a slice. -/
def DPiece.OK (e : PicEnv) (r : RefPics) (W H : Nat) (p : DPiece) : Prop :=
  SlicesCode e r W H 0 blank [p.slice] p.bits ∧ ∀ d, p.damage = some d → LooksLikeSlice e d.1 d.2

/-- The bits of a picture as they were sent, and as they arrive. -/
def sentBits (ps : List DPiece) : List Bool := ps.flatMap (·.bits)
def receivedBits (ps : List DPiece) : List Bool := ps.flatMap (·.received)

/-- Sample `(x, y)` of component `c` is as it was sent after the slices `ps`, if `A` holds before them: it is given its value
by an intact slice, and every damaged slice behind that one lies below it and was not meant to give a value to it. -/
def unharmed (pct c x y : Nat) : Prop → List DPiece → Prop
  | A, [] => A
  | A, p :: ps =>
    match p.damage with
    | none => unharmed pct c x y (A ∨ p.slice.Covers pct c x y) ps
    | some d => unharmed pct c x y (A ∧ y / side c < d.1 ∧ ¬ p.slice.Covers pct c x y) ps

end Mpeg.Video.Spec
