/-
Slices that are lost: which samples a slice gives values to, pictures and streams of which slices are missing.
-/
import Verif.Video.StreamSpec
namespace Mpeg.Video.Spec

/-- The addresses of the macroblocks of a slice, behind macroblock `a` (none at the start of the slice): those that are
coded, and if `skip` also the skipped ones between them. -/
def mbAddrs (skip : Bool) : Option Nat → List MbData → List Nat
  | _, [] => []
  | a, m :: ms =>
    addrAfter a m.incr :: ((match a with
      | some a => if skip then List.range' (a + 1) (m.incr - 1) else []
      | none => []) ++ mbAddrs skip (some (addrAfter a m.incr)) ms)

/-- The slice gives a value to sample `(x, y)` of component `c`.  (Macroblocks are skipped in P and B pictures only.) -/
def SliceData.Covers (pct : Nat) (sl : SliceData) (c x y : Nat) : Prop :=
  y / side c = sl.row ∧ x / side c ∈ mbAddrs (pct = 2 ∨ pct = 3) none sl.mbs

/-- A slice, its bits with the stuffing behind it, and whether it arrives. -/
structure Piece where
  slice : SliceData
  bits : List Bool
  arrives : Bool

/-- The bits of a picture as they were sent, and as they arrive. -/
def sent (ps : List Piece) : List Bool := ps.flatMap (·.bits)
def arrived (ps : List Piece) : List Bool := (ps.filter (·.arrives)).flatMap (·.bits)

/-! ### streams -/

/-- A part of a stream: headers (none) or a slice with the stuffing behind it. -/
structure Segment where
  slice : Option SliceData
  bits : List Bool

/-- What is left of a stream when the slices whose flag is `false` are lost; one flag for every slice, in coding order. -/
def keep : List Bool → List Segment → List Bool
  | _, [] => []
  | fs, ⟨none, b⟩ :: ss => b ++ keep fs ss
  | [], ⟨some _, b⟩ :: ss => b ++ keep [] ss
  | f :: fs, ⟨some _, b⟩ :: ss => (if f then b else []) ++ keep fs ss

/-- A picture with, for every slice, whether it arrives. -/
structure LCoded where
  sent : Coded
  flags : List Bool

/-- At least one slice arrives. -/
def LCoded.OK (c : LCoded) : Prop := c.flags.length = c.sent.slices.length ∧ true ∈ c.flags

/-- The slices that arrive, and those that are lost. -/
def LCoded.got (c : LCoded) : List SliceData := ((c.sent.slices.zip c.flags).filter (·.2)).map (·.1)
def LCoded.lost (c : LCoded) : List SliceData := ((c.sent.slices.zip c.flags).filter (!·.2)).map (·.1)

/-- A reference picture and the B pictures that are displayed before it. -/
structure LGroup where
  ref : LCoded
  bs : List LCoded

def LGroup.sent (g : LGroup) : CGroup := ⟨g.ref.sent, g.bs.map (·.sent)⟩
def LGroup.OK (g : LGroup) : Prop := g.ref.OK ∧ ∀ b ∈ g.bs, b.OK

/-- The flags of the slices of a stream, in coding order. -/
def lossFlags (gs : List LGroup) : List Bool := gs.flatMap fun g => g.ref.flags ++ g.bs.flatMap (·.flags)

/-- The slices of a stream, in coding order. -/
def allSlices (gs : List CGroup) : List SliceData := gs.flatMap fun g => g.ref.slices ++ g.bs.flatMap (·.slices)

/-- The pictures in display order, each with whether a picture that it may be predicted from is damaged: a P picture and
a B picture by the last reference picture before it, a B picture also by the reference picture after it.  `bad`: the last
reference picture is damaged. -/
def exposed : Bool → List LGroup → List (Bool × LCoded)
  | _, [] => []
  | bad, g :: gs =>
    let viaRef := bad && g.ref.sent.hdr.kind.code != 1
    let now := viaRef || g.ref.flags.contains false
    g.bs.map (fun b => (bad || now, b)) ++ (viaRef, g.ref) :: exposed now gs

end Mpeg.Video.Spec
