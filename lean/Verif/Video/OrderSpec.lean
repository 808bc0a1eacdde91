/-
Coding order and display order (ISO 13818-2 6.1.1.11, 6.3.9), independent of the frame store.
-/
import Verif.Video.MacroblockModel
namespace Mpeg.Video.Spec

/-- A decoded picture: does a group of pictures header precede it, its coding type (1 I, 2 P, 3 B), its temporal
reference, the decoded frame and the frames it was predicted from. -/
structure Pict where
  newGop : Bool
  kind : Nat
  tr : Nat
  frame : Frame
  past : Option Frame
  future : Option Frame

/-- A reference picture (I or P) and the B pictures that are displayed between the previous reference picture and it. -/
structure Group where
  ref : Pict
  bs : List Pict

/-- B pictures follow the later of their two references in coding order and precede it in display order. -/
def Group.coded (g : Group) : List Pict := g.ref :: g.bs
def Group.display (g : Group) : List Pict := g.bs ++ [g.ref]

def coded (gs : List Group) : List Pict := gs.flatMap Group.coded
def display (gs : List Group) : List Pict := gs.flatMap Group.display

/-- The temporal reference counts the pictures in display order, modulo 1024. -/
structure Group.Legal (g : Group) (base : Nat) : Prop where
  ref : g.ref.kind = 1 ∨ g.ref.kind = 2
  refTr : g.ref.tr = (base + g.bs.length) % 1024
  bs : ∀ b ∈ g.bs, b.kind = 3 ∧ b.newGop = false
  bsTr : ∀ i (h : i < g.bs.length), g.bs[i].tr = (base + i) % 1024

/-- The pictures of one group of pictures from display position `base` on, without a header inside. -/
inductive LegalFrom : Nat → List Group → Prop
  | nil {base : Nat} : LegalFrom base []
  | cons {base : Nat} {g : Group} {gs : List Group} : g.Legal base → g.ref.newGop = false →
      LegalFrom (base + g.bs.length + 1) gs → LegalFrom base (g :: gs)

/-- A group of pictures: the header stands before the first coded picture and restarts the count. -/
inductive LegalGop : List Group → Prop
  | mk {g : Group} {gs : List Group} : g.Legal 0 → g.ref.newGop = true → LegalFrom (g.bs.length + 1) gs →
      LegalGop (g :: gs)

/-- A sequence in coding order: any number of groups of pictures; the first may lack its header. -/
inductive LegalSeq : List (List Group) → Prop
  | headed {gops : List (List Group)} : (∀ g ∈ gops, LegalGop g) → LegalSeq gops
  | bare {gs : List Group} {gops : List (List Group)} : LegalFrom 0 gs → (∀ g ∈ gops, LegalGop g) → LegalSeq (gs :: gops)

/-- Temporal references are unique. -/
def Short (gops : List (List Group)) : Prop := ∀ gs ∈ gops, (display gs).length ≤ 1024

/-- The references are right: a P picture has the previous reference picture, a B picture has the reference pictures
before and after it in display order.  `prev` is the frame of the previous reference picture. -/
inductive RightRefs : Option Frame → List Group → Prop
  | nil {prev : Option Frame} : RightRefs prev []
  | cons {prev : Option Frame} {g : Group} {gs : List Group} :
      (prev ≠ none → g.ref.past = prev) →
      (∀ b ∈ g.bs, (prev ≠ none → b.past = prev) ∧ b.future = some g.ref.frame) →
      RightRefs (some g.ref.frame) gs → RightRefs prev (g :: gs)

end Mpeg.Video.Spec
