/-
The beginning of a stream, up to the end of any coded picture.
-/
import Verif.Video.StreamSpec
namespace Mpeg.Video.Spec

/-- `Begun W H base σ prev pos c bits imgs`: `bits`, from bit position `pos` on, are `c` coded pictures of a stream in coding
order (`base`, `σ` and `prev` as in `GroupsCode`), and `imgs` are, in display order, those of them that can be displayed
without knowing what follows: all but a reference picture before which further B pictures are to be displayed. -/
inductive Begun (W H : Nat) : Nat → Option Ctx → Option Image → Nat → Nat → List Bool → List Image → Prop
  | nil {base : Nat} {σ : Option Ctx} {prev : Option Image} {pos : Nat} : Begun W H base σ prev pos 0 [] []
  /-- the last reference picture and the B pictures so far -/
  | part {base base0 : Nat} {σ : Option Ctx} {prev : Option Image} {pos : Nat} {g : CGroup} {b bb : List Bool}
      {imgs : List Image} {y z : Ctx} :
      g.ref.OK W H → (g.ref.hdr.kind.code = 1 ∨ g.ref.hdr.kind.code = 2) →
      base0 = (if g.ref.gop.isSome then 0 else base) → base0 + g.bs.length < g.ref.hdr.temporal →
      g.ref.ctx σ = some y → Parts pos (g.ref.parts y ⟨prev, none⟩ W H) b →
      BsCode W H prev (g.ref.image y ⟨prev, none⟩) base0 y (pos + b.length) g.bs bb imgs z →
      Begun W H base σ prev pos (1 + g.bs.length) (b ++ bb) imgs
  /-- a reference picture with all B pictures that are displayed before it, and what follows -/
  | cons {base base0 : Nat} {σ : Option Ctx} {prev : Option Image} {pos c : Nat} {g : CGroup}
      {b bb more : List Bool} {imgs rest : List Image} {y z : Ctx} :
      g.ref.OK W H → (g.ref.hdr.kind.code = 1 ∨ g.ref.hdr.kind.code = 2) →
      base0 = (if g.ref.gop.isSome then 0 else base) → g.ref.hdr.temporal = base0 + g.bs.length →
      g.ref.ctx σ = some y → Parts pos (g.ref.parts y ⟨prev, none⟩ W H) b →
      BsCode W H prev (g.ref.image y ⟨prev, none⟩) base0 y (pos + b.length) g.bs bb imgs z →
      Begun W H (base0 + g.bs.length + 1) (some z) (some (g.ref.image y ⟨prev, none⟩)) (pos + b.length + bb.length) c more rest →
      Begun W H base σ prev pos (1 + g.bs.length + c) (b ++ (bb ++ more)) (imgs ++ (g.ref.image y ⟨prev, none⟩ :: rest))

/-- the number of coded pictures -/
def codedPictures : List CGroup → Nat
  | [] => 0
  | g :: gs => 1 + g.bs.length + codedPictures gs

end Mpeg.Video.Spec
