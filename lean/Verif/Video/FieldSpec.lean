/-
Frames coded as two field pictures (ISO 13818-2 6.1.1.4.1, 6.3.10): coding order, display order and the picture that two
fields make up.
-/
import Verif.Video.OrderSpec
import Verif.Video.StreamSpec
namespace Mpeg.Video.Spec

/-! ### order -/

/-- Frames coded as one picture or as two: a reference frame and the B frames displayed before it.  The second picture,
if any, is the second field of the frame. -/
structure FGroup where
  ref : Pict
  ref2 : Option Pict
  bs : List (Pict × Option Pict)

/-- The two fields of a frame are coded one after the other. -/
def FGroup.coded (g : FGroup) : List Pict :=
  g.ref :: (g.ref2.toList ++ g.bs.flatMap fun b => b.1 :: b.2.toList)

/-- The first fields (and the frame pictures) in display order. -/
def FGroup.firsts (g : FGroup) : List Pict := g.bs.map (·.1) ++ [g.ref]

/-- The temporal reference counts frames in display order: the two fields of a frame have the same.  A group of pictures
header comes before the first field. -/
structure FGroup.Legal (g : FGroup) (base : Nat) : Prop where
  ref : g.ref.kind = 1 ∨ g.ref.kind = 2
  refTr : g.ref.tr = base + g.bs.length
  ref2 : ∀ q, g.ref2 = some q → (q.kind = 1 ∨ q.kind = 2) ∧ q.newGop = false ∧ q.tr = g.ref.tr
  bs : ∀ b ∈ g.bs, b.1.kind = 3 ∧ b.1.newGop = false
  bsTr : ∀ i (h : i < g.bs.length), g.bs[i].1.tr = base + i
  bs2 : ∀ b ∈ g.bs, ∀ q, b.2 = some q → q.kind = 3 ∧ q.newGop = false ∧ q.tr = b.1.tr

/-- Frames in coding order; `base` frames of the current group of pictures have been displayed.  A group of pictures has
at most 1024 frames. -/
inductive FLegal : Nat → List FGroup → Prop
  | nil {base : Nat} : FLegal base []
  | cons {base : Nat} {g : FGroup} {gs : List FGroup} (base0 : Nat) : base0 = (if g.ref.newGop then 0 else base) →
      g.Legal base0 → base0 + g.bs.length < 1024 → FLegal (base0 + g.bs.length + 1) gs → FLegal base (g :: gs)

/-! ### pictures -/

/-- Two fields make up a frame: the lines of the top field and of the bottom field alternate. -/
def weave (top bottom : Image) : Image := fun c x y => if y % 2 = 0 then top c x (y / 2) else bottom c x (y / 2)

/-- A frame picture with the same macroblocks as a field picture.  In an intra picture without concealment vectors the
syntax and the decoding of the macroblocks are those of a frame picture with frame_pred_frame_dct = 1 (6.2.5.1): there is
no dct_type and the lines of a block are consecutive lines of the picture. -/
def PicExt.asFrame (x : PicExt) : PicExt := { x with structure_ := 3, framePredFrameDCT := 1 }
def Coded.asFrame (c : Coded) : Coded := { c with ext := c.ext.asFrame }

/-- An intra field picture of a frame of `W × H` macroblocks: `H / 2` rows of macroblocks. -/
structure Coded.FieldOK (W H : Nat) (c : Coded) : Prop where
  ok : c.asFrame.OK W H
  ext : c.ext.WF
  structure_ : c.ext.structure_ = 1 ∨ c.ext.structure_ = 2
  conceal : c.ext.concealment = false
  kind : c.hdr.kind.code = 1
  rows : ∀ sl ∈ c.slices, 2 * sl.row < H

/-- The parts of the stream that make up a field picture with its headers. -/
def Coded.fieldParts (c : Coded) (x : Ctx) (W H : Nat) : List Part :=
  (match c.seq with
   | some q => [Stuffed (encSeq q.hdr), Stuffed (encSeqExt q.ext), ItemsPart 0 q.items]
   | none => []) ++
  (match c.gop with
   | some g => [Stuffed (encGOP g.hdr), ItemsPart 1 g.items]
   | none => []) ++
  [Stuffed (encPic c.hdr), Stuffed (encPicExt c.ext), ItemsPart 2 c.items,
   fun pos b => SlicesCode (x.env c.asFrame) ⟨none, none⟩ W H pos blank c.slices b]

/-- The field. -/
def Coded.field (c : Coded) (x : Ctx) : Image := c.asFrame.image x ⟨none, none⟩

/-- The frame of two fields. -/
def frameOf (c d : Coded) (x y : Ctx) : Image :=
  if c.ext.structure_ = 1 then weave (c.field x) (d.field y) else weave (d.field y) (c.field x)

/-- A stream of frames, each coded as two intra field pictures: `FieldsCode W H base σ pos cs bits fields frames` says
that `bits`, from bit position `pos` on, code the pairs of fields `cs`; their first fields are `fields`, the frames
`frames`. -/
inductive FieldsCode (W H : Nat) : Nat → Option Ctx → Nat → List (Coded × Coded) → List Bool → List Image → List Image → Prop
  | nil {base : Nat} {σ : Option Ctx} {pos : Nat} : FieldsCode W H base σ pos [] [] [] []
  | cons {base base0 : Nat} {σ : Option Ctx} {pos : Nat} {c d : Coded} {cs : List (Coded × Coded)}
      {b b' more : List Bool} {y z : Ctx} {fields frames : List Image} :
      c.FieldOK W H → d.FieldOK W H → d.seq = none → d.gop = none → c.ext.structure_ ≠ d.ext.structure_ →
      base0 = (if c.gop.isSome then 0 else base) → c.hdr.temporal = base0 → d.hdr.temporal = base0 →
      c.ctx σ = some y → Parts pos (c.fieldParts y W H) b →
      d.ctx (some y) = some z → Parts (pos + b.length) (d.fieldParts z W H) b' →
      FieldsCode W H (base0 + 1) (some z) (pos + b.length + b'.length) cs more fields frames →
      FieldsCode W H base σ pos ((c, d) :: cs) (b ++ (b' ++ more)) (c.field y :: fields) (frameOf c d y z :: frames)

end Mpeg.Video.Spec
