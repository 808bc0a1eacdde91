/-
Whole video streams: sequence headers, groups of pictures, pictures in coding order and the images they stand for in
display order (ISO 13818-2 6.1.1, 6.2.2, 6.3.9), on top of the reference decoder for pictures (`PicSpec`).
-/
import Verif.Video.PicSpec
import Verif.Video.ExtSpec
import Verif.Video.HeaderLemmas2
namespace Mpeg.Video.Spec

/-! ### pieces of a stream -/

/-- What the bits from a bit position on may be. -/
abbrev Part := Nat → List Bool → Prop

/-- Parts one after the other. -/
inductive Parts : Nat → List Part → List Bool → Prop
  | nil {pos : Nat} : Parts pos [] []
  | cons {pos : Nat} {P : Part} {Ps : List Part} {b bs : List Bool} : P pos b → Parts (pos + b.length) Ps bs →
      Parts pos (P :: Ps) (b ++ bs)

/-- A header, any bits up to the byte boundary and any number of zero bytes (`next_start_code()`, 5.2.3). -/
def Stuffed (h : List Bool) : Part := fun pos b =>
  ∃ (pad : List Bool) (k : Nat), pad.length = padding (pos + h.length) ∧ b = h ++ (pad ++ zeros (8 * k))

/-- Extensions and user data. -/
def ItemsPart (i : Nat) (its : List Item) : Part := fun pos b => ItemsCode i pos its b

/-! ### quantiser matrices -/

/-- Table 7-3 / 6.3.11: default matrices, row by row -/
def isoIntra : Mat :=
  [8, 16, 19, 22, 26, 27, 29, 34, 16, 16, 22, 24, 27, 29, 34, 37, 19, 22, 26, 27, 29, 34, 34, 38,
   22, 22, 26, 27, 29, 34, 37, 40, 22, 26, 27, 29, 32, 35, 40, 48, 26, 27, 29, 32, 35, 40, 48, 58,
   26, 27, 29, 34, 38, 46, 56, 69, 27, 29, 35, 38, 46, 56, 69, 83]
def isoNonIntra : Mat := List.replicate 64 16

/-- A transmitted matrix (in zigzag order) row by row. -/
def raster (m : Mat) : Mat := (List.range 64).map fun i => m.entry (i / 8) (i % 8)

/-- The matrices after a sequence header. -/
def Seq.mats (h : Seq) : Mats :=
  ⟨(h.intra.map raster).getD isoIntra, (h.nonIntra.map raster).getD isoNonIntra,
   (h.intra.map raster).getD isoIntra, (h.nonIntra.map raster).getD isoNonIntra⟩

/-- The matrices after a quantiser matrix extension. -/
def Item.loadRaster (q : Mats) : Item → Mats
  | .quant h => ⟨latest q.m0 [h.intra.map raster], latest q.m1 [h.nonIntra.map raster],
      latest q.m2 [h.intra.map raster, h.chromaIntra.map raster],
      latest q.m3 [h.nonIntra.map raster, h.chromaNonIntra.map raster]⟩
  | _ => q

/-! ### coded pictures -/

structure SeqPart where
  hdr : Seq
  ext : SeqExt
  items : List Item

structure GopPart where
  hdr : GOP
  items : List Item

/-- A picture with the headers before it. -/
structure Coded where
  seq : Option SeqPart
  gop : Option GopPart
  hdr : Pic
  ext : PicExt
  items : List Item
  slices : List SliceData

/-- What the headers so far have set. -/
structure Ctx where
  seq : Seq
  ext : SeqExt
  mats : Mats

/-- The headers in force for picture `c`, after those in force before. -/
def Coded.ctx (σ : Option Ctx) (c : Coded) : Option Ctx :=
  (match c.seq with
   | some q => some (Ctx.mk q.hdr q.ext q.hdr.mats)
   | none => σ).map fun (x : Ctx) => { x with mats := c.items.foldl Item.loadRaster x.mats }

/-- The syntax elements that the decoding of the macroblocks depends on.  (The reference frames in `PicEnv` are not
used by the reference decoder.) -/
def Ctx.env (x : Ctx) (c : Coded) : PicEnv :=
  ⟨viewSeq x.seq, viewSeqExt x.ext, viewPic c.hdr, viewPicExt c.ext, ⟨x.mats.m0, x.mats.m1, x.mats.m2, x.mats.m3⟩,
   none, none⟩

/-- The picture. -/
def Coded.image (c : Coded) (x : Ctx) (r : RefPics) : Image := slicesImage (x.env c) r blank c.slices

/-- The picture may be predicted from the past: it is a P picture, or a macroblock has a forward vector. -/
def Coded.Forward (c : Coded) : Prop :=
  c.hdr.kind.code = 2 ∨ ∃ sl ∈ c.slices, ∃ m ∈ sl.mbs, m.type.forward = true

/-- The parts of the stream that make up a picture with its headers. -/
def Coded.parts (c : Coded) (x : Ctx) (r : RefPics) (W H : Nat) : List Part :=
  (match c.seq with
   | some q => [Stuffed (encSeq q.hdr), Stuffed (encSeqExt q.ext), ItemsPart 0 q.items]
   | none => []) ++
  (match c.gop with
   | some g => [Stuffed (encGOP g.hdr), ItemsPart 1 g.items]
   | none => []) ++
  [Stuffed (encPic c.hdr), Stuffed (encPicExt c.ext), ItemsPart 2 c.items,
   fun pos b => SlicesCode (x.env c) r W H pos blank c.slices b]

/-! ### scope -/

/-- The matrix is the same in zigzag order and row by row. -/
def Mat.Symmetric (m : Mat) : Prop := raster m = m

def Item.SymmetricMats : Item → Prop
  | .quant h => ∀ m, (h.intra = some m ∨ h.nonIntra = some m ∨ h.chromaIntra = some m ∨ h.chromaNonIntra = some m) →
      Mat.Symmetric m
  | _ => True

/-- 6.3.3: the size of the picture in macroblocks. -/
def mbWidth (h : Seq) (e : SeqExt) : Nat := (4096 * e.widthExt + h.width + 15) / 16
def mbHeight (h : Seq) (e : SeqExt) : Nat :=
  if e.progressive = 1 then (4096 * e.heightExt + h.height + 15) / 16
  else 2 * ((4096 * e.heightExt + h.height + 31) / 32)

/-- A sequence header and extension for 4:2:0 pictures of `W × H` macroblocks.  Scope: loaded matrices do not depend on
the scan order (see `C36_false`), and the number of lines of an interlaced sequence needs an even number of rows of
macroblocks (see `C75_height_false`). -/
structure SeqPart.OK (W H : Nat) (q : SeqPart) : Prop where
  hdr : q.hdr.WF
  ext : q.ext.WF
  marker : q.ext.marker = true
  chroma : q.ext.chroma = 1
  width : W = mbWidth q.hdr q.ext
  height : H = mbHeight q.hdr q.ext
  even : mbHeight q.hdr q.ext = (4096 * q.ext.heightExt + q.hdr.height + 15) / 16
  intra : ∀ m, q.hdr.intra = some m → Mat.Symmetric m
  nonIntra : ∀ m, q.hdr.nonIntra = some m → Mat.Symmetric m

/-- A coded frame picture; concealment vectors only with frame_pred_frame_dct (see `C69_conceal_false`). -/
structure Coded.OK (W H : Nat) (c : Coded) : Prop where
  seq : ∀ q, c.seq = some q → q.OK W H
  gop : ∀ g, c.gop = some g → g.hdr.WF
  hdr : c.hdr.WF
  ext : c.ext.WF
  structure_ : c.ext.structure_ = 3
  conceal : c.ext.concealment = true → c.ext.framePredFrameDCT = 1
  f00 : 1 ≤ c.ext.f00
  f01 : 1 ≤ c.ext.f01
  f10 : 1 ≤ c.ext.f10
  f11 : 1 ≤ c.ext.f11
  items : ∀ it ∈ c.items, it.SymmetricMats
  slices : c.slices ≠ []

/-! ### streams -/

/-- B pictures between the reference pictures `prev` and `ref`: `BsCode W H prev ref tr x pos cs bits imgs y` says that
`bits`, from bit position `pos` on, code the pictures `cs`, which show `imgs`; their temporal references count from `tr`
on; the headers in force are `x` before and `y` after them. -/
inductive BsCode (W H : Nat) (prev : Option Image) (ref : Image) :
    Nat → Ctx → Nat → List Coded → List Bool → List Image → Ctx → Prop
  | nil {tr : Nat} {x : Ctx} {pos : Nat} : BsCode W H prev ref tr x pos [] [] [] x
  | cons {tr : Nat} {x y z : Ctx} {pos : Nat} {c : Coded} {cs : List Coded} {b bs : List Bool} {imgs : List Image} :
      c.OK W H → c.seq = none → c.gop = none → c.hdr.kind.code = 3 → c.hdr.temporal = tr → c.ctx (some x) = some y →
      Parts pos (c.parts y ⟨prev, some ref⟩ W H) b →
      BsCode W H prev ref (tr + 1) y (pos + b.length) cs bs imgs z →
      BsCode W H prev ref tr x pos (c :: cs) (b ++ bs) (c.image y ⟨prev, some ref⟩ :: imgs) z

/-- A reference picture and the B pictures that are displayed before it. -/
structure CGroup where
  ref : Coded
  bs : List Coded

/-- A stream in coding order: `GroupsCode W H base σ prev pos gs bits imgs` says that `bits`, from bit position `pos` on,
code the pictures `gs`, which show `imgs` in display order.  `base` pictures of the current group of pictures have been
displayed, `σ` are the headers in force, `prev` is the last reference picture.  A group of pictures has at most 1024
pictures (see `C58_false`). -/
inductive GroupsCode (W H : Nat) : Nat → Option Ctx → Option Image → Nat → List CGroup → List Bool → List Image → Prop
  | nil {base : Nat} {σ : Option Ctx} {prev : Option Image} {pos : Nat} : GroupsCode W H base σ prev pos [] [] []
  | cons {base base0 : Nat} {σ : Option Ctx} {prev : Option Image} {pos : Nat} {g : CGroup} {gs : List CGroup}
      {b bb more : List Bool} {imgs rest : List Image} {y z : Ctx} :
      g.ref.OK W H → (g.ref.hdr.kind.code = 1 ∨ g.ref.hdr.kind.code = 2) →
      base0 = (if g.ref.gop.isSome then 0 else base) → g.ref.hdr.temporal = base0 + g.bs.length →
      g.ref.ctx σ = some y → Parts pos (g.ref.parts y ⟨prev, none⟩ W H) b →
      BsCode W H prev (g.ref.image y ⟨prev, none⟩) base0 y (pos + b.length) g.bs bb imgs z →
      GroupsCode W H (base0 + g.bs.length + 1) (some z) (some (g.ref.image y ⟨prev, none⟩)) (pos + b.length + bb.length) gs
        more rest →
      GroupsCode W H base σ prev pos (g :: gs) (b ++ (bb ++ more)) (imgs ++ (g.ref.image y ⟨prev, none⟩ :: rest))

end Mpeg.Video.Spec
