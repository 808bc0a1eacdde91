/-
The decoder of ISO 13818-2 with exact arithmetic: the inverse DCT of Annex A over the real numbers, rounded to the nearest
integer, and the roundings of 7.6.3.7 (chroma vectors), 7.6.4 (half samples) and 7.6.7 (mean of two predictions).  The
syntax elements and the states are those of RefSpec.lean, PicSpec.lean and StreamSpec.lean; nothing here refers to the
arithmetic of the source.
-/
import Mathlib.Algebra.Order.Round
import Verif.Video.IdctSpec
import Verif.Video.StreamSpec
namespace Mpeg.Video.Spec

/-! ### prediction -/

/-- 7.6.3.7: chroma vectors of 4:2:0 pictures are halved, with truncation towards zero (`/` of 4.1). -/
def isoCompVec (c : Nat) (m : Int) : Int := if c = 0 then m else m.tdiv 2

/-- 7.6.4 -/
def isoPredictAt (P : Image) (h v : Int) (c x y : Nat) : Nat :=
  isoInterpolate (P c) ((x : Int) + isoCompVec c h / 2).toNat ((y : Int) + isoCompVec c v / 2).toNat
    (isoCompVec c h % 2 = 1) (isoCompVec c v % 2 = 1)

/-- 7.6.7.1: the mean of two predictions is rounded up (`//` of 4.1). -/
def isoBlend : Option Nat → Option Nat → Nat
  | none, none => 0
  | some a, none => a
  | none, some b => b
  | some a, some b => (a + b + 1) / 2

def DState.isoPredicted (d : DState) (r : RefPics) (c x y : Nat) : Nat :=
  isoBlend (if d.fwd then r.past.map fun P => isoPredictAt P (d.vec 0 0) (d.vec 0 1) c x y else none)
    (if d.bwd then r.future.map fun P => isoPredictAt P (d.vec 1 0) (d.vec 1 1) c x y else none)

/-! ### differences -/

/-- The coefficients of block `i` of the macroblock. -/
def MbData.block (m : MbData) (e : PicEnv) (qsc i : Nat) : Nat → Int :=
  fun j => (coefficients e qsc m.type.intra (m.qf i)).getD j 0

/-- Annex A: the exact inverse DCT, rounded and saturated to [-256, 255]. -/
noncomputable def MbData.isoResidual (m : MbData) (e : PicEnv) (qsc i k : Nat) : Int :=
  if m.coded i then max (-256) (min 255 (round (realIdct (m.block e qsc i) (k / 8) (k % 8)))) else 0

/-! ### macroblocks, slices, pictures -/

def DState.isoSkipPic (d : DState) (pct : Nat) (r : RefPics) (row a n : Nat) : Image := fun c x y =>
  if inRun (side c) row (a + 1) n x y then
    if pct = 2 then (r.past.map fun P => P c x y).getD 0
    else if pct = 3 then d.isoPredicted r c x y
    else d.pic c x y
  else d.pic c x y

def DState.isoSkip (d : DState) (e : PicEnv) (r : RefPics) (row : Nat) (a : Option Nat) (incr : Nat) : DState :=
  if incr ≤ 1 then d
  else
    { d with
      pic := match a with
        | none => d.pic
        | some a => d.isoSkipPic e.ph.pictureCodingType r row a (incr - 1)
      dc := dcReset e.pce.intraDCPrecision
      vec := if e.ph.pictureCodingType = 2 then fun _ _ => 0 else d.vec }

noncomputable def DState.isoRecon (d : DState) (e : PicEnv) (r : RefPics) (row a : Nat) (m : MbData) : DState :=
  { d with
    pic := fun c x y =>
      if inMB (side c) row a x y then
        clip (m.isoResidual e d.qsc (blockAt m.dct c x y) (indexAt m.dct c x y) + d.isoPredicted r c x y)
      else d.pic c x y
    dc := if m.type.intra then m.dcBefore d.dc 6 else d.dc }

noncomputable def DState.isoMb (d : DState) (e : PicEnv) (r : RefPics) (row : Nat) (a : Option Nat) (m : MbData) : DState :=
  (((d.isoSkip e r row a m.incr).begin e m.type).param e m).isoRecon e r row (addrAfter a m.incr) m

noncomputable def DState.isoMbs (e : PicEnv) (r : RefPics) (row : Nat) : Option Nat → DState → List MbData → DState
  | _, d, [] => d
  | a, d, m :: ms => DState.isoMbs e r row (some (addrAfter a m.incr)) (d.isoMb e r row a m) ms

noncomputable def SliceData.isoImage (e : PicEnv) (r : RefPics) (P : Image) (sl : SliceData) : Image :=
  (DState.isoMbs e r sl.row none (sl.start e P) sl.mbs).pic

/-- The picture. -/
noncomputable def Coded.isoImage (c : Coded) (x : Ctx) (r : RefPics) : Image :=
  c.slices.foldl (fun P sl => sl.isoImage (x.env c) r P) blank

/-! ### streams -/

/-- Headers in force after the pictures. -/
def ctxAfter : Option Ctx → List Coded → Option Ctx
  | σ, [] => σ
  | σ, c :: cs => ctxAfter (c.ctx σ) cs

/-- The B pictures between `prev` and `ref`. -/
noncomputable def isoBs (prev : Option Image) (ref : Image) : Option Ctx → List Coded → List Image
  | _, [] => []
  | σ, c :: cs =>
    match c.ctx σ with
    | none => []
    | some y => c.isoImage y ⟨prev, some ref⟩ :: isoBs prev ref (some y) cs

/-- The pictures of a stream in display order; `σ` are the headers in force, `prev` is the last reference picture. -/
noncomputable def isoGroups : Option Ctx → Option Image → List CGroup → List Image
  | _, _, [] => []
  | σ, prev, g :: gs =>
    match g.ref.ctx σ with
    | none => []
    | some y =>
      isoBs prev (g.ref.isoImage y ⟨prev, none⟩) (some y) g.bs ++
        (g.ref.isoImage y ⟨prev, none⟩ :: isoGroups (ctxAfter (some y) g.bs) (some (g.ref.isoImage y ⟨prev, none⟩)) gs)

/-! ### all coefficient blocks and macroblocks of a stream -/

/-- The coded blocks of macroblocks, from quantiser scale code `q` on. -/
def mbBlocksOf (e : PicEnv) : Nat → List MbData → List (Nat → Int)
  | _, [] => []
  | q, m :: ms =>
    ((List.range 6).filter m.coded).map (m.block e (if m.type.quant then m.q else q)) ++
      mbBlocksOf e (if m.type.quant then m.q else q) ms

def Coded.blocks (c : Coded) (x : Ctx) : List (Nat → Int) := c.slices.flatMap fun sl => mbBlocksOf (x.env c) sl.q sl.mbs

/-- The pictures in coding order. -/
def CGroup.pics (g : CGroup) : List Coded := g.ref :: g.bs

def blocksFrom : Option Ctx → List Coded → List (Nat → Int)
  | _, [] => []
  | σ, c :: cs =>
    (match c.ctx σ with
     | none => []
     | some y => c.blocks y) ++ blocksFrom (c.ctx σ) cs

/-- The coefficient blocks of a stream. -/
def streamBlocks (gs : List CGroup) : List (Nat → Int) := blocksFrom none (gs.flatMap CGroup.pics)

/-- The macroblocks of a stream. -/
def streamMbs (gs : List CGroup) : List MbData :=
  (gs.flatMap CGroup.pics).flatMap fun c => c.slices.flatMap fun sl => sl.mbs

/-! ### how far decoded pictures may be from the exact ones -/

/-- Equal up to `b`. -/
def near (b m n : Nat) : Prop := m ≤ n + b ∧ n ≤ m + b

/-- An I picture may be 1 off; a P picture 2 more than the picture it is predicted from. -/
def refBound (prev : Nat) (c : Coded) : Nat := if c.hdr.kind.code = 1 then 1 else prev + 2

/-- In display order; a B picture may be 3 more off than the pictures it is predicted from. -/
def bounds : Nat → List CGroup → List Nat
  | _, [] => []
  | prev, g :: gs =>
    List.replicate g.bs.length (max prev (refBound prev g.ref) + 3) ++
      (refBound prev g.ref :: bounds (refBound prev g.ref) gs)

/-- Coefficient blocks that an encoder obtains from differences of 8-bit samples (exact inverse DCT within -255..255) or
from 8-bit samples with overshoot (within -127..383). -/
def Mild (F : Nat → Int) : Prop :=
  (∀ y < 8, ∀ x < 8, |realIdct F y x| ≤ 255) ∨ (∀ y < 8, ∀ x < 8, |realIdct F y x - 128| ≤ 255)

end Mpeg.Video.Spec
