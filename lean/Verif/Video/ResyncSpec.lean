/-
Groups of pictures at which decoding can be resumed with the headers already known, and pictures whose data are damaged.
-/
import Verif.Video.RecoverSpec
import Verif.Video.SynSpec
namespace Mpeg.Video.Spec

/-- The pictures begin with a group of pictures header, without a sequence header, and an I picture; the B pictures
displayed before the I picture (if any) use backward prediction only: closed_gop. -/
def ClosedGop (gs : List CGroup) : Prop :=
  ∃ g more, gs = g :: more ∧ g.ref.seq = none ∧ g.ref.gop ≠ none ∧ g.ref.hdr.kind.code = 1 ∧ ∀ c ∈ g.bs, ¬ c.Forward

/-- The headers in force after the pictures of a group, and after all groups, given those in force before. -/
def CGroup.ctx (σ : Option Ctx) (g : CGroup) : Option Ctx := (g.ref :: g.bs).foldl Coded.ctx σ
def inForce (σ : Option Ctx) (gs : List CGroup) : Option Ctx := gs.foldl CGroup.ctx σ

/-- The headers of a picture, up to its first slice. -/
def Coded.headers (c : Coded) : List Part :=
  (match c.seq with
   | some q => [Stuffed (encSeq q.hdr), Stuffed (encSeqExt q.ext), ItemsPart 0 q.items]
   | none => []) ++
  (match c.gop with
   | some g => [Stuffed (encGOP g.hdr), ItemsPart 1 g.items]
   | none => []) ++
  [Stuffed (encPic c.hdr), Stuffed (encPicExt c.ext), ItemsPart 2 c.items]

/-- What follows the headers of picture `c`, from bit position `pos` on, is not one or more slices of the standard's syntax
(6.2.4 to 6.2.6) followed by another start code, not even with macroblocks whose coded_block_pattern is nine zeros.
`y`: the headers in force; the reference frames in `PicEnv` do not matter. -/
def Coded.Damaged (c : Coded) (y : Ctx) (pos : Nat) (data : List Bool) : Prop :=
  ∀ (e : PicEnv) (l r : List Bool), e.sh = viewSeq y.seq → e.se = viewSeqExt y.ext → e.ph = viewPic c.hdr →
    e.pce = viewPicExt c.ext → SlicesWord e (LaxWord e) pos l → data = l ++ (prefix1 ++ r) → ¬ NoSlice r

end Mpeg.Video.Spec
