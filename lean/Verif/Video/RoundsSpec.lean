/-
Streams with any number of damaged pictures, and an application that resumes at the next group of pictures after each of them.
-/
import Verif.Video.ResyncSpec
import Verif.Video.SessionSpec
import Verif.Video.StreamLemmas4
namespace Mpeg.Video.Spec

/-- The beginning of a stream up to the end of any coded picture, as `Begun`, with its pictures: `UpTo W H base σ prev pos gs
bits imgs` says that `bits`, from bit position `pos` on, code the pictures `gs`; in the last group B pictures may be missing.
`imgs` are, in display order, the pictures that can be displayed without knowing what follows. -/
inductive UpTo (W H : Nat) : Nat → Option Ctx → Option Image → Nat → List CGroup → List Bool → List Image → Prop
  | nil {base : Nat} {σ : Option Ctx} {prev : Option Image} {pos : Nat} : UpTo W H base σ prev pos [] [] []
  /-- the last reference picture and some of the B pictures that are displayed before it -/
  | part {base base0 : Nat} {σ : Option Ctx} {prev : Option Image} {pos : Nat} {g : CGroup} {b bb : List Bool}
      {imgs : List Image} {y z : Ctx} :
      g.ref.OK W H → (g.ref.hdr.kind.code = 1 ∨ g.ref.hdr.kind.code = 2) →
      base0 = (if g.ref.gop.isSome then 0 else base) → base0 + g.bs.length < g.ref.hdr.temporal →
      g.ref.ctx σ = some y → Parts pos (g.ref.parts y ⟨prev, none⟩ W H) b →
      BsCode W H prev (g.ref.image y ⟨prev, none⟩) base0 y (pos + b.length) g.bs bb imgs z →
      UpTo W H base σ prev pos [g] (b ++ bb) imgs
  /-- a reference picture with all B pictures that are displayed before it, and what follows -/
  | cons {base base0 : Nat} {σ : Option Ctx} {prev : Option Image} {pos : Nat} {g : CGroup} {gs : List CGroup}
      {b bb more : List Bool} {imgs rest : List Image} {y z : Ctx} :
      g.ref.OK W H → (g.ref.hdr.kind.code = 1 ∨ g.ref.hdr.kind.code = 2) →
      base0 = (if g.ref.gop.isSome then 0 else base) → g.ref.hdr.temporal = base0 + g.bs.length →
      g.ref.ctx σ = some y → Parts pos (g.ref.parts y ⟨prev, none⟩ W H) b →
      BsCode W H prev (g.ref.image y ⟨prev, none⟩) base0 y (pos + b.length) g.bs bb imgs z →
      UpTo W H (base0 + g.bs.length + 1) (some z) (some (g.ref.image y ⟨prev, none⟩)) (pos + b.length + bb.length) gs
        more rest →
      UpTo W H base σ prev pos (g :: gs) (b ++ (bb ++ more)) (imgs ++ (g.ref.image y ⟨prev, none⟩ :: rest))

/-- The calls of `Next` up to the first one that does not return a picture: the pictures, and the outcome of that call. -/
inductive Play (fuel k : Nat) : VS → List Frame → Res Frame → VS → Prop
  | stop {s t : VS} {r : Res Frame} : VS.next fuel k s = (r, t) → (∀ f, r ≠ .ok f) → Play fuel k s [] r t
  | picture {s t u : VS} {f : Frame} {fs : List Frame} {r : Res Frame} : VS.next fuel k s = (.ok f, t) →
      Play fuel k t fs r u → Play fuel k s (f :: fs) r u

/-- An application that calls `Next` until it fails, then `AlignTo` with the group start code, then `Next` again, and so on
up to the end of the sequence: the pictures between the failures, and the decoder at the end. -/
inductive Viewing (fuel k : Nat) : VS → List (List Frame) → VS → Prop
  | last {s t : VS} {fs : List Frame} : Play fuel k s fs (.err .eos) t → Viewing fuel k s [fs] t
  | again {s t u v : VS} {fs : List Frame} {r : Res Frame} {l : List (List Frame)} : Play fuel k s fs r t →
      ((∃ e, r = .err e ∧ e ≠ .eos) ∨ r = .panic) → VS.lift (alignTo 0x1B8) t = (.ok (), u) → Viewing fuel k u l v →
      Viewing fuel k s (fs :: l) v

/-- A decoder with the headers `σ` (none: a new decoder) that finds `bits` at bit position `pos` fails before it has read
anything of what follows them. -/
def StopsWithin (W H fuel : Nat) (stop : Err) (σ : Option Ctx) (pos : Nat) (bits rest : List Bool) : Prop :=
  ∀ s : VS, AtO W H σ s → s.fs.tryGet s.frameCounter = none → s.br = ⟨bits ++ rest, pos, stop, []⟩ →
    ∃ j ≤ bits.length, (VS.next fuel 1 s).2.br = ⟨bits.drop j ++ rest, pos + j, stop, []⟩

/-- A picture with damaged data: `bits` are the intact headers of picture `c` and then data that are no slices of the standard's
syntax, up to the start of `rest`; there is no group start code in the data, and the decoder does not read on into `rest`.
`σ`, `y`: the headers in force before and after the picture's headers. -/
structure BadPicture (W H fuel : Nat) (stop : Err) (σ : Option Ctx) (pos : Nat) (c : Coded) (y : Ctx) (bits rest : List Bool) :
    Prop where
  ok : c.OK W H
  ctx : c.ctx σ = some y
  code : ∃ hdr n data, bits = hdr ++ (prefix1 ++ (bitsOf 8 n ++ data)) ∧ Parts pos c.headers hdr ∧
    n < 256 ∧ n ≠ 0xB5 ∧ n ≠ 0xB2 ∧
    c.Damaged y (pos + hdr.length) (prefix1 ++ (bitsOf 8 n ++ (data ++ rest))) ∧
    (∀ j, hdr.length ≤ 8 * j → 8 * j < bits.length → ((bits ++ rest).drop (8 * j)).take 32 ≠ bitsOf 32 0x1B8)
  whole : bits.length % 8 = 0
  short : bits.length < fuel
  stops : StopsWithin W H fuel stop σ pos bits rest

/-- A stream that is entered at a group of pictures with the headers `x` already known: `Received W H fuel stop x pos bits
parts rest` says that `bits`, from bit position `pos` on, are pictures, a damaged picture, again pictures from the next group
of pictures on, and so on, and finally the pictures up to the sequence end code; every part after a damaged picture begins
with a closed group of pictures.  `parts`: the pictures that can be displayed between the damaged ones. -/
inductive Received (W H fuel : Nat) (stop : Err) : Ctx → Nat → List Bool → List (List Image) → List Bool → Prop
  | last {x : Ctx} {pos base : Nat} {prev : Option Image} {gs : List CGroup} {bits rest : List Bool} {imgs : List Image} :
      ClosedGop gs → GroupsCode W H base (some x) prev pos gs bits imgs → bits.length < fuel →
      Received W H fuel stop x pos (bits ++ (bitsOf 32 0x1B7 ++ rest)) [imgs] rest
  | bad {x y : Ctx} {pos base : Nat} {prev : Option Image} {gs : List CGroup} {c : Coded} {bits bad more rest : List Bool}
      {imgs : List Image} {l : List (List Image)} :
      (ClosedGop gs ∨ gs = [] ∧ c.seq = none ∧ c.gop ≠ none) → UpTo W H base (some x) prev pos gs bits imgs →
      bits.length < fuel →
      BadPicture W H fuel stop (inForce (some x) gs) (pos + bits.length) c y bad more →
      Received W H fuel stop y (pos + bits.length + bad.length) more l rest →
      Received W H fuel stop x pos (bits ++ (bad ++ more)) (imgs :: l) rest

end Mpeg.Video.Spec
