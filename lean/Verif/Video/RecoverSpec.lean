/-
Places where decoding can begin, and streams of several sequences.
-/
import Verif.Video.StreamSpec
namespace Mpeg.Video.Spec

/-- The pictures begin with a sequence header, a group of pictures header and an I picture, and the B pictures displayed
before the I picture (if any) use backward prediction only, as in a closed group of pictures: nothing that follows refers
to anything before. -/
def Entry (gs : List CGroup) : Prop :=
  ∃ g more, gs = g :: more ∧ g.ref.seq ≠ none ∧ g.ref.gop ≠ none ∧ g.ref.hdr.kind.code = 1 ∧
    ∀ c ∈ g.bs, ¬ c.Forward

/-- Sequences one after the other, each ended by a sequence end code (0x000001B7), from position `pos` on.  They may
have different picture sizes, matrices and profiles.  The list has the pictures of each sequence in display order, with
their size in macroblocks. -/
inductive Sequences : Nat → List Bool → List (Nat × Nat × List Image) → Prop
  | nil {pos : Nat} : Sequences pos [] []
  | cons {pos W H : Nat} {gs : List CGroup} {bits more : List Bool} {imgs : List Image}
      {rest : List (Nat × Nat × List Image)} : Entry gs → GroupsCode W H 0 none none pos gs bits imgs →
      Sequences (pos + bits.length + 32) more rest →
      Sequences pos (bits ++ (bitsOf 32 0x1B7 ++ more)) ((W, H, imgs) :: rest)

end Mpeg.Video.Spec
