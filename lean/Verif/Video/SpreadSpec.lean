/-
How far differences between reference frames can move in one picture.
-/
import Verif.Video.DriftSpec
import Verif.Video.MbSpec
namespace Mpeg.Video.Spec

/-- Planes of the same length that agree in the samples of a set of indices. -/
structure PlaneAgree (G : Nat → Prop) (p q : Plane) : Prop where
  len : p.len = q.len
  same : ∀ i < p.len, G i → p.data i = q.data i

/-- The length of a line of component `c` (0 luma, 1 Cb, 2 Cr). -/
def lineOf (Y C c : Nat) : Nat := if c = 0 then Y else C

/-- Frames with lines of `Y` luma and `C` chroma samples which agree, in component `c`, in the samples of the set `G c`. -/
structure FrameAgree (Y C : Nat) (G : Nat → Nat → Prop) (f g : Frame) : Prop where
  yStride : f.yStride = Y ∧ g.yStride = Y
  cStride : f.cStride = C ∧ g.cStride = C
  y : PlaneAgree (G 0) f.y g.y
  cb : PlaneAgree (G 1) f.cb g.cb
  cr : PlaneAgree (G 2) f.cr g.cr

/-- The distance (in samples of a plane with lines of `line` samples) that prediction with the codes `fh` and `fv` can bridge: a
vector has at most `16 * 2 ^ (f_code - 1)` half samples in each direction; seven lines more, because this decoder writes
predictions for frame lines to field lines when `dct_type` is set. -/
def reach (fh fv line : Nat) : Nat := (8 * mvScale fv + 7) * line + 8 * mvScale fh

/-- The samples from which everything within distance `d` is in `G`. -/
def farInside (d : Nat) (G : Nat → Prop) (k : Nat) : Prop := ∀ j, NNear d j k → G j

end Mpeg.Video.Spec
