/-
Streams that code the same data in different ways.
-/
import Verif.Video.SliceLossSpec
import Verif.Video.DriftSpec
namespace Mpeg.Video.Spec

/-- What a slice says about the picture: without the intra_slice flag and the extra information of its header. -/
def SliceData.content (sl : SliceData) : Nat × Nat × List MbData := (sl.row, sl.q, sl.mbs)

/-- The same slices, in any order and any number of times each; different ones have no macroblock in common. -/
structure SameSlices (pct : Nat) (a b : List SliceData) : Prop where
  same : ∀ x, x ∈ a.map SliceData.content ↔ x ∈ b.map SliceData.content
  apart : ∀ sl ∈ a, ∀ sl' ∈ a, ∀ c x y, sl.Covers pct c x y → sl'.Covers pct c x y → sl.content = sl'.content

/-- Pictures with the same content: the same coding type, precision of the DC coefficients, type of quantiser scale, scan and
use of concealment vectors, and the same slices.  All other header fields, the extensions and the user data may differ (f_code,
intra_vlc_format and frame_pred_frame_dct among them), and so may the bits that code the macroblocks. -/
structure SameContent (c d : Coded) : Prop where
  kind : c.hdr.kind.code = d.hdr.kind.code
  precision : c.ext.dcPrecision = d.ext.dcPrecision
  qScale : c.ext.qScaleType = d.ext.qScaleType
  scan : c.ext.alternateScan = d.ext.alternateScan
  conceal : c.ext.concealment = d.ext.concealment
  slices : SameSlices c.hdr.kind.code c.slices d.slices

/-- Pictures in coding order that have the same content, with the same quantiser matrices in force (however they came into force);
`σ`, `τ` are the headers in force before. -/
inductive SamePictures : Option Ctx → Option Ctx → List Coded → List Coded → Prop
  | nil {σ τ : Option Ctx} : SamePictures σ τ [] []
  | cons {σ τ : Option Ctx} {y z : Ctx} {c d : Coded} {cs ds : List Coded} : c.ctx σ = some y → d.ctx τ = some z →
      y.mats.m0 = z.mats.m0 → y.mats.m1 = z.mats.m1 → SameContent c d → SamePictures (some y) (some z) cs ds →
      SamePictures σ τ (c :: cs) (d :: ds)

/-- The pictures in coding order. -/
def codingOrder (gs : List CGroup) : List Coded := gs.flatMap fun g => g.ref :: g.bs

end Mpeg.Video.Spec
