/-
Property C98: exactly the pictures on which the decoder panics, P and B pictures with their vectors included.
-/
import Verif.Video.PanicLemmas8
import Verif.Video.PanicProps
set_option linter.all false
namespace Mpeg.Video
open Spec
open _root_.Mpeg.BR (Took)

/-- **C98**: on data that begins with a fault, followed by 24 bits, the decoder panics: the faults of `C98_sure`, and blocks of
predicted and skipped macroblocks whose vectors, decoded from the start of the slice on, point to samples that the reference does
not have. -/
theorem C98_exact_sure {s : VS} {sh : SequenceHeader} {se : SequenceExtension} {ph : PictureHeader}
    {pce : PictureCodingExtension} (h1 : s.sh = some sh) (h2 : s.se = some se) (h3 : s.ph = some ph)
    (h4 : s.pce = some pce) (he : Plain (s.env sh se ph pce)) (hp : RefsOK (s.env sh se ph pce) s.mbWidth s.mbHeight)
    {l r : List Bool} (hl : PictureFaultAt (s.env sh se ph pce) s.mbWidth s.mbHeight s.br.pos l) (hb : s.br.bits = l ++ r)
    (hr : 24 ≤ r.length) : (pictureData s).1 = .panic := by
  obtain ⟨m, hm, g, heq⟩ := pictureData_frame h1 h2 h3 h4 he.chroma
  rw [← hm] at hl hb
  exact heq.2 (picRunX_sure he hp g hl hb hr)

/-- **C98**: the decoder panics only on data that begins with a fault. -/
theorem C98_exact_only {s : VS} {sh : SequenceHeader} {se : SequenceExtension} {ph : PictureHeader}
    {pce : PictureCodingExtension} (h1 : s.sh = some sh) (h2 : s.se = some se) (h3 : s.ph = some ph)
    (h4 : s.pce = some pce) (he : Plain (s.env sh se ph pce)) (hp : RefsOK (s.env sh se ph pce) s.mbWidth s.mbHeight)
    (hlat : s.br.later = []) (h : (pictureData s).1 = .panic) :
    ∃ l r, s.br.bits = l ++ r ∧ PictureFaultAt (s.env sh se ph pce) s.mbWidth s.mbHeight s.br.pos l := by
  obtain ⟨m, hm, g, heq⟩ := pictureData_frame h1 h2 h3 h4 he.chroma
  obtain ⟨l, r, hb, hl⟩ := picRunX_only he hp g (by rw [hm, hlat]) (heq.1 h)
  rw [hm] at hb hl
  exact ⟨l, r, hb, hl⟩

/-- **C98**, pictures of all types: a picture of the standard's syntax, followed by a start code that is not that of a slice, that
does not begin with a fault is decoded. -/
theorem C98_exact_decodes {s : VS} {sh : SequenceHeader} {se : SequenceExtension} {ph : PictureHeader}
    {pce : PictureCodingExtension} (h1 : s.sh = some sh) (h2 : s.se = some se) (h3 : s.ph = some ph)
    (h4 : s.pce = some pce) (he : Plain (s.env sh se ph pce)) (hp : RefsOK (s.env sh se ph pce) s.mbWidth s.mbHeight)
    (hlat : s.br.later = []) {l r : List Bool}
    (hl : SlicesWord (s.env sh se ph pce) (MbWord (s.env sh se ph pce)) s.br.pos l)
    (hb : s.br.bits = l ++ (prefix1 ++ r)) (hr : NoSlice r)
    (hno : ∀ l' r', s.br.bits = l' ++ r' → ¬ PictureFaultAt (s.env sh se ph pce) s.mbWidth s.mbHeight s.br.pos l') :
    ∃ f, pictureData s = (.ok f, { s with br := ⟨prefix1 ++ r, s.br.pos + l.length, s.br.stop, s.br.later⟩ }) := by
  rcases C97_picture h1 h2 h3 h4 he hl hb hr with h | h
  · obtain ⟨l', r', hb', hl'⟩ := C98_exact_only h1 h2 h3 h4 he hp hlat h
    exact absurd hl' (hno l' r' hb')
  · exact h

/-- **C98**: the pictures that are decoded have the size that is asked of references, so the theorems apply to the pictures
predicted from them as long as the size does not change. -/
theorem C98_frame {s s' : VS} {se : SequenceExtension} {f : Frame} (h2 : s.se = some se) (hc : se.chromaFormat = 1)
    (h : pictureData s = (.ok f, s')) : Geometry f s.mbWidth s.mbHeight := by
  unfold pictureData at h
  rw [h2] at h
  cases h1 : s.sh with
  | none => rw [h1] at h; cases h
  | some sh =>
  cases h3 : s.ph with
  | none => rw [h1, h3] at h; cases h
  | some ph =>
  cases h4 : s.pce with
  | none => rw [h1, h3, h4] at h; cases h
  | some pce =>
  rw [h1, h3, h4] at h
  dsimp only at h
  split at h
  · rename_i m' hm
    have hf : m'.frame = f := by
      rw [Prod.mk.injEq, Res.ok.injEq] at h
      exact h.1
    rw [← hf]
    refine keeps_ok (P := OnFrame (fun f => Geometry f s.mbWidth s.mbHeight))
      (keeps_bind (fr_sliceLoop (keep_geometry _ _ _) _) fun _ => fr_lift _) ?_ hm
    show Geometry (createFrameBuffer _ _ _) _ _
    rw [hc]
    exact C53_created _ _
  all_goals cases h

/-! ### examples -/

namespace PanicEx
open SynEx

/-- the start of a predicted macroblock of a P picture without coded blocks -/
def startP : List Bool := escapes 0 ++ ([true] ++ ([false, false, true] ++ ([] ++ ([] ++ []))))

theorem headStartP : HeadStart (e 2) ⟨false, true, false, false, false⟩ 1 false [] startP :=
  .mk 0 1 [true] [false, false, true] [] [] rfl (by decide +kernel) (by decide +kernel) rfl rfl rfl rfl

/-- the vector (0, v) after the vector (0, 0) -/
def vecs (v : Int) : Vecs := Vecs.zero.store 0 0 0 v v

theorem motionP {v : Int} {c : List Bool} (h : PartTo 1 0 v c) :
    MotionTo (e 2) 2 0 Vecs.zero (vecs v) ([] ++ ((([true] ++ []) ++ c) ++ [])) := by
  refine ⟨1, false, by decide, .cons 0 0 _ _ _ [] _ [] rfl (.mk 0 v ([true] ++ []) c ?_ h) (.nil 1 _)⟩
  exact .mk [true] [] 0 (by decide +kernel) rfl (by decide +kernel)

/-- half a sample up -/
theorem partUp : PartTo 1 0 (-1) ([false, true, true] ++ []) := .mk [false, true, true] [] (-1) (by decide +kernel) rfl (by decide +kernel)

def headP : List Bool := startP ++ (([] ++ ((([true] ++ []) ++ ([false, true, true] ++ [])) ++ [])) ++ ([] ++ []))

theorem headToP : HeadTo (e 2) Vecs.zero ⟨false, true, false, false, false⟩ 1 false
    ((vecs (-1)).directions (e 2) ⟨false, true, false, false, false⟩) headP :=
  .mk startP [] _ [] [] (vecs (-1)) (vecs (-1)) headStartP (motionP partUp) ⟨rfl, rfl⟩ rfl

/-- the macroblock: its first block needs a line above the picture -/
theorem mbFaultP : MbFaultAt (e 2) 1 1 0 none Vecs.zero (headP ++ ([] ++ [])) := by
  refine .blocks ⟨false, true, false, false, false⟩ 1 0 false _ headP [] [] headToP rfl (.place 5 0 [] rfl ?_)
  rintro ⟨-, h, -⟩
  have h0 := (h rfl (by intro h; cases h)).1
  revert h0
  decide

def slP : List Bool := bitsOf 32 (0x101 + 0) ++ ([] ++ (bitsOf 5 8 ++ (infoBits none ++ (headP ++ ([] ++ [])))))

theorem picFaultP : PictureFaultAt (e 2) 1 1 0 slP :=
  .last _ _ (.mbs 0 [] (bitsOf 5 8) _ none (by decide) rfl (length_bitsOf ..) (fun i hi => by cases hi) (.last _ _ _ mbFaultP))

theorem refsP (bits : List Bool) : RefsOK ((vs 2 bits).env sh se (ph 2) pce) 1 1 :=
  ⟨fun _ f hf => by cases hf; exact C53_created 16 16, (fun h => by cases h)⟩

/-- The hypotheses of `C98_exact_sure` are met: a P picture of one macroblock whose vector points half a sample up. -/
example : Plain ((vs 2 (slP ++ zeros 24)).env sh se (ph 2) pce) ∧ RefsOK ((vs 2 (slP ++ zeros 24)).env sh se (ph 2) pce) 1 1 ∧
    (vs 2 (slP ++ zeros 24)).mbWidth = 1 ∧ (vs 2 (slP ++ zeros 24)).mbHeight = 1 ∧
    PictureFaultAt ((vs 2 (slP ++ zeros 24)).env sh se (ph 2) pce) 1 1 (vs 2 (slP ++ zeros 24)).br.pos slP :=
  ⟨plain 2, refsP _, by decide +kernel, by decide +kernel, picFaultP⟩

/-- And the decoder panics (evaluated). -/
example : (match pictureData (vs 2 (slP ++ zeros 24)) with | (.panic, _) => true | _ => false) = true := by decide +kernel

/-- With the vector zero no block of the macroblock is a fault. -/
example : ∀ i < 6, FitsPred (e 2) ((vecs 0).directions (e 2) ⟨false, true, false, false, false⟩) 1 1 0 0 false i := by
  intro i hi
  refine ⟨(C98_fits 1 1 0 0 false).2 ⟨by decide, by decide⟩ i hi, fun _ _ => ?_, fun h => by cases h⟩
  rcases (show i = 0 ∨ i = 1 ∨ i = 2 ∨ i = 3 ∨ i = 4 ∨ i = 5 by omega) with rfl | rfl | rfl | rfl | rfl | rfl <;>
    (constructor <;> decide)

end PanicEx

/-- **C98**: there is a P picture of the standard's syntax, decoded with a reference of its size, on which the decoder panics: its
only macroblock is predicted with a vector that points half a sample above the reference. -/
theorem C98_panics_vector : ∃ (s : VS) (sh : SequenceHeader) (se : SequenceExtension) (ph : PictureHeader)
    (pce : PictureCodingExtension), s.sh = some sh ∧ s.se = some se ∧ s.ph = some ph ∧ s.pce = some pce ∧
    Plain (s.env sh se ph pce) ∧ RefsOK (s.env sh se ph pce) s.mbWidth s.mbHeight ∧ s.fs.past ≠ none ∧ s.br.later = [] ∧
    ph.pictureCodingType = 2 ∧ (pictureData s).1 = .panic := by
  have e1 : (SynEx.vs 2 (PanicEx.slP ++ zeros 24)).mbWidth = 1 := by decide +kernel
  have e2 : (SynEx.vs 2 (PanicEx.slP ++ zeros 24)).mbHeight = 1 := by decide +kernel
  have hr : RefsOK ((SynEx.vs 2 (PanicEx.slP ++ zeros 24)).env SynEx.sh SynEx.se (SynEx.ph 2) SynEx.pce)
      (SynEx.vs 2 (PanicEx.slP ++ zeros 24)).mbWidth (SynEx.vs 2 (PanicEx.slP ++ zeros 24)).mbHeight := by
    rw [e1, e2]; exact PanicEx.refsP _
  refine ⟨SynEx.vs 2 (PanicEx.slP ++ zeros 24), SynEx.sh, SynEx.se, SynEx.ph 2, SynEx.pce, rfl, rfl, rfl, rfl, SynEx.plain 2, hr,
    (fun h => by cases h), rfl, rfl, ?_⟩
  refine C98_exact_sure (l := PanicEx.slP) (r := zeros 24) rfl rfl rfl rfl (SynEx.plain 2) hr ?_ rfl (by decide)
  rw [e1, e2]
  exact PanicEx.picFaultP

end Mpeg.Video
