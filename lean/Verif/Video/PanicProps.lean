/-
Property C98: the pictures on which the decoder panics.
-/
import Verif.Video.PanicLemmas5
import Verif.Video.SynProps
set_option linter.all false
namespace Mpeg.Video
open Spec
open _root_.Mpeg.BR (Took)

/-- The width of the picture in macroblocks. -/
def VS.mbWidth (s : VS) : Nat := (s.size.1.toNat + 15) / 16
/-- The height of the picture in macroblocks. -/
def VS.mbHeight (s : VS) : Nat := (s.size.2.toNat + 15) / 16

theorem pictureData_frame {s : VS} {sh : SequenceHeader} {se : SequenceExtension} {ph : PictureHeader}
    {pce : PictureCodingExtension} (h1 : s.sh = some sh) (h2 : s.se = some se) (h3 : s.ph = some ph)
    (h4 : s.pce = some pce) (hc : se.chromaFormat = 1) : ∃ m : MB, m.br = s.br ∧ Geometry m.frame s.mbWidth s.mbHeight ∧
      ((pictureData s).1 = .panic ↔ (picRun (s.env sh se ph pce) m).1 = .panic) := by
  refine ⟨⟨s.br, DcPred.reset pce.intraDCPrecision, MVD.init, 0, createFrameBuffer s.size.1.toNat s.size.2.toNat se.chromaFormat⟩,
    rfl, ?_, ?_⟩
  · rw [hc]; exact C53_created _ _
  · have : pictureData s = match picRun (s.env sh se ph pce) ⟨s.br, DcPred.reset pce.intraDCPrecision, MVD.init, 0,
        createFrameBuffer s.size.1.toNat s.size.2.toNat se.chromaFormat⟩ with
        | (.ok _, m') => (.ok m'.frame, { s with br := m'.br })
        | (.err x, m') => (.err x, { s with br := m'.br })
        | (.panic, m') => (.panic, { s with br := m'.br })
        | (.hang, m') => (.hang, { s with br := m'.br }) := by
      unfold pictureData picRun VS.env
      rw [h1, h2, h3, h4]
      rfl
    rw [this]
    generalize picRun _ _ = x
    obtain ⟨x, m'⟩ := x
    cases x <;> simp

/-! ### pictures -/

/-- **C98**: on data that begins with a fault the decoder panics, whatever it has decoded before: a slice below the picture, a
block with too many coefficients, a block that ends beyond the picture, skipped macroblocks of a P picture without reference or
beyond its end, vectors without motion type, dual prime prediction, a picture coding type other than I, P and B. -/
theorem C98_sure {s : VS} {sh : SequenceHeader} {se : SequenceExtension} {ph : PictureHeader}
    {pce : PictureCodingExtension} (h1 : s.sh = some sh) (h2 : s.se = some se) (h3 : s.ph = some ph)
    (h4 : s.pce = some pce) (he : Plain (s.env sh se ph pce)) (hp : PastOK (s.env sh se ph pce) s.mbWidth s.mbHeight)
    {l r : List Bool} (hl : PictureFault (s.env sh se ph pce) s.mbWidth s.mbHeight s.br.pos l) (hb : s.br.bits = l ++ r)
    (hr : 24 ≤ r.length) : (pictureData s).1 = .panic := by
  obtain ⟨m, hm, g, heq⟩ := pictureData_frame h1 h2 h3 h4 he.chroma
  rw [← hm] at hl hb
  exact heq.2 (picRun_sure he hp g hl hb hr)

/-- **C98**: the decoder panics only on data that begins with a fault, or (P and B pictures) with a macroblock predicted from a
reference or skipped. -/
theorem C98_only_partial {s : VS} {sh : SequenceHeader} {se : SequenceExtension} {ph : PictureHeader}
    {pce : PictureCodingExtension} (h1 : s.sh = some sh) (h2 : s.se = some se) (h3 : s.ph = some ph)
    (h4 : s.pce = some pce) (he : Plain (s.env sh se ph pce)) (hp : PastOK (s.env sh se ph pce) s.mbWidth s.mbHeight)
    (hlat : s.br.later = []) (h : (pictureData s).1 = .panic) :
    ∃ l r, s.br.bits = l ++ r ∧ PictureRisk (s.env sh se ph pce) s.mbWidth s.mbHeight s.br.pos l := by
  obtain ⟨m, hm, g, heq⟩ := pictureData_frame h1 h2 h3 h4 he.chroma
  obtain ⟨l, r, hb, hl⟩ := picRun_only he hp g (by rw [hm, hlat]) (heq.1 h)
  rw [hm] at hb hl
  exact ⟨l, r, hb, hl⟩

theorem MbsFault.mono {e : PicEnv} {F F' : Option Nat → List Bool → Prop} (hF : ∀ a l, F a l → F' a l) {addr : Option Nat}
    {l : List Bool} (h : MbsFault e F addr l) : MbsFault e F' addr l := by
  induction h with
  | last addr l h => exact .last addr l (hF _ _ h)
  | next addr t n cbp field head pat blocks m h hPat hBlocks _ ih => exact .next addr t n cbp field head pat blocks m h hPat hBlocks ih
  | broken addr l m h _ ih => exact .broken addr l m h ih

theorem SlicesFault.mono {e : PicEnv} {W H : Nat} {F F' : Nat → Option Nat → List Bool → Prop}
    (hF : ∀ row a l, F row a l → F' row a l) {pos : Nat} {l : List Bool} (h : SlicesFault e W H F pos l) :
    SlicesFault e W H F' pos l := by
  induction h with
  | last pos l h =>
    cases h with
    | row row h hW hH => exact .last _ _ (.row row h hW hH)
    | mbs row ext q mbs info hRow hExt hQ hInfo hMbs =>
      exact .last _ _ (.mbs row ext q mbs info hRow hExt hQ hInfo (MbsFault.mono (hF row) hMbs))
  | next pos k l m h _ ih => exact .next pos k l m h ih

theorem risk_intra {e : PicEnv} (hI : e.ph.pictureCodingType = 1) {addr : Option Nat} {l : List Bool} (h : MbRisk e addr l) : False := by
  cases h with
  | skipped k v c h ha hn ht => rw [hI] at ht; cases ht
  | predicted t n cbp j field head pat l h hv hr hPat hj hl =>
    obtain ⟨l0, ht⟩ := headAt_type h
    rw [hI] at ht
    have k1 : (isoType 1).all (fun x => !(x.2.forward || x.2.backward)) = true := by decide +kernel
    have := List.all_eq_true.1 k1 _ ht
    dsimp only at this
    rw [hv] at this
    cases this

/-- Without references a prediction cannot go wrong. -/
theorem risk_none {e : PicEnv} (hI : e.ph.pictureCodingType ≠ 3) (h1 : e.past = none) (h2 : e.future = none) {addr : Option Nat}
    {l : List Bool} (h : MbRisk e addr l) : False := by
  cases h with
  | skipped k v c h ha hn ht => exact hI ht
  | predicted t n cbp j field head pat l h hv hr hPat hj hl =>
    rcases hr with hr | hr
    · exact hr h1
    · exact hr h2

/-- **C98**, I pictures: the decoder panics only on data that begins with a fault. -/
theorem C98_intra {s : VS} {sh : SequenceHeader} {se : SequenceExtension} {ph : PictureHeader}
    {pce : PictureCodingExtension} (h1 : s.sh = some sh) (h2 : s.se = some se) (h3 : s.ph = some ph)
    (h4 : s.pce = some pce) (he : Plain (s.env sh se ph pce)) (hI : ph.pictureCodingType = 1)
    (hlat : s.br.later = []) (h : (pictureData s).1 = .panic) :
    ∃ l r, s.br.bits = l ++ r ∧ PictureFault (s.env sh se ph pce) s.mbWidth s.mbHeight s.br.pos l := by
  have hp : PastOK (s.env sh se ph pce) s.mbWidth s.mbHeight := fun h => by
    have h : ph.pictureCodingType = 2 := h
    omega
  obtain ⟨l, r, hb, hl⟩ := C98_only_partial h1 h2 h3 h4 he hp hlat h
  exact ⟨l, r, hb, SlicesFault.mono (fun row a l h => h.elim id fun h => (risk_intra (e := s.env sh se ph pce) hI h).elim) hl⟩

/-- **C98**, P pictures without references: the decoder panics only on data that begins with a fault. -/
theorem C98_no_reference {s : VS} {sh : SequenceHeader} {se : SequenceExtension} {ph : PictureHeader}
    {pce : PictureCodingExtension} (h1 : s.sh = some sh) (h2 : s.se = some se) (h3 : s.ph = some ph)
    (h4 : s.pce = some pce) (he : Plain (s.env sh se ph pce)) (hI : ph.pictureCodingType ≠ 3)
    (hpast : s.fs.past = none) (hfut : s.fs.future = none) (hlat : s.br.later = []) (h : (pictureData s).1 = .panic) :
    ∃ l r, s.br.bits = l ++ r ∧ PictureFault (s.env sh se ph pce) s.mbWidth s.mbHeight s.br.pos l := by
  have hp : PastOK (s.env sh se ph pce) s.mbWidth s.mbHeight := fun _ f hf => by
    have hf : s.fs.past = some f := hf
    rw [hpast] at hf; cases hf
  obtain ⟨l, r, hb, hl⟩ := C98_only_partial h1 h2 h3 h4 he hp hlat h
  exact ⟨l, r, hb, SlicesFault.mono (fun row a l h => h.elim id fun h =>
    (risk_none (e := s.env sh se ph pce) hI hpast hfut h).elim) hl⟩

/-- **C98**, I pictures: a picture of the standard's syntax, followed by a start code that is not that of a slice, that does not
begin with a fault is decoded. -/
theorem C98_decodes {s : VS} {sh : SequenceHeader} {se : SequenceExtension} {ph : PictureHeader}
    {pce : PictureCodingExtension} (h1 : s.sh = some sh) (h2 : s.se = some se) (h3 : s.ph = some ph)
    (h4 : s.pce = some pce) (he : Plain (s.env sh se ph pce)) (hI : ph.pictureCodingType = 1) (hlat : s.br.later = [])
    {l r : List Bool} (hl : SlicesWord (s.env sh se ph pce) (MbWord (s.env sh se ph pce)) s.br.pos l)
    (hb : s.br.bits = l ++ (prefix1 ++ r)) (hr : NoSlice r)
    (hno : ∀ l' r', s.br.bits = l' ++ r' → ¬ PictureFault (s.env sh se ph pce) s.mbWidth s.mbHeight s.br.pos l') :
    ∃ f, pictureData s = (.ok f, { s with br := ⟨prefix1 ++ r, s.br.pos + l.length, s.br.stop, s.br.later⟩ }) := by
  rcases C97_picture h1 h2 h3 h4 he hl hb hr with h | h
  · obtain ⟨l', r', hb', hl'⟩ := C98_intra h1 h2 h3 h4 he hI hlat h
    exact absurd hl' (hno l' r' hb')
  · exact h

/-! ### which blocks fit -/

theorem fits_luma (W H row a c d : Nat) (hc : c ≤ 15) (hd : d ≤ 8) (h : a < W * (8 * (H - 1 - row) + 1)) (hr : row < H) :
    (16 * row + c) * (16 * W) + (16 * a + d + 7) < 16 * H * (16 * W) := by
  obtain ⟨x, rfl⟩ : ∃ x, H = row + 1 + x := ⟨H - 1 - row, by omega⟩
  rw [show row + 1 + x - 1 - row = x from by omega] at h
  have h2 : 16 * (row + 1 + x) * (16 * W) = (16 * row + 15) * (16 * W) + 16 * (W * (16 * x + 1)) := by ring
  have h3 : (16 * row + c) * (16 * W) ≤ (16 * row + 15) * (16 * W) := Nat.mul_le_mul_right _ (by omega)
  have h4 : W * (8 * x + 1) ≤ W * (16 * x + 1) := Nat.mul_le_mul_left _ (by omega)
  rw [h2]
  omega

/-- **C98**: all blocks of the macroblock at address `a` of row `row` end within the picture just when the row is one of the
picture and `a` is less than `W * (8 * (H - 1 - row) + 1)`: the columns of the picture in the last row, and columns far beyond the
right edge of the picture in the rows above. -/
theorem C98_fits (W H row a : Nat) (field : Bool) :
    (∀ i < 6, FitsBlock W H row a field i) ↔ row < H ∧ a < W * (8 * (H - 1 - row) + 1) := by
  constructor
  · intro h
    have h4 := h 4 (by decide)
    unfold FitsBlock at h4
    rw [if_neg (by decide)] at h4
    have hr : row < H := by
      by_contra hn
      have : 8 * H * (8 * W) ≤ (8 * row + 7) * (8 * W) := Nat.mul_le_mul_right _ (by omega)
      omega
    refine ⟨hr, ?_⟩
    obtain ⟨x, rfl⟩ : ∃ x, H = row + 1 + x := ⟨H - 1 - row, by omega⟩
    rw [show row + 1 + x - 1 - row = x from by omega]
    have h2 : 8 * (row + 1 + x) * (8 * W) = (8 * row + 7) * (8 * W) + 8 * (W * (8 * x + 1)) := by ring
    rw [h2] at h4
    omega
  · rintro ⟨hr, h⟩ i hi
    unfold FitsBlock
    split
    · rename_i h4
      refine fits_luma W H row a _ _ ?_ (by omega) h hr
      split <;> omega
    · obtain ⟨x, rfl⟩ : ∃ x, H = row + 1 + x := ⟨H - 1 - row, by omega⟩
      rw [show row + 1 + x - 1 - row = x from by omega] at h
      have h2 : 8 * (row + 1 + x) * (8 * W) = (8 * row + 7) * (8 * W) + 8 * (W * (8 * x + 1)) := by ring
      rw [h2]
      omega

/-- **C98**: skipped macroblocks of a P picture can be copied just when they end within the same bounds. -/
theorem C98_fits_copy (W H row a : Nat) (hr : row < H) : FitsCopy W H row a ↔ a ≤ W * (8 * (H - 1 - row) + 1) := by
  unfold FitsCopy
  obtain ⟨x, rfl⟩ : ∃ x, H = row + 1 + x := ⟨H - 1 - row, by omega⟩
  rw [show row + 1 + x - 1 - row = x from by omega]
  have h2 : 8 * (row + 1 + x) * (8 * W) = (8 * row + 7) * (8 * W) + 8 * (W * (8 * x + 1)) := by ring
  rw [h2]
  omega

/-! ### examples -/

namespace PanicEx
open SynEx

/-- an intra macroblock with the increment 2 -/
def headI : List Bool := escapes 0 ++ ([false, true, true] ++ ([true] ++ ([] ++ ([] ++ [])))) ++ ([] ++ ([] ++ []))

theorem headAt : HeadAt (e 1) ⟨false, false, false, false, true⟩ 2 false headI :=
  .mk _ [] [] [] [] (.mk 0 2 [false, true, true] [true] [] [] rfl (by decide +kernel) (by decide +kernel) rfl rfl rfl rfl) rfl rfl rfl

/-- the macroblock up to its third block, which ends below a picture of one macroblock -/
def mbX : List Bool := headI ++ ([] ++ (blkY ++ (blkY ++ blkY)))

theorem mbFault : MbFault (e 1) 1 1 0 none mbX := by
  refine .blocks ⟨false, false, false, false, true⟩ 2 0 false headI [] _ headAt rfl ?_
  refine .next 5 0 blkY _ (by show BlockWord _ _ _ _; exact wordY 0 rfl) (.next 4 1 blkY _
    (by show BlockWord _ _ _ _; exact wordY 1 rfl) (.place 3 2 blkY (by show BlockWord _ _ _ _; exact wordY 2 rfl) ?_))
  show ¬ FitsBlock 1 1 0 1 false 2
  unfold FitsBlock
  decide

def slX : List Bool := bitsOf 32 (0x101 + 0) ++ ([] ++ (bitsOf 5 8 ++ (infoBits none ++ mbX)))

theorem picFault : PictureFault (e 1) 1 1 0 slX :=
  .last _ _ (.mbs 0 [] (bitsOf 5 8) mbX none (by decide) rfl (length_bitsOf ..) (fun i hi => by cases hi) (.last _ _ mbFault))

/-- The hypotheses of `C98_sure` are met: the second macroblock of a picture of one. -/
example : Plain ((vs 1 (slX ++ zeros 24)).env sh se (ph 1) pce) ∧ PastOK ((vs 1 (slX ++ zeros 24)).env sh se (ph 1) pce) 1 1 ∧
    (vs 1 (slX ++ zeros 24)).mbWidth = 1 ∧ (vs 1 (slX ++ zeros 24)).mbHeight = 1 ∧
    PictureFault ((vs 1 (slX ++ zeros 24)).env sh se (ph 1) pce) 1 1 (vs 1 (slX ++ zeros 24)).br.pos slX :=
  ⟨plain 1, (fun h => by cases h), by decide +kernel, by decide +kernel, picFault⟩

/-- And the decoder panics (evaluated). -/
example : (match pictureData (vs 1 (slX ++ zeros 24)) with | (.panic, _) => true | _ => false) = true := by decide +kernel

/-- A slice two rows below a picture of one row. -/
example : PictureFault (e 1) 1 1 0 (bitsOf 32 (0x101 + 2)) := .last _ _ (.row 2 (by decide) (by decide) (by decide))
example : (match pictureData (vs 1 (bitsOf 32 0x103 ++ zeros 24)) with | (.panic, _) => true | _ => false) = true := by
  decide +kernel

/-- In a picture of 2 by 3 macroblocks there are 34 addresses in the first row that do not panic, and 2 in the last. -/
example : (∀ i < 6, FitsBlock 2 3 0 33 true i) ∧ ¬ (∀ i < 6, FitsBlock 2 3 0 34 true i) ∧ (∀ i < 6, FitsBlock 2 3 2 1 false i) ∧
    ¬ (∀ i < 6, FitsBlock 2 3 2 2 false i) ∧ ¬ (∀ i < 6, FitsBlock 2 3 3 0 false i) := by
  simp only [C98_fits]
  decide

end PanicEx

/-- **C98**: there is data on which the decoder panics. -/
theorem C98_panics : ∃ (s : VS) (sh : SequenceHeader) (se : SequenceExtension) (ph : PictureHeader) (pce : PictureCodingExtension),
    s.sh = some sh ∧ s.se = some se ∧ s.ph = some ph ∧ s.pce = some pce ∧ Plain (s.env sh se ph pce) ∧ s.br.later = [] ∧
    ph.pictureCodingType = 1 ∧ (pictureData s).1 = .panic := by
  refine ⟨SynEx.vs 1 (PanicEx.slX ++ zeros 24), SynEx.sh, SynEx.se, SynEx.ph 1, SynEx.pce, rfl, rfl, rfl, rfl, SynEx.plain 1, rfl, rfl, ?_⟩
  refine C98_sure (l := PanicEx.slX) (r := zeros 24) rfl rfl rfl rfl (SynEx.plain 1) (fun h => by cases h) ?_ rfl (by decide)
  have e1 : (SynEx.vs 1 (PanicEx.slX ++ zeros 24)).mbWidth = 1 := by decide +kernel
  have e2 : (SynEx.vs 1 (PanicEx.slX ++ zeros 24)).mbHeight = 1 := by decide +kernel
  rw [e1, e2]
  exact PanicEx.picFault

end Mpeg.Video
