/-
What makes `Next` panic.
-/
import Verif.Video.PanicSpec2
namespace Mpeg.Video.Spec

/-- The decoder is at a place `t` of its input where it panics with `left` of the input unread: an extension it does not implement,
or picture data that it cannot decode with the headers it has. -/
inductive Trouble (t : VS) (left : List Bool) : Prop
  /-- sequence_scalable_extension, behind a sequence extension: the panic comes after two fields -/
  | scalable (m : List Bool) (hm : m.length = 6) (hb : t.br.bits = bitsOf 32 0x1B5 ++ (bitsOf 4 5 ++ (m ++ left))) : Trouble t left
  /-- copyright_extension, picture_display_extension and picture_spatial_scalable_extension, behind a picture header -/
  | extension (id : Nat) (r : List Bool) (hid : id = 4 ∨ id = 7 ∨ id = 9) (hl : left = bitsOf 4 id ++ r)
      (hb : t.br.bits = bitsOf 32 0x1B5 ++ left) (hp : t.ph ≠ none ∧ t.pce ≠ none) : Trouble t left
  /-- picture data without sequence extension (the one read last was in error) -/
  | missing (h : t.se = none) (hb : t.br.bits = left) : Trouble t left
  /-- picture data in another chroma format than 4:2:0, with an `f_code` of 0, or with frame_pred_frame_dct in a field picture -/
  | scope (sh : SequenceHeader) (se : SequenceExtension) (ph : PictureHeader) (pce : PictureCodingExtension)
      (h1 : t.sh = some sh) (h2 : t.se = some se) (h3 : t.ph = some ph) (h4 : t.pce = some pce)
      (h : ¬ Plain ⟨sh, se, ph, pce, t.qm, t.fs.past, t.fs.future⟩) : Trouble t left
  /-- picture data with references of another size -/
  | references (sh : SequenceHeader) (se : SequenceExtension) (ph : PictureHeader) (pce : PictureCodingExtension)
      (h1 : t.sh = some sh) (h2 : t.se = some se) (h3 : t.ph = some ph) (h4 : t.pce = some pce)
      (h : ¬ RefsOK ⟨sh, se, ph, pce, t.qm, t.fs.past, t.fs.future⟩ ((t.size.1.toNat + 15) / 16) ((t.size.2.toNat + 15) / 16)) :
      Trouble t left
  /-- picture data that begins with a fault -/
  | data (sh : SequenceHeader) (se : SequenceExtension) (ph : PictureHeader) (pce : PictureCodingExtension) (l r : List Bool)
      (h1 : t.sh = some sh) (h2 : t.se = some se) (h3 : t.ph = some ph) (h4 : t.pce = some pce) (hb : t.br.bits = l ++ r)
      (h : PictureFaultAt ⟨sh, se, ph, pce, t.qm, t.fs.past, t.fs.future⟩ ((t.size.1.toNat + 15) / 16)
        ((t.size.2.toNat + 15) / 16) t.br.pos l) : Trouble t left

end Mpeg.Video.Spec
