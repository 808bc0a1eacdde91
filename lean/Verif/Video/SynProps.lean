/-
Property C97: the slices and pictures that are accepted are those of the standard's syntax.
-/
import Verif.Video.SynLemmas3
set_option linter.all false
namespace Mpeg.Video
open Spec
open _root_.Mpeg.BR (Took)

/-! ### the syntax is accepted -/

/-- **C97**, slices: a slice of the standard's syntax (6.2.4), followed by zero bits up to a byte boundary, any number of zero
bytes and a start code prefix, is not rejected: `slice` panics, or succeeds and leaves the reader at the start code prefix. -/
theorem C97_slice {e : PicEnv} (he : Plain e) {l : List Bool} (hl : SliceWord e (MbWord e) l) {s : MB} {k : Nat} {r : List Bool}
    (hb : s.br.bits = l ++ (zeros (padding (s.br.pos + l.length)) ++ (zeros (8 * k) ++ (prefix1 ++ r)))) :
    (slice e s).1 = .panic ∨ ∃ s', slice e s = (.ok (), s') ∧
      s'.br = ⟨prefix1 ++ r, s.br.pos + l.length + padding (s.br.pos + l.length) + 8 * k, s.br.stop, s.br.later⟩ :=
  slice_fwd he (SliceWord.mono (fun _ => .inl) hl) hb

theorem picture_lax {s : VS} {sh : SequenceHeader} {se : SequenceExtension} {ph : PictureHeader}
    {pce : PictureCodingExtension} (h1 : s.sh = some sh) (h2 : s.se = some se) (h3 : s.ph = some ph)
    (h4 : s.pce = some pce) (he : Plain (s.env sh se ph pce)) {l r : List Bool}
    (hl : SlicesWord (s.env sh se ph pce) (LaxWord (s.env sh se ph pce)) s.br.pos l)
    (hb : s.br.bits = l ++ (prefix1 ++ r)) (hr : NoSlice r) :
    (pictureData s).1 = .panic ∨ ∃ f, pictureData s =
      (.ok f, { s with br := ⟨prefix1 ++ r, s.br.pos + l.length, s.br.stop, s.br.later⟩ }) := by
  obtain ⟨m, hm, heq⟩ := pictureData_eq h1 h2 h3 h4
  rw [← hm] at hl hb
  rcases picRun_fwd he hl hb hr with h | ⟨m', h, t⟩
  · left
    rw [heq]
    cases hx : picRun (s.env sh se ph pce) m with
    | mk x m' =>
      rw [hx] at h
      dsimp only at h
      subst h
      rfl
  · right
    refine ⟨m'.frame, ?_⟩
    rw [heq, h]
    have hb' : m'.br.bits = prefix1 ++ r := Reads.took_split (l' := []) (r := prefix1 ++ r) t (by rw [hb, List.append_nil])
    have e1 : m'.br = ⟨prefix1 ++ r, s.br.pos + l.length, s.br.stop, s.br.later⟩ := by
      rw [← hm, ← t.stop, ← t.later, ← t.pos, ← hb']
    dsimp only
    rw [e1]

/-- **C97**, pictures: one or more slices of the standard's syntax, followed by a start code that is not that of a slice, are
not rejected: `pictureData` panics, or returns a frame, with the reader at that start code and nothing else changed. -/
theorem C97_picture {s : VS} {sh : SequenceHeader} {se : SequenceExtension} {ph : PictureHeader}
    {pce : PictureCodingExtension} (h1 : s.sh = some sh) (h2 : s.se = some se) (h3 : s.ph = some ph)
    (h4 : s.pce = some pce) (he : Plain (s.env sh se ph pce)) {l r : List Bool}
    (hl : SlicesWord (s.env sh se ph pce) (MbWord (s.env sh se ph pce)) s.br.pos l)
    (hb : s.br.bits = l ++ (prefix1 ++ r)) (hr : NoSlice r) :
    (pictureData s).1 = .panic ∨ ∃ f, pictureData s =
      (.ok f, { s with br := ⟨prefix1 ++ r, s.br.pos + l.length, s.br.stop, s.br.later⟩ }) :=
  picture_lax h1 h2 h3 h4 he (SlicesWord.mono (fun _ => .inl) hl) hb hr

/-! ### only the syntax is accepted -/

/-- **C97**, slices: a slice that is accepted is one of the standard's syntax, but for macroblocks with nine zeros in place of
their coded_block_pattern; and the reader has left exactly the slice and the zeros behind it. -/
theorem C97_slice_only_partial {e : PicEnv} (he : Plain e) {s s' : MB} {u : Unit} (hlat : s.br.later = [])
    (h : slice e s = (.ok u, s')) :
    ∃ l k r, SliceWord e (LaxWord e) l ∧
      s.br.bits = l ++ (zeros (padding (s.br.pos + l.length)) ++ (zeros (8 * k) ++ (prefix1 ++ r))) ∧
      s'.br = ⟨prefix1 ++ r, s.br.pos + l.length + padding (s.br.pos + l.length) + 8 * k, s.br.stop, s.br.later⟩ :=
  slice_bwd he hlat h

/-- **C97**, pictures: the same for the slices of a picture. -/
theorem C97_picture_only_partial {s s' : VS} {f : Frame} {sh : SequenceHeader} {se : SequenceExtension} {ph : PictureHeader}
    {pce : PictureCodingExtension} (h1 : s.sh = some sh) (h2 : s.se = some se) (h3 : s.ph = some ph)
    (h4 : s.pce = some pce) (he : Plain (s.env sh se ph pce)) (hlat : s.br.later = []) (h : pictureData s = (.ok f, s')) :
    ∃ l r, SlicesWord (s.env sh se ph pce) (LaxWord (s.env sh se ph pce)) s.br.pos l ∧ s.br.bits = l ++ (prefix1 ++ r) ∧
      NoSlice r ∧ s' = { s with br := ⟨prefix1 ++ r, s.br.pos + l.length, s.br.stop, s.br.later⟩ } := by
  obtain ⟨m, hm, heq⟩ := pictureData_eq h1 h2 h3 h4
  rw [heq] at h
  cases hx : picRun (s.env sh se ph pce) m with
  | mk x m' =>
    rw [hx] at h
    cases x with
    | ok u =>
      cases h
      obtain ⟨l, r, k1, k2, k3, t⟩ := picRun_bwd he (by rw [hm, hlat]) hx
      rw [hm] at k1 k2 t
      refine ⟨l, r, k1, k2, k3, ?_⟩
      have hb' : m'.br.bits = prefix1 ++ r := Reads.took_split (l' := []) (r := prefix1 ++ r) t (by rw [k2, List.append_nil])
      have e1 : m'.br = ⟨prefix1 ++ r, s.br.pos + l.length, s.br.stop, s.br.later⟩ := by
        rw [← t.stop, ← t.later, ← t.pos, ← hb']
      rw [e1]
    | err x => cases h
    | panic => cases h
    | hang => cases h

/-- **C97**, I pictures: unless `slice` panics it accepts exactly the slices of the standard's syntax. -/
theorem C97_slice_intra {e : PicEnv} (he : Plain e) (hI : e.ph.pictureCodingType = 1) {s : MB} (hlat : s.br.later = [])
    (hp : (slice e s).1 ≠ .panic) :
    (∃ s', slice e s = (.ok (), s')) ↔ ∃ l k r, SliceWord e (MbWord e) l ∧
      s.br.bits = l ++ (zeros (padding (s.br.pos + l.length)) ++ (zeros (8 * k) ++ (prefix1 ++ r))) := by
  constructor
  · rintro ⟨s', h⟩
    obtain ⟨l, k, r, hl, hb, -⟩ := slice_bwd he hlat h
    exact ⟨l, k, r, SliceWord.mono (fun _ => lax_intra hI) hl, hb⟩
  · rintro ⟨l, k, r, hl, hb⟩
    rcases C97_slice he hl hb with h | ⟨s', h, -⟩
    · exact absurd h hp
    · exact ⟨s', h⟩

/-- **C97**, I pictures: unless `pictureData` panics it accepts exactly the pictures of the standard's syntax. -/
theorem C97_picture_intra {s : VS} {sh : SequenceHeader} {se : SequenceExtension} {ph : PictureHeader}
    {pce : PictureCodingExtension} (h1 : s.sh = some sh) (h2 : s.se = some se) (h3 : s.ph = some ph)
    (h4 : s.pce = some pce) (he : Plain (s.env sh se ph pce)) (hI : ph.pictureCodingType = 1) (hlat : s.br.later = [])
    (hp : (pictureData s).1 ≠ .panic) :
    (∃ f s', pictureData s = (.ok f, s')) ↔
      ∃ l r, SlicesWord (s.env sh se ph pce) (MbWord (s.env sh se ph pce)) s.br.pos l ∧ s.br.bits = l ++ (prefix1 ++ r) ∧
        NoSlice r := by
  constructor
  · rintro ⟨f, s', h⟩
    obtain ⟨l, r, k1, k2, k3, -⟩ := C97_picture_only_partial h1 h2 h3 h4 he hlat h
    exact ⟨l, r, SlicesWord.mono (fun _ => lax_intra (e := s.env sh se ph pce) hI) k1, k2, k3⟩
  · rintro ⟨l, r, k1, k2, k3⟩
    rcases C97_picture h1 h2 h3 h4 he k1 k2 k3 with h | ⟨f, h⟩
    · exact absurd h hp
    · exact ⟨f, _, h⟩

/-- **C97**, all pictures: unless `slice` panics it accepts exactly the slices of the standard's syntax, in which macroblocks may
have nine zeros in place of their coded_block_pattern and blocks. -/
theorem C97_slice_exact_partial {e : PicEnv} (he : Plain e) {s : MB} (hlat : s.br.later = []) (hp : (slice e s).1 ≠ .panic) :
    (∃ s', slice e s = (.ok (), s')) ↔ ∃ l k r, SliceWord e (LaxWord e) l ∧
      s.br.bits = l ++ (zeros (padding (s.br.pos + l.length)) ++ (zeros (8 * k) ++ (prefix1 ++ r))) := by
  constructor
  · rintro ⟨s', h⟩
    obtain ⟨l, k, r, hl, hb, -⟩ := slice_bwd he hlat h
    exact ⟨l, k, r, hl, hb⟩
  · rintro ⟨l, k, r, hl, hb⟩
    rcases slice_fwd he hl hb with h | ⟨s', h, -⟩
    · exact absurd h hp
    · exact ⟨s', h⟩

/-- **C97**, all pictures: the same for `pictureData`. -/
theorem C97_picture_exact_partial {s : VS} {sh : SequenceHeader} {se : SequenceExtension} {ph : PictureHeader}
    {pce : PictureCodingExtension} (h1 : s.sh = some sh) (h2 : s.se = some se) (h3 : s.ph = some ph)
    (h4 : s.pce = some pce) (he : Plain (s.env sh se ph pce)) (hlat : s.br.later = []) (hp : (pictureData s).1 ≠ .panic) :
    (∃ f s', pictureData s = (.ok f, s')) ↔
      ∃ l r, SlicesWord (s.env sh se ph pce) (LaxWord (s.env sh se ph pce)) s.br.pos l ∧ s.br.bits = l ++ (prefix1 ++ r) ∧
        NoSlice r := by
  constructor
  · rintro ⟨f, s', h⟩
    obtain ⟨l, r, k1, k2, k3, -⟩ := C97_picture_only_partial h1 h2 h3 h4 he hlat h
    exact ⟨l, r, k1, k2, k3⟩
  · rintro ⟨l, r, k1, k2, k3⟩
    rcases picture_lax h1 h2 h3 h4 he k1 k2 k3 with h | ⟨f, h⟩
    · exact absurd h hp
    · exact ⟨f, _, h⟩

/-- **C97**, errors: a picture that is rejected with an error is not of the standard's syntax. -/
theorem C97_picture_error {s s' : VS} {x : Err} {sh : SequenceHeader} {se : SequenceExtension} {ph : PictureHeader}
    {pce : PictureCodingExtension} (h1 : s.sh = some sh) (h2 : s.se = some se) (h3 : s.ph = some ph)
    (h4 : s.pce = some pce) (he : Plain (s.env sh se ph pce)) (h : pictureData s = (.err x, s')) :
    ¬ ∃ l r, SlicesWord (s.env sh se ph pce) (MbWord (s.env sh se ph pce)) s.br.pos l ∧ s.br.bits = l ++ (prefix1 ++ r) ∧
        NoSlice r := by
  rintro ⟨l, r, k1, k2, k3⟩
  rcases C97_picture h1 h2 h3 h4 he k1 k2 k3 with h' | ⟨f, h'⟩ <;> rw [h] at h' <;> cases h'

/-! ### examples -/

namespace SynEx
def sh : SequenceHeader := ⟨16, 16, 1, 3, 100, 20, false, false, false, [], []⟩
def se : SequenceExtension := ⟨0, 1, 1, 0, 0, 0, 0, 0, 0, 0⟩
/-- a picture header of an I or P picture -/
def ph (t : Nat) : PictureHeader := ⟨0, t, 0, 0, 7, 0, 0, []⟩
def pce : PictureCodingExtension :=
  ⟨1, 1, 15, 15, 0, 3, false, 1, false, 0, 0, 0, false, true, true, false, false, 0, false, 0, 0⟩
def qm : QMatrices := ⟨defaultIntra, defaultNonIntra, defaultIntra, defaultNonIntra⟩
def e (t : Nat) : PicEnv := ⟨sh, se, ph t, pce, qm, some (createFrameBuffer 16 16 1), none⟩

theorem plain (t : Nat) : Plain (e t) where
  chroma := rfl
  codes := fun s hs u hu => by
    rcases (show s = 0 ∨ s = 1 by omega) with rfl | rfl <;> rcases (show u = 0 ∨ u = 1 by omega) with rfl | rfl <;>
      (show 1 ≤ pce.fCode _ _ ∧ pce.fCode _ _ ≤ 15; decide)
  fpfd := .inr ⟨rfl, rfl⟩

/-- a luminance block with a difference of 3 and the coefficient -1 after a run of 1 -/
def blkY : List Bool := [false, true] ++ [true, true] ++ ((([false, true, true] ++ [true]) ++ []) ++ [true, false])
/-- a chrominance block with a difference of 0 -/
def blkC : List Bool := [false, false] ++ [] ++ ([] ++ [true, false])

theorem wordY (i : Nat) (hi : blockComp i = 0) : BlockWord true 0 (blockComp i) blkY := by
  rw [hi]
  exact .intra 2 _ _ [(1, -1)] _ _ rfl (by decide +kernel) rfl
    (.cons _ _ _ _ _ _ (.vlc [false, true, true] (by decide +kernel) (by decide)) (.nil _)) (by decide +kernel) (by decide)

theorem wordC (i : Nat) (hi : blockComp i ≠ 0) : BlockWord true 0 (blockComp i) blkC := by
  refine .intra 0 _ _ [] _ _ rfl ?_ rfl (.nil _) (by decide +kernel) (by decide)
  unfold isoDc
  rw [if_neg hi]
  decide +kernel

/-- an intra macroblock -/
def mbI : List Bool :=
  escapes 0 ++ ([true] ++ ([true] ++ ([] ++ ([] ++ ([] ++ ([] ++ ([] ++ []))))))) ++
    ([] ++ (blkY ++ (blkY ++ (blkY ++ (blkY ++ (blkC ++ (blkC ++ [])))))))

theorem mbWord : MbWord (e 1) mbI := by
  refine .mk ⟨false, false, false, false, true⟩ _ [] _ 0
    (.mk 0 1 _ [true] [true] [] [] [] [] [] [] (by decide +kernel) (by decide +kernel) rfl rfl rfl rfl rfl rfl) rfl ?_
  exact .coded _ _ _ _ rfl (wordY 0 rfl) <| .coded _ _ _ _ rfl (wordY 1 rfl) <| .coded _ _ _ _ rfl (wordY 2 rfl) <|
    .coded _ _ _ _ rfl (wordY 3 rfl) <| .coded _ _ _ _ rfl (wordC 4 (by decide)) <|
    .coded _ _ _ _ rfl (wordC 5 (by decide)) <| .nil _

/-- a slice of one intra macroblock, with extra information -/
def slI : List Bool := bitsOf 32 (0x101 + 0) ++ ([] ++ (bitsOf 5 8 ++ (infoBits (some (false, [7])) ++ mbI)))

theorem slWord : SliceWord (e 1) (MbWord (e 1)) slI :=
  .mk 0 [] (bitsOf 5 8) mbI (some (false, [7])) (by decide) rfl (length_bitsOf ..)
    (fun i hi => by cases hi; decide) (.one _ mbWord)

/-- the slice, padding, a zero byte and the start code of a picture -/
def bitsI : List Bool := (slI ++ (zeros (padding (0 + slI.length)) ++ zeros (8 * 1))) ++ (prefix1 ++ bitsOf 8 0)
def vs (t : Nat) (bits : List Bool) : VS :=
  { VS.new ⟨bits, 0, .eof, []⟩ with
    sh := some sh, se := some se, ph := some (ph t), pce := some pce, qm := qm,
    fs := { (VS.new ⟨[], 0, .eof, []⟩).fs with past := some (createFrameBuffer 16 16 1) } }

/-- The hypotheses of `C97_picture` are met, and `pictureData` returns a frame. -/
example : Plain ((vs 1 bitsI).env sh se (ph 1) pce) ∧
    SlicesWord ((vs 1 bitsI).env sh se (ph 1) pce) (MbWord ((vs 1 bitsI).env sh se (ph 1) pce)) (vs 1 bitsI).br.pos
      (slI ++ (zeros (padding (0 + slI.length)) ++ zeros (8 * 1))) ∧ NoSlice (bitsOf 8 0) ∧
    (match pictureData (vs 1 bitsI) with
      | (.ok f, s') => s'.br.bits == prefix1 ++ bitsOf 8 0 && f.y.len == 256
      | _ => false) = true :=
  ⟨plain 1, .one 0 1 slI slWord, ⟨0, [], by decide, .inl rfl, rfl⟩, by decide +kernel⟩

/-! ### more than the syntax is accepted -/

/-- A P macroblock that has a coded_block_pattern, but nine zeros, which are no code of Table B.9, instead. -/
def mbB : List Bool := [true] ++ ([false, true] ++ zeros 9)
def slB : List Bool := bitsOf 32 0x101 ++ (bitsOf 5 8 ++ ([false] ++ mbB))
/-- the slice, padding and the start code of a picture -/
def bitsB : List Bool := slB ++ (zeros 6 ++ (prefix1 ++ bitsOf 8 0))

def startB : MB := ⟨⟨bitsB, 0, .eof, []⟩, DcPred.reset 0, MVD.init, 5, createFrameBuffer 16 16 1⟩

theorem bitsB_short : bitsB = bitsOf 32 0x101 ++ (bitsOf 5 8 ++ (false :: true :: false :: true :: (zeros 38 ++ (true :: bitsOf 8 0)))) := by
  decide +kernel

theorem prefix_of {l m n : List Bool} (h : l ++ m = n) : l.isPrefixOf n = true := by
  rw [List.isPrefixOf_iff_prefix]
  exact ⟨m, h⟩

theorem notSlice {l t : List Bool} (hl : SliceWord (e 2) (MbWord (e 2)) l) : bitsB ≠ l ++ t := by
  intro hb
  obtain ⟨row, head, mbs, rfl, hrow, ⟨ext, q, info, rfl, hext, hq, -⟩, hm⟩ := sliceWord_iff.mp hl
  have hext : ext = [] := List.length_eq_zero_iff.mp hext
  subst hext
  rw [bitsB_short] at hb
  simp only [List.append_assoc, List.nil_append] at hb
  obtain ⟨-, hb⟩ := List.append_inj hb (by rw [length_bitsOf, length_bitsOf])
  obtain ⟨-, hb⟩ := List.append_inj hb (by rw [length_bitsOf, hq])
  cases info with
  | some i => simp [infoBits] at hb
  | none =>
    simp only [infoBits, List.cons_append, List.nil_append, List.cons.injEq, true_and] at hb
    obtain ⟨m, t', hmw, hb⟩ : ∃ m t', MbWord (e 2) m ∧
        true :: false :: true :: (zeros 38 ++ (true :: bitsOf 8 0)) = m ++ t' := by
      cases hm with
      | one l h => exact ⟨_, _, h, hb⟩
      | cons l m h t => exact ⟨_, _, h, by rw [hb, List.append_assoc]⟩
    obtain ⟨t, _, pat, blocks, cbp, ⟨k, v, _, addr, type, motion, dct, q, f, b, mark, hA, hT, hMo, hD, hQ, hF, hB, hM⟩, hPat, -⟩ := hmw
    simp only [List.append_assoc] at hb
    cases k with
    | succ k =>
      have := congrArg List.head? hb
      rw [show escapes (k + 1) = false :: (addressEscape.tail ++ escapes k) from rfl] at this
      simp at this
    | zero =>
      rw [show escapes 0 = [] from rfl, List.nil_append] at hb
      have a1 : isoAddress.all (fun x => !(x.1.isPrefixOf (true :: false :: true :: (zeros 38 ++ (true :: bitsOf 8 0)))) ||
        decide (x.1 = [true])) = true := by decide +kernel
      have a2 := List.all_eq_true.1 a1 _ hA
      rw [prefix_of hb.symm] at a2
      have a3 : addr = [true] := by simpa using a2
      subst a3
      simp only [List.cons_append, List.nil_append, List.cons.injEq, true_and] at hb
      have b1 : (isoType 2).all (fun x => !(x.1.isPrefixOf (false :: true :: (zeros 38 ++ (true :: bitsOf 8 0)))) ||
        decide (x = ([false, true], ⟨false, false, false, true, false⟩))) = true := by decide +kernel
      have b2 := List.all_eq_true.1 b1 _ hT
      rw [prefix_of hb.symm] at b2
      have b3 := of_decide_eq_true (p := (type, t) = _) b2
      cases b3
      simp only [List.cons_append, List.nil_append, List.cons.injEq, true_and] at hb
      have c1 : motion = [] := List.length_eq_zero_iff.mp hMo
      have c2 : dct = [] := List.length_eq_zero_iff.mp hD
      have c3 : q = [] := List.length_eq_zero_iff.mp hQ
      have c4 : f = [] := hF
      have c5 : b = [] := hB
      have c6 : mark = [] := hM
      subst c1 c2 c3 c4 c5 c6
      simp only [List.nil_append] at hb
      have d1 : isoCbp.all (fun x => !(x.1.isPrefixOf (zeros 38 ++ (true :: bitsOf 8 0)))) = true := by decide +kernel
      have hPat : (pat, cbp) ∈ isoCbp := hPat
      have d2 := List.all_eq_true.1 d1 _ hPat
      rw [prefix_of hb.symm] at d2
      cases d2

end SynEx

open SynEx in
/-- **C97**, false in P and B pictures: `slice` accepts a slice that is not of the standard's syntax, as the error of
`macroblock_pattern` is dropped (video/macroblock.go: `return 0, nil`) and the macroblock ends without its blocks. -/
theorem C97_false : ∃ (e : PicEnv) (s s' : MB), Plain e ∧ s.br.later = [] ∧ slice e s = (.ok (), s') ∧
    s'.br.bits = prefix1 ++ bitsOf 8 0 ∧ ∀ l t, SliceWord e (MbWord e) l → s.br.bits ≠ l ++ t := by
  have h : (match slice (SynEx.e 2) startB with
    | (.ok _, s') => s'.br.bits == prefix1 ++ bitsOf 8 0 | _ => false) = true := by decide +kernel
  have key : ∀ s : MB, (match slice (SynEx.e 2) s with
      | (.ok _, s') => s'.br.bits == prefix1 ++ bitsOf 8 0 | _ => false) = true →
      ∃ s', slice (SynEx.e 2) s = (.ok (), s') ∧ s'.br.bits = prefix1 ++ bitsOf 8 0 := by
    intro s h
    cases hx : slice (SynEx.e 2) s with
    | mk r s' =>
      rw [hx] at h
      cases r with
      | ok u => exact ⟨s', rfl, by simpa using h⟩
      | err x => cases h
      | panic => cases h
      | hang => cases h
  obtain ⟨s', h1, h2⟩ := key startB h
  refine ⟨SynEx.e 2, startB, s', plain 2, ?_, h1, h2, fun l t hl => ?_⟩
  · unfold startB; rfl
  · exact notSlice (t := t) hl

end Mpeg.Video
