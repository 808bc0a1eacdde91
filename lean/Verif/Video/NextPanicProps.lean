/-
Property C100: where `Next` panics.
-/
import Verif.Video.NextPanicLemmas
import Verif.Video.ExtProps
import Verif.Video.StreamLemmas3
import Verif.Video.FaultProps
set_option linter.all false
namespace Mpeg.Video
open Spec
open _root_.Mpeg.BR (Took Moves)

/-- **C100** Whatever the input and the state of the decoder: if `Next` panics, and is then in the state `p`, then it has come, after
`i` bits of the input, with the headers, matrices and references of `p`, to a place where there is an extension it does not implement
(and panics on it), or to picture data without sequence extension, outside of the chroma format 4:2:0 (or with an illegal picture
coding extension), with references of another size, or that begins with one of the faults of C98. -/
theorem C100 {fuel k : Nat} {s p : VS} (hl : s.br.later = []) (h : VS.next fuel k s = (.panic, p)) :
    ∃ i j, p.br = (s.br.adv i).adv j ∧ Trouble { p with br := s.br.adv i } p.br.bits := by
  unfold VS.next at h
  cases hx : s.fs.tryGet s.frameCounter with
  | some f => rw [hx] at h; cases h
  | none =>
    rw [hx] at h
    obtain ⟨t, hm, ht⟩ := (blame_nextLoop fuel k s trivial).1 p h
    obtain ⟨h1, i, h2⟩ := moves_later hm hl
    obtain ⟨h3, h4, h5⟩ := hit_trouble h1 ht
    obtain ⟨-, j, h6⟩ := moves_later h4 h1
    refine ⟨i, j, by rw [h6, h2], ?_⟩
    have : { p with br := s.br.adv i } = t := by
      rw [h3, ← h2]
    rw [this]
    exact h5

/-- The start of a picture: its header and its coding extension are read, then the picture data. -/
theorem picture_reached {s : VS} {h : Pic} {x : PicExt} (hw : h.WF) (hx : x.WF) {pad1 pad2 : List Bool} {k1 k2 row : Nat}
    {rest : List Bool} {pos fuel : Nat} (hrow : row < 175)
    (hs : s.br = ⟨encPic h ++ (pad1 ++ (zeros (8 * k1) ++ (encPicExt x ++ (pad2 ++ (zeros (8 * k2) ++
      (bitsOf 32 (0x101 + row) ++ rest)))))), pos, stop, later⟩)
    (hp1 : pad1.length = padding (pos + (encPic h).length))
    (hp2 : pad2.length = padding (pos + (encPic h).length + pad1.length + 8 * k1 + (encPicExt x).length)) :
    moreFrames (fuel + 1) s = pictureStep { s with
      br := ⟨bitsOf 32 (0x101 + row) ++ rest,
        pos + (encPic h).length + pad1.length + 8 * k1 + (encPicExt x).length + pad2.length + 8 * k2, stop, later⟩,
      ph := some (viewPic h), pce := some (viewPicExt x) } := by
  obtain ⟨u1, hu1⟩ : ∃ u, encPic h = bitsOf 32 0x100 ++ u := ⟨_, by unfold encPic; simp only [List.append_assoc]; rfl⟩
  obtain ⟨u2, hu2⟩ : ∃ u, encPicExt x = prefix1 ++ u := by
    obtain ⟨u, hu⟩ := starts_picExt x
    exact ⟨_, hu⟩
  have hc : bitsOf 32 (0x101 + row) = prefix1 ++ bitsOf 8 (row + 1) := by
    rw [code32 (by omega), show 0x100 + (row + 1) = 0x101 + row from by omega]
  unfold moreFrames
  have g1 : VS.lift (BR.peek 32) s = (.ok 0x100, s) :=
    vpeek_code s (by decide) (by rw [hs, hu1]; simp only [List.append_assoc]; rfl)
  have e0 : groupHeader (fuel + 1) s = (.ok (), s) := by
    unfold groupHeader
    rw [Go.bind_ok g1]
    rfl
  -- picture header
  let t1 : Tail := ⟨pad1, k1, u2 ++ (pad2 ++ (zeros (8 * k2) ++ (bitsOf 32 (0x101 + row) ++ rest)))⟩
  have h1 : s.br = ⟨encPic h ++ t1.bits, pos, stop, later⟩ := by
    rw [hs, hu2]; simp only [t1, Tail.bits, List.append_assoc]
  have e1 := store_ok (m := readPictureHeader) (put := fun (s : VS) (x : Option PictureHeader) => { s with ph := x })
      (s := s) (a := viewPic h) (b := ⟨t1.bits, pos + (encPic h).length, stop, later⟩)
      (by rw [h1]; exact readPictureHeader_enc h hw) rfl (nextStartCode_tail t1 hp1)
  -- picture coding extension
  let t2 : Tail := ⟨pad2, k2, bitsOf 8 (row + 1) ++ rest⟩
  generalize hsA : ({ s with ph := some (viewPic h), br := t1.after (pos + (encPic h).length) stop later } : VS) = sA at e1
  have e1 : pictureHeader s = (.ok (), sA) := by unfold pictureHeader; rw [e1, ← hsA]
  have hA : sA.br = ⟨encPicExt x ++ t2.bits, pos + (encPic h).length + pad1.length + 8 * k1, stop, later⟩ := by
    rw [← hsA]
    simp only [t1, t2, Tail.after, Tail.bits, hu2, hc, List.append_assoc]
  have e2 := store_ok (m := readPictureCodingExtension)
      (put := fun (s : VS) (x : Option PictureCodingExtension) => { s with pce := x })
      (s := sA) (a := viewPicExt x) (b := ⟨t2.bits, pos + (encPic h).length + pad1.length + 8 * k1 + (encPicExt x).length, stop, later⟩)
      (by rw [hA]; exact readPictureCodingExtension_enc x hx) rfl (nextStartCode_tail t2 hp2)
  have e2 : pictureCodingExtension sA = (.ok (), { s with
      br := ⟨bitsOf 32 (0x101 + row) ++ rest,
        pos + (encPic h).length + pad1.length + 8 * k1 + (encPicExt x).length + pad2.length + 8 * k2, stop, later⟩,
      ph := some (viewPic h), pce := some (viewPicExt x) }) := by
    unfold pictureCodingExtension
    rw [e2, ← hsA]
    simp only [t2, Tail.after, hc, List.append_assoc]
  generalize hsB : ({ s with
      br := ⟨bitsOf 32 (0x101 + row) ++ rest,
        pos + (encPic h).length + pad1.length + 8 * k1 + (encPicExt x).length + pad2.length + 8 * k2, stop, later⟩,
      ph := some (viewPic h), pce := some (viewPicExt x) } : VS) = sB at e2 ⊢
  have e3 : extensionAndUserData 2 (fuel + 1) sB = (.ok (), sB) := by
    have g2 : VS.lift (BR.peek 32) sB = (.ok (0x101 + row), sB) := vpeek_code sB (by omega) (by rw [← hsB])
    have unf : extensionAndUserData 2 (fuel + 1) = (VS.lift (BR.peek 32) >>= fun v =>
      if v = extensionStartCode then
        if 2 ≠ 1 then do
          extensionData 2 fuel
          extensionAndUserData 2 fuel
        else extensionAndUserData 2 fuel
      else if v = userDataStartCode then do
        let _ ← VS.lift userData
        extensionAndUserData 2 fuel
      else pure ()) := rfl
    rw [unf, Go.bind_ok g2, if_neg (by unfold extensionStartCode; omega), if_neg (by unfold userDataStartCode; omega)]
    rfl
  rw [Go.bind_ok e0, Go.bind_ok e1, Go.bind_ok e2, Go.bind_ok e3]

/-- `Next` on a picture when no picture waits. -/
theorem next_picture {s : VS} {fuel k : Nat} (hsh : s.sh ≠ none) (hw : s.fs.tryGet s.frameCounter = none)
    (hp : VS.lift (BR.peek 32) s = (.ok 0x100, s)) (h : (moreFrames fuel s).1 = .panic) : (VS.next fuel (k + 1) s).1 = .panic := by
  unfold VS.next
  rw [hw]
  have unf : ∀ g, nextLoop fuel (k + 1) = (step fuel >>= g) → (nextLoop fuel (k + 1) s).1 = .panic := by
    intro g hg
    rw [hg]
    refine Reads.bind_panic' ?_
    unfold step
    cases e : s.sh with
    | none => exact absurd e hsh
    | some sh =>
      show (resume fuel s).1 = .panic
      unfold resume
      rw [Go.bind_ok hp, if_pos (.inl rfl)]
      exact h
  exact unf _ rfl

theorem pictureStep_panic {s : VS} {ph : PictureHeader} (hph : s.ph = some ph)
    (h : (pictureData { s with fs := s.fs.set ph.temporalReference }).1 = .panic) : (pictureStep s).1 = .panic := by
  unfold pictureStep
  rw [Go.bind_ok (Go.get_apply s), hph]
  dsimp only
  rw [Go.bind_ok (Go.modify_apply ..)]
  exact Reads.bind_panic' h

/-- **C100** (faults) From every state with sequence header and extension, 4:2:0, in which no picture waits: on a picture header
and picture coding extension (of any contents) and picture data that begins with a fault, followed by 24 bits, `Next` panics. -/
theorem C100_sure {s : VS} {sh : SequenceHeader} {se : SequenceExtension} (h1 : s.sh = some sh) (h2 : s.se = some se)
    (hwait : s.fs.tryGet s.frameCounter = none) {h : Pic} {x : PicExt} (hw : h.WF) (hx : x.WF) {pad1 pad2 : List Bool} {k1 k2 : Nat}
    {l r : List Bool} {pos fuel k : Nat}
    (hs : s.br = ⟨encPic h ++ (pad1 ++ (zeros (8 * k1) ++ (encPicExt x ++ (pad2 ++ (zeros (8 * k2) ++ (l ++ r)))))), pos, stop, later⟩)
    (hp1 : pad1.length = padding (pos + (encPic h).length))
    (hp2 : pad2.length = padding (pos + (encPic h).length + pad1.length + 8 * k1 + (encPicExt x).length))
    (he : Plain ⟨sh, se, viewPic h, viewPicExt x, s.qm, (s.fs.set h.temporal).past, (s.fs.set h.temporal).future⟩)
    (hr : Spec.RefsOK ⟨sh, se, viewPic h, viewPicExt x, s.qm, (s.fs.set h.temporal).past, (s.fs.set h.temporal).future⟩ s.mbWidth s.mbHeight)
    (hl : PictureFaultAt ⟨sh, se, viewPic h, viewPicExt x, s.qm, (s.fs.set h.temporal).past, (s.fs.set h.temporal).future⟩
      s.mbWidth s.mbHeight (pos + (encPic h).length + pad1.length + 8 * k1 + (encPicExt x).length + pad2.length + 8 * k2) l)
    (h24 : 24 ≤ r.length) : (VS.next (fuel + 1) (k + 1) s).1 = .panic := by
  obtain ⟨row, rest, hrow, rfl⟩ := pictureFaultAt_starts hl
  have hs' := hs
  simp only [List.append_assoc] at hs'
  refine next_picture (by rw [h1]; exact fun h => by cases h) hwait ?_ ?_
  · obtain ⟨u, hu⟩ := starts_pic h
    exact vpeek_code s (by decide) (by rw [hs, hu]; simp only [List.append_assoc]; rfl)
  · rw [picture_reached hw hx hrow hs' hp1 hp2]
    obtain ⟨-, k2⟩ := viewPic_kind hw
    refine pictureStep_panic (ph := viewPic h) rfl ?_
    rw [k2]
    refine C98_exact_sure (sh := sh) (se := se) (ph := viewPic h) (pce := viewPicExt x) h1 h2 rfl rfl he hr hl ?_ h24
    simp only [List.append_assoc]

namespace NextEx
open SynEx

def pic : Pic := ⟨0, .other 1, 0, []⟩
def ext : PicExt := ⟨1, 1, 15, 15, 0, 3, false, 1, false, 0, 0, 0, false, true, true, none⟩

/-- an I picture of 16 by 16 samples with a slice in its third row -/
def start : VS :=
  { vs 1 [] with br := ⟨encPic pic ++ ([false, false] ++ (zeros (8 * 0) ++ (encPicExt ext ++ (zeros 6 ++ (zeros (8 * 1) ++
    (bitsOf 32 (0x101 + 2) ++ zeros 24)))))), 0, .eof, []⟩ }

theorem plain : Plain ⟨sh, se, viewPic pic, viewPicExt ext, qm, (start.fs.set pic.temporal).past, (start.fs.set pic.temporal).future⟩ where
  chroma := rfl
  codes := fun s hs u hu => by
    rcases (show s = 0 ∨ s = 1 by omega) with rfl | rfl <;> rcases (show u = 0 ∨ u = 1 by omega) with rfl | rfl <;>
      (show 1 ≤ (viewPicExt ext).fCode _ _ ∧ (viewPicExt ext).fCode _ _ ≤ 15; decide)
  fpfd := .inr ⟨rfl, rfl⟩

/-- The hypotheses of `C100_sure` are met. -/
example : (VS.next (100 + 1) (0 + 1) start).1 = .panic := by
  have e1 : start.mbWidth = 1 := by decide +kernel
  have e2 : start.mbHeight = 1 := by decide +kernel
  refine C100_sure (sh := sh) (se := se) (h := pic) (x := ext) (pad1 := [false, false]) (pad2 := zeros 6) (k1 := 0) (k2 := 1)
    (l := bitsOf 32 (0x101 + 2)) (r := zeros 24) rfl rfl rfl (by decide) ⟨by decide, by decide, by decide, by decide, by decide, by decide, by decide, by decide, by decide, by decide, fun c hc => by cases hc⟩ rfl (by decide) (by decide) plain
    ⟨(fun h => by rcases h with h | h <;> cases h), (fun h => by cases h)⟩ ?_ (by decide)
  rw [e1, e2]
  exact .last _ _ (.row 2 (by decide) (by decide) (by decide))

/-- The same, evaluated. -/
example : (match VS.next 101 1 start with | (.panic, _) => true | _ => false) = true := by decide +kernel

end NextEx

theorem pictureData_missing {s : VS} (h : s.se = none) : (pictureData s).1 = .panic := by
  unfold pictureData
  split
  · rename_i e1 e2 e3 e4
    rw [h] at e2
    cases e2
  · rfl

/-- **C100** (missing extension) From every state with a sequence header, but without a sequence extension (the last one was in
error), in which no picture waits: on every picture, whatever its contents, `Next` panics. -/
theorem C100_missing {s : VS} (h1 : s.sh ≠ none) (h2 : s.se = none)
    (hwait : s.fs.tryGet s.frameCounter = none) {h : Pic} {x : PicExt} (hw : h.WF) (hx : x.WF) {pad1 pad2 : List Bool} {k1 k2 row : Nat}
    {rest : List Bool} {pos fuel k : Nat} (hrow : row < 175)
    (hs : s.br = ⟨encPic h ++ (pad1 ++ (zeros (8 * k1) ++ (encPicExt x ++ (pad2 ++ (zeros (8 * k2) ++
      (bitsOf 32 (0x101 + row) ++ rest)))))), pos, stop, later⟩)
    (hp1 : pad1.length = padding (pos + (encPic h).length))
    (hp2 : pad2.length = padding (pos + (encPic h).length + pad1.length + 8 * k1 + (encPicExt x).length)) :
    (VS.next (fuel + 1) (k + 1) s).1 = .panic := by
  refine next_picture h1 hwait ?_ ?_
  · obtain ⟨u, hu⟩ := starts_pic h
    exact vpeek_code s (by decide) (by rw [hs, hu]; simp only [List.append_assoc]; rfl)
  · rw [picture_reached hw hx hrow hs hp1 hp2]
    refine pictureStep_panic (ph := viewPic h) rfl ?_
    exact pictureData_missing h2

open ExStream in
/-- The situation of `C100_missing` arises: the sequence extension of `badExt` has a wrong marker; the first call of `Next` returns the
error, and then there are a sequence header, no extension, no picture that waits, and the input is at the picture header; the second
call panics. -/
example : let s := (VS.next 1000 2 (VS.new (.ofBits badExt))).2
    (s.sh.isSome && s.se.isNone && (s.fs.tryGet s.frameCounter).isNone && s.br.bits.take 32 == bitsOf 32 0x100) = true ∧
    (match VS.next 1000 2 s with | (.panic, _) => true | _ => false) = true := by
  constructor <;> decide +kernel

end Mpeg.Video
