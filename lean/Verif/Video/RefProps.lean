/-
C69, C70, C71: macroblocks, slices and pictures are decoded as by the reference decoder.
-/
import Verif.Video.RefLemmas5
namespace Mpeg.Video
open Spec

variable {stop : Err} {later : List (List Bool × Err)}

/-! ### C69 -/

/-- **C69** (partial): a legal macroblock, whatever its address increment, type, vectors, pattern and coefficients, is
decoded to the state of the reference decoder: skipped macroblocks are filled in, every pixel of the macroblock is the
clipped sum of prediction and difference, no other pixel changes, and DC predictors, vectors and quantiser scale are
those of the standard.  Exactly the bits of the macroblock are consumed.

Partial: 4:2:0 frame pictures without field prediction (`Covered`); concealment vectors only with frame_pred_frame_dct
(false otherwise, see `C69_conceal_false`); vectors inside the reference pictures; field DCT only in intra macroblocks (`MbLegal.frameDct`; false otherwise, see `C69_field_false`). -/
theorem C69_partial {e : PicEnv} (hc : Covered e) {r : RefPics} {m : MbData} {W H row : Nat} {addr : Option Nat}
    {s : MB} {d : DState} (hrr : RefsRel W H e r) (s1 : Samples r.past) (s2 : Samples r.future) (hrel : Rel W H s d)
    (hr : row < H) (hq : d.qsc < 32) (hl : MbLegal e r W H row addr d m)
    (code : MbCode e ((d.skip e r row addr m.incr).begin e m.type) m) (rest : List Bool) (h11 : 11 ≤ rest.length)
    (pos : Nat) (hbr : s.br = ⟨code.bits ++ rest, pos, stop, later⟩) :
    ∃ s', macroblock e row addr s = (.ok (addrAfter addr m.incr), s') ∧
      s'.br = ⟨rest, pos + code.bits.length, stop, later⟩ ∧ Rel W H s' (d.mb e r row addr m) :=
  macroblock_run hc hrr.always (fun _ => trivial) (fun _ => trivial) (fun _ => trivial) s1 s2 hrel hr hq hl code rest h11 pos hbr

/-! ### C70 -/

/-- **C70** (partial): a legal slice, with any number of macroblocks, extra information and any stuffing after it, is
decoded to the picture of the reference decoder; the decoder then stands on the next start code.

Partial: as C69, and the row extension of pictures with more than 2800 lines is zero (the source ignores it, see
`C70_extension_ignored`). -/
theorem C70_partial {e : PicEnv} (hc : Covered e) {r : RefPics} {W H : Nat} (hrr : RefsRel W H e r)
    (s1 : Samples r.past) (s2 : Samples r.future) {P : Image} {sl : SliceData} {bits : List Bool}
    (h : SliceCode e r W H P sl bits) (k : Nat) (rest : List Bool) {s : MB} {pos : Nat} (hf : Shows W H s.frame P)
    (hbr : s.br = ⟨bits ++ (zeros (padding (pos + bits.length)) ++ (zeros (8 * k) ++ (prefix1 ++ rest))), pos, stop,
      later⟩) :
    ∃ s', slice e s = (.ok (), s') ∧ Shows W H s'.frame (sl.image e r P) ∧
      s'.br = ⟨prefix1 ++ rest, pos + bits.length + padding (pos + bits.length) + 8 * k, stop, later⟩ :=
  slice_run hc hrr.always (fun _ => trivial) s1 s2 (fun _ _ _ => trivial) h k rest hf hbr

/-- **C70**: the row extension is read and ignored. -/
theorem C70_extension_ignored (v : Nat) (hv : 2800 < v) (x y : Nat) (t : List Bool) (pos : Nat) :
    sliceHeader v ⟨bitsOf 3 x ++ t, pos, stop, later⟩ = sliceHeader v ⟨bitsOf 3 y ++ t, pos, stop, later⟩ := by
  unfold sliceHeader
  rw [decide_eq_true hv]
  have h1 : ∀ x, Go.opt true 0 (BR.read 3) ⟨bitsOf 3 x ++ t, pos, stop, later⟩ =
      (.ok (x % 2 ^ 3), ⟨t, pos + 3, stop, later⟩) := fun x => BR.read_bitsOf 3 x
  rw [Go.bind_ok (h1 x), Go.bind_ok (h1 y)]

/-! ### C71 -/

/-- **C71** (partial): the slices of a picture, in any number, are decoded into a fresh frame that shows the picture of
the reference decoder; the decoder then stands on the start code that follows the picture.

Partial: as C69 and C70. -/
theorem C71_partial {s : VS} {sh : SequenceHeader} {se : SequenceExtension} {ph : PictureHeader}
    {pce : PictureCodingExtension} (h1 : s.sh = some sh) (h2 : s.se = some se) (h3 : s.ph = some ph)
    (h4 : s.pce = some pce) {r : RefPics} {W H : Nat} (hW : W = (s.size.1.toNat + 15) / 16)
    (hH : H = (s.size.2.toNat + 15) / 16) (hc : Covered (s.env sh se ph pce)) (hrr : RefsRel W H (s.env sh se ph pce) r)
    (s1 : Samples r.past) (s2 : Samples r.future) {c : Nat} (hc8 : c < 256) (hcs : ¬ (1 ≤ c ∧ c ≤ 0xAF))
    {sls : List SliceData} {bits rest : List Bool} {pos : Nat} (hne : sls ≠ [])
    (hcode : SlicesCode (s.env sh se ph pce) r W H pos blank sls bits)
    (hbr : s.br = ⟨bits ++ (prefix1 ++ (bitsOf 8 c ++ rest)), pos, stop, later⟩) :
    ∃ f, pictureData s = (.ok f, { s with br := ⟨prefix1 ++ (bitsOf 8 c ++ rest), pos + bits.length, stop, later⟩ }) ∧
      Shows W H f (slicesImage (s.env sh se ph pce) r blank sls) :=
  pictureData_run h1 h2 h3 h4 hW hH hc hrr.always (fun _ => trivial) s1 s2 hc8 hcs (fun _ _ _ _ _ => trivial) hne hcode hbr

/-! ### a P picture of three macroblocks: predicted, skipped, intra -/

namespace Ex
def sh : SequenceHeader := ⟨48, 16, 1, 3, 100, 20, false, false, false, [], []⟩
def se : SequenceExtension := ⟨0, 1, 1, 0, 0, 0, 0, 0, 0, 0⟩
def ph : PictureHeader := ⟨1, 2, 0, 0, 7, 0, 0, []⟩
def pce : PictureCodingExtension :=
  ⟨1, 1, 15, 15, 0, 3, false, 1, false, 0, 0, 0, false, true, true, false, false, 0, false, 0, 0⟩
def past : Frame :=
  ⟨⟨48 * 16, fun i => i * 7 % 256⟩, ⟨24 * 8, fun i => i % 256⟩, ⟨24 * 8, fun i => i * i % 256⟩, 48, 24⟩
def pastPic : Image := sampleOf past
def e : PicEnv := ⟨sh, se, ph, pce, ⟨defaultIntra, defaultNonIntra, defaultIntra, defaultNonIntra⟩, some past, none⟩
def r : RefPics := ⟨some pastPic, none⟩

theorem covered : Covered e :=
  ⟨rfl, rfl, .inr rfl, fun h => (by cases h), by decide, fun s t hs ht => by
    rcases (show s = 0 ∨ s = 1 by omega) with rfl | rfl <;> rcases (show t = 0 ∨ t = 1 by omega) with rfl | rfl <;>
      decide, by decide +kernel, by decide +kernel⟩

theorem shows_past : Shows 3 1 past pastPic := ⟨⟨rfl, rfl, rfl, rfl, rfl⟩, fun _ _ _ _ _ _ => rfl⟩
theorem refs : RefsRel 3 1 e r := ⟨fun _ => .inr ⟨past, pastPic, rfl, rfl, shows_past⟩, fun _ => .inl ⟨rfl, rfl⟩⟩
theorem samples : Samples r.past ∧ Samples r.future := by
  refine ⟨fun Q h c x y => ?_, fun Q h => by cases h⟩
  cases h
  unfold pastPic sampleOf pixY pixCb pixCr past
  dsimp only
  split
  · omega
  · split <;> omega

/-- vector (3, 0), block 0 with the coefficients 2, 0, -1 -/
def mb0 : MbData := ⟨1, ⟨false, true, false, true, false⟩, false, 0, fun s t => if s = 0 ∧ t = 0 then 3 else 0, 32,
  fun i => if i = 0 then [2, 0, -1] else []⟩
/-- after one skipped macroblock: intra with quantiser scale code 7 and DC values 133 (luma), 125, 128 -/
def mb2 : MbData := ⟨2, ⟨true, false, false, false, true⟩, false, 7, fun _ _ => 0, 0,
  fun i => if i < 4 then [133] else if i = 4 then [125] else [128]⟩
def sl : SliceData := ⟨0, 5, some (false, [7]), [mb0, mb2]⟩
def d0 : DState := sl.start e blank
def d1 : DState := d0.mb e r 0 none mb0

def code0 : MbCode e ((d0.skip e r 0 none mb0.incr).begin e mb0.type) mb0 where
  k := 0
  v := 1
  addr := cw (1, 1)
  type := cw (1, 1)
  vecs := fun s t => if s = 0 ∧ t = 0 then cw (1, 4) ++ [false] else cw (1, 1)
  pattern := cw (10, 4)
  blocks := fun i => if i = 0 then
    (([false, true, false, false] ++ [false]) ++ (([false, true, true] ++ [true]) ++ [])) ++ [true, false] else []
  hIncr := rfl
  hAddr := by decide +kernel
  hType := by decide +kernel
  hDct := fun h => by cases h
  hQ := by decide
  hVec := fun s t hs ht h => by
    rcases (show s = 0 ∨ s = 1 by omega) with rfl | rfl
    · rcases (show t = 0 ∨ t = 1 by omega) with rfl | rfl
      · exact ⟨by unfold mvLegal; decide, by
          have := MvBits.mk (fCode := 1) (d := 3) (cw (1, 4) ++ [false]) (by decide +kernel)
          exact this⟩
      · exact ⟨by unfold mvLegal; decide, by
          have := MvBits.mk (fCode := 1) (d := 0) (cw (1, 1)) (by decide +kernel)
          exact this⟩
    · cases h
  hPattern := fun _ => by decide +kernel
  hCoded := fun i hi h => by
    have h0 : i = 0 := by
      revert h
      have : ∀ i < 6, mb0.coded i = true → i = 0 := by decide +kernel
      exact this i hi
    subst h0
    refine BlockCode.nonintra [(0, 2), (1, -1)] _ _ rfl (by simp) ?_ (by decide +kernel) (by decide)
    refine .cons _ _ _ _ _ _ (.vlc [false, true, false, false] (by decide +kernel) (by decide)) ?_
    exact .cons _ _ _ _ _ _ (.vlc [false, true, true] (by decide +kernel) (by decide)) (.nil _)
  hUncoded := fun i hi h => by
    rcases Nat.eq_zero_or_pos i with rfl | h0
    · cases h
    · exact if_neg (by omega)
  hDc := fun i hi h => by cases h

/-- the bits of the blocks of `mb2`: differences 5, 0, 0, 0, -3, 0 and end of block -/
def blocks2 (i : Nat) : List Bool :=
  if i = 0 then (cw (5, 3) ++ dcBits 5) ++ [] ++ [true, false]
  else if i < 4 then (cw (4, 3) ++ dcBits 0) ++ [] ++ [true, false]
  else if i = 4 then (cw (2, 2) ++ dcBits (-3)) ++ [] ++ [true, false]
  else (cw (0, 2) ++ dcBits 0) ++ [] ++ [true, false]

def code2 : MbCode e ((d1.skip e r 0 (some 0) mb2.incr).begin e mb2.type) mb2 where
  k := 0
  v := 2
  addr := cw (3, 3)
  type := cw (1, 6)
  vecs := fun _ _ => []
  pattern := []
  blocks := blocks2
  hIncr := rfl
  hAddr := by decide +kernel
  hType := by decide +kernel
  hDct := fun h => by cases h
  hQ := by decide
  hVec := fun s t hs ht h => by
    rcases (show s = 0 ∨ s = 1 by omega) with rfl | rfl <;> cases h
  hPattern := fun h => by cases h
  hCoded := fun i hi _ => by
    rcases (show i = 0 ∨ i = 1 ∨ i = 2 ∨ i = 3 ∨ i = 4 ∨ i = 5 by omega) with rfl | rfl | rfl | rfl | rfl | rfl
    · exact BlockCode.intra (pred := 128) 5 (cw (5, 3)) [] [] [true, false] rfl (by decide) (by decide +kernel) (.nil _)
        (by decide +kernel) (by decide)
    · exact BlockCode.intra (pred := 133) 0 (cw (4, 3)) [] [] [true, false] rfl (by decide) (by decide +kernel) (.nil _)
        (by decide +kernel) (by decide)
    · exact BlockCode.intra (pred := 133) 0 (cw (4, 3)) [] [] [true, false] rfl (by decide) (by decide +kernel) (.nil _)
        (by decide +kernel) (by decide)
    · exact BlockCode.intra (pred := 133) 0 (cw (4, 3)) [] [] [true, false] rfl (by decide) (by decide +kernel) (.nil _)
        (by decide +kernel) (by decide)
    · exact BlockCode.intra (format := 0) (cc := 1) (pred := 128) (-3) (cw (2, 2)) [] [] [true, false] rfl (by decide) (by decide +kernel)
        (.nil _) (by decide +kernel) (by decide)
    · exact BlockCode.intra (pred := 128) 0 (cw (0, 2)) [] [] [true, false] rfl (by decide) (by decide +kernel) (.nil _)
        (by decide +kernel) (by decide)
  hUncoded := fun i hi h => by cases h
  hDc := fun i hi _ => by
    have : ∀ i < 6, -2 ^ 28 ≤ (mb2.qf i).getD 0 0 ∧ (mb2.qf i).getD 0 0 < 2 ^ 28 := by decide +kernel
    exact this i hi

theorem legal0 : MbLegal e r 3 1 0 none d0 mb0 where
  inPicture := by decide
  skipP := fun a h => by cases h
  skipB := fun a h => by cases h
  vectors := ⟨fun _ => ⟨by unfold inside; decide, by unfold inside; decide⟩, fun h => by cases h⟩
  frameDct := fun h => by cases h

theorem legal2 : MbLegal e r 3 1 0 (some 0) d1 mb2 where
  inPicture := by decide
  skipP := fun _ _ _ _ h => by cases h
  skipB := fun a _ h => by cases h
  vectors := ⟨fun h => (by cases h), fun h => (by cases h)⟩
  frameDct := fun h => by cases h

/-- The slice is a legal one. -/
theorem sliceCode : SliceCode e r 3 1 blank sl (sl.head e ++ (code0.bits ++ (code2.bits ++ []))) where
  row := by decide
  maxRow := by decide
  q := by decide
  info := fun i h => by cases h; decide
  nonempty := by simp [sl]
  body := ⟨_, .cons legal0 code0 (.cons legal2 code2 .nil), rfl⟩

theorem slicesCode : ∃ bits, SlicesCode e r 3 1 0 blank [sl] bits := ⟨_, .cons 2 sliceCode .nil⟩

end Ex

/-! ### concealment vectors: an intra macroblock with vector (3, 0), then a macroblock predicted with the same vector -/

namespace ExConceal
def e : PicEnv := { Ex.e with pce := { Ex.pce with concealmentMotionVectors := true } }

theorem covered : Covered e :=
  ⟨rfl, rfl, .inr rfl, fun _ => rfl, by decide, fun s t hs ht => by
    rcases (show s = 0 ∨ s = 1 by omega) with rfl | rfl <;> rcases (show t = 0 ∨ t = 1 by omega) with rfl | rfl <;>
      decide, by decide +kernel, by decide +kernel⟩
theorem refs : RefsRel 3 1 e Ex.r := Ex.refs

def mb0 : MbData := { Ex.mb2 with incr := 1, vec := Ex.mb0.vec }
def sl : SliceData := ⟨0, 5, none, [mb0, Ex.mb0]⟩
def d0 : DState := sl.start e blank
def d1 : DState := d0.mb e Ex.r 0 none mb0

def code0 : MbCode e ((d0.skip e Ex.r 0 none mb0.incr).begin e mb0.type) mb0 where
  k := 0
  v := 1
  addr := cw (1, 1)
  type := cw (1, 6)
  vecs := Ex.code0.vecs
  pattern := []
  blocks := Ex.blocks2
  hIncr := rfl
  hAddr := by decide +kernel
  hType := by decide +kernel
  hDct := fun h => by cases h
  hQ := by decide
  hVec := fun s t hs ht h => by
    rcases (show s = 0 ∨ s = 1 by omega) with rfl | rfl
    · rcases (show t = 0 ∨ t = 1 by omega) with rfl | rfl
      · exact ⟨by unfold mvLegal; decide, by
          have := MvBits.mk (fCode := 1) (d := 3) (cw (1, 4) ++ [false]) (by decide +kernel)
          exact this⟩
      · exact ⟨by unfold mvLegal; decide, by
          have := MvBits.mk (fCode := 1) (d := 0) (cw (1, 1)) (by decide +kernel)
          exact this⟩
    · cases h
  hPattern := fun h => by cases h
  hCoded := fun i hi _ => by
    rcases (show i = 0 ∨ i = 1 ∨ i = 2 ∨ i = 3 ∨ i = 4 ∨ i = 5 by omega) with rfl | rfl | rfl | rfl | rfl | rfl
    · exact BlockCode.intra (pred := 128) 5 (cw (5, 3)) [] [] [true, false] rfl (by decide) (by decide +kernel) (.nil _)
        (by decide +kernel) (by decide)
    · exact BlockCode.intra (pred := 133) 0 (cw (4, 3)) [] [] [true, false] rfl (by decide) (by decide +kernel) (.nil _)
        (by decide +kernel) (by decide)
    · exact BlockCode.intra (pred := 133) 0 (cw (4, 3)) [] [] [true, false] rfl (by decide) (by decide +kernel) (.nil _)
        (by decide +kernel) (by decide)
    · exact BlockCode.intra (pred := 133) 0 (cw (4, 3)) [] [] [true, false] rfl (by decide) (by decide +kernel) (.nil _)
        (by decide +kernel) (by decide)
    · exact BlockCode.intra (format := 0) (cc := 1) (pred := 128) (-3) (cw (2, 2)) [] [] [true, false] rfl (by decide) (by decide +kernel)
        (.nil _) (by decide +kernel) (by decide)
    · exact BlockCode.intra (pred := 128) 0 (cw (0, 2)) [] [] [true, false] rfl (by decide) (by decide +kernel) (.nil _)
        (by decide +kernel) (by decide)
  hUncoded := fun i hi h => by cases h
  hDc := Ex.code2.hDc

/-- the difference to the concealment vector is zero -/
def code1 : MbCode e ((d1.skip e Ex.r 0 (some 0) Ex.mb0.incr).begin e Ex.mb0.type) Ex.mb0 where
  k := 0
  v := 1
  addr := cw (1, 1)
  type := cw (1, 1)
  vecs := fun s t => cw (1, 1)
  pattern := cw (10, 4)
  blocks := Ex.code0.blocks
  hIncr := rfl
  hAddr := by decide +kernel
  hType := by decide +kernel
  hDct := fun h => by cases h
  hQ := by decide
  hVec := fun s t hs ht h => by
    have h0 : MvBits 1 0 (cw (1, 1)) := MvBits.mk (fCode := 1) (d := 0) (cw (1, 1)) (by decide +kernel)
    rcases (show s = 0 ∨ s = 1 by omega) with rfl | rfl
    · rcases (show t = 0 ∨ t = 1 by omega) with rfl | rfl
      · exact ⟨by unfold mvLegal; decide, h0⟩
      · exact ⟨by unfold mvLegal; decide, h0⟩
    · cases h
  hPattern := fun _ => by decide +kernel
  hCoded := Ex.code0.hCoded
  hUncoded := Ex.code0.hUncoded
  hDc := fun i hi h => by cases h

theorem legal0 : MbLegal e Ex.r 3 1 0 none d0 mb0 where
  inPicture := by decide
  skipP := fun a h => by cases h
  skipB := fun a h => by cases h
  vectors := ⟨fun h => (by cases h), fun h => (by cases h)⟩
  frameDct := fun h => by cases h

theorem legal1 : MbLegal e Ex.r 3 1 0 (some 0) d1 Ex.mb0 where
  inPicture := by decide
  skipP := fun a h h1 => absurd h1 (by decide)
  skipB := fun a _ h => by cases h
  vectors := ⟨fun _ => ⟨by unfold inside; decide, by unfold inside; decide⟩, fun h => by cases h⟩
  frameDct := fun h => by cases h

/-- The slice is a legal one. -/
theorem sliceCode : SliceCode e Ex.r 3 1 blank sl (sl.head e ++ (code0.bits ++ (code1.bits ++ []))) where
  row := by decide
  maxRow := by decide
  q := by decide
  info := fun i h => by cases h
  nonempty := by simp [sl]
  body := ⟨_, .cons legal0 code0 (.cons legal1 code1 .nil), rfl⟩

end ExConceal

/-! ### C69 is false for concealment vectors without frame_pred_frame_dct -/

/-- **C69** is false for concealment vectors when frame_pred_frame_dct is 0: every intra macroblock, legal as in
`C69_partial` in all other respects, makes the decoder panic (frame_motion_type is not coded in an intra macroblock, and
`mv_info` does not assume frame vectors then). -/
theorem C69_conceal_false {e : PicEnv} (hs : e.pce.pictureStructure = framePicture) (h0 : e.pce.framePredFrameDCT = 0)
    (hcv : e.pce.concealmentMotionVectors = true) {r : RefPics} {m : MbData} (hi : m.type.intra = true) {W H row : Nat}
    {addr : Option Nat} {s : MB} {d : DState} (hrr : RefsRel W H e r) (s1 : Samples r.past) (s2 : Samples r.future)
    (hrel : Rel W H s d) (hr : row < H) (hl : MbLegal e r W H row addr d m)
    (code : MbCode e ((d.skip e r row addr m.incr).begin e m.type) m) (rest : List Bool) (h11 : 11 ≤ rest.length)
    (pos : Nat) (hbr : s.br = ⟨code.bits ++ rest, pos, stop, later⟩) : (macroblock e row addr s).1 = .panic := by
  obtain ⟨t1, _, _, _⟩ := type_facts code.hType
  obtain ⟨tf, tb⟩ := t1 hi
  obtain ⟨z, hz⟩ : ∃ z, z = code.vecBits 0 ++ (code.vecBits 1 ++ (concealMarker e m ++
    ((if m.type.pattern then code.pattern else []) ++ (concatFrom code.blocks 0 6 ++ rest)))) := ⟨_, rfl⟩
  have hbits : code.bits ++ rest = escapes code.k ++ (code.addr ++ (code.type ++ (modeBits e.pce.framePredFrameDCT m ++
      ((if m.type.quant then bitsOf 5 m.q else []) ++ z)))) := by
    unfold MbCode.bits
    rw [hz]; simp only [List.append_assoc]
  have hzl : 11 ≤ z.length := by rw [hz]; simp only [List.length_append]; omega
  rw [hbits] at hbr
  have i1 := C60 (stop := stop) (later := later) code.hAddr (r := code.type ++ (modeBits e.pce.framePredFrameDCT m ++
      ((if m.type.quant then bitsOf 5 m.q else []) ++ z))) (by simp only [List.length_append]; omega) code.k pos
  rw [← hbr, ← code.hIncr] at i1
  obtain ⟨f1, c1, c2⟩ := copySkipped_run (incr := m.incr) (addr := addr) hrr.always (fun _ => trivial)
    (fun _ => trivial) (hrel.withBr _) hr s1 s2 hl.inPicture
    hl.skipP hl.skipB
  obtain ⟨st3, k1, k2, k3⟩ := skipResets_rel (r := r) (row := row) (incr := m.incr) (addr := addr) (hrel.withBr _) c2
  have m1 := macroblockMode_run (stop := stop) (later := later) hs (.inl h0) code.hType code.hDct
    ((if m.type.quant then bitsOf 5 m.q else []) ++ z) (pos + 11 * code.k + code.addr.length)
  have m1' : macroblockMode e st3.br = _ := (congrArg (macroblockMode e) k2).trans m1
  unfold macroblock
  rw [Go.bind_ok (mlift_run i1), Go.bind_ok c1, Go.bind_ok k1, Go.bind_ok (mlift_run m1')]
  unfold modeResets
  rw [show (modeOf e m).type = m.type from rfl, Go.bind_ok (Go.modify_apply _ _)]
  have hv : ∀ q : MB, (motionVectors e 0 (modeOf e m) q).1 = .panic := by
    intro q
    unfold motionVectors
    have : mvInfo e.pce.framePredFrameDCT (modeOf e m) = none := by
      unfold mvInfo modeOf
      rw [h0, tf, tb]; rfl
    rw [this]; rfl
  have hp : ∀ (q : MB), (∃ b n, q.br = ⟨(if m.type.quant then bitsOf 5 m.q else []) ++ b, n, stop, later⟩) →
      ∀ f : Unit → Go MB Nat, ((mbVectors e (modeOf e m) >>= f) q).1 = .panic := by
    intro q ⟨b, n, hq⟩ f
    suffices h : ∃ q', mbVectors e (modeOf e m) q = (.panic, q') by
      obtain ⟨q', h⟩ := h
      rw [Go.bind_panic h]
    unfold mbVectors
    rw [show (modeOf e m).type = m.type from rfl, tf, hi, hcv]
    have hx : ∃ q1, Go.opt m.type.quant () (do
        let q ← MB.lift (BR.read 5)
        Go.modify fun s : MB => { s with qsc := q }) q = (.ok (), q1) := by
      cases hqq : m.type.quant with
      | true =>
        rw [hqq] at hq
        have h5 : BR.read 5 q.br = (.ok (m.q % 2 ^ 5), ⟨b, n + 5, stop, later⟩) := by
          rw [hq]; exact BR.read_bitsOf 5 m.q
        exact ⟨_, by rw [opt_true, Go.bind_ok (mlift_run h5)]; rfl⟩
      | false => exact ⟨q, rfl⟩
    obtain ⟨q1, hx⟩ := hx
    rw [Go.bind_ok hx]
    have h2 := hv q1
    generalize hy : motionVectors e 0 (modeOf e m) q1 = y at h2
    obtain ⟨y1, y2⟩ := y
    simp only at h2
    subst h2
    exact ⟨y2, Go.bind_panic hy⟩
  exact hp _ ⟨z, _, rfl⟩ _

namespace ExConceal
/-- the same macroblock in a picture with frame_pred_frame_dct 0: dct_type is coded -/
def e' : PicEnv := { e with pce := { e.pce with framePredFrameDCT := 0 } }
def code' : MbCode e' ((d0.skip e' Ex.r 0 none mb0.incr).begin e' mb0.type) mb0 where
  k := 0
  v := 1
  addr := code0.addr
  type := code0.type
  vecs := code0.vecs
  pattern := []
  blocks := code0.blocks
  hIncr := rfl
  hAddr := code0.hAddr
  hType := code0.hType
  hDct := fun h => by cases h
  hQ := code0.hQ
  hVec := code0.hVec
  hPattern := code0.hPattern
  hCoded := code0.hCoded
  hUncoded := code0.hUncoded
  hDc := code0.hDc
def s' : MB := ⟨⟨code'.bits ++ zeros 24, 0, .eof, []⟩, DcPred.reset 0, MVD.init, 5, createFrameBuffer 48 16 1⟩

example : (macroblock e' 0 none s').1 = .panic := by
  refine C69_conceal_false (r := Ex.r) (W := 3) (H := 1) (d := d0) (m := mb0) rfl rfl rfl rfl Ex.refs Ex.samples.1 Ex.samples.2
    ?_ (by decide) ?_ code' (zeros 24) (by decide) 0 rfl
  · exact ⟨created_blank 48 16, fun _ _ => reset_get _ _, ⟨fun _ _ _ _ => rfl, fun _ _ _ _ => rfl, rfl, rfl⟩, rfl⟩
  · exact ⟨legal0.inPicture, legal0.skipP, legal0.skipB, legal0.vectors, legal0.frameDct⟩
end ExConceal

/-! ### C69 is false for field DCT in predicted macroblocks -/

namespace ExField
def pce : PictureCodingExtension := { Ex.pce with framePredFrameDCT := 0 }
/-- line `y` of the luma plane is `y` -/
def past : Frame := ⟨⟨256, fun i => i / 16⟩, ⟨64, fun _ => 0⟩, ⟨64, fun _ => 0⟩, 16, 8⟩
def e : PicEnv := ⟨Ex.sh, Ex.se, Ex.ph, pce, ⟨defaultIntra, defaultNonIntra, defaultIntra, defaultNonIntra⟩, some past, none⟩
def r : RefPics := ⟨some (fun c x y => if c = 0 then y else 0), none⟩
/-- field DCT, vector (0, 0), only the last block is coded -/
def mb : MbData := ⟨1, ⟨false, true, false, true, false⟩, true, 0, fun _ _ => 0, 1, fun i => if i = 5 then [1] else []⟩
def d : DState := ⟨blank, dcReset 0, fun _ _ => 0, false, false, 5⟩
def code : MbCode e ((d.skip e r 0 none mb.incr).begin e mb.type) mb where
  k := 0
  v := 1
  addr := cw (1, 1)
  type := cw (1, 1)
  vecs := fun _ _ => cw (1, 1)
  pattern := cw (11, 5)
  blocks := fun i => if i = 5 then (([true] ++ [false]) ++ []) ++ [true, false] else []
  hIncr := rfl
  hAddr := by decide +kernel
  hType := by decide +kernel
  hDct := fun _ => ⟨rfl, rfl⟩
  hQ := by decide
  hVec := fun s t hs ht h => by
    rcases (show s = 0 ∨ s = 1 by omega) with rfl | rfl
    · rcases (show t = 0 ∨ t = 1 by omega) with rfl | rfl
      all_goals
        exact ⟨by unfold mvLegal; decide, by
          have := MvBits.mk (fCode := 1) (d := 0) (cw (1, 1)) (by decide +kernel)
          exact this⟩
    · cases h
  hPattern := fun _ => by decide +kernel
  hCoded := fun i hi h => by
    have h0 : i = 5 := by
      revert h
      have : ∀ i < 6, mb.coded i = true → i = 5 := by decide +kernel
      exact this i hi
    subst h0
    refine BlockCode.nonintra [(0, 1)] _ _ rfl (by simp) ?_ (by decide +kernel) (by decide)
    exact .cons _ _ _ _ _ _ (.vlc [true] (by decide +kernel) (by decide)) (.nil _)
  hUncoded := fun i hi h => by
    by_cases h0 : i = 5
    · subst h0; cases h
    · exact if_neg h0
  hDc := fun i hi h => by cases h
def s : MB := ⟨⟨code.bits ++ zeros 24, 0, .eof, []⟩, DcPred.reset 0, MVD.init, 5, createFrameBuffer 16 16 1⟩
end ExField

/-- **C69** is false for field DCT in predicted macroblocks: the prediction of a block is formed at the position that the
block would have in frame order, the difference is placed in field order.  Here the difference of the luma blocks is
zero and the vector is zero, so the macroblock should be a copy of the past picture; its line 2 is line 1 of it. -/
theorem C69_field_false : ∃ (e : PicEnv) (r : RefPics) (d : DState) (m : MbData) (s : MB)
    (code : MbCode e ((d.skip e r 0 none m.incr).begin e m.type) m),
    Covered e ∧ RefsRel 1 1 e r ∧ Rel 1 1 s d ∧ s.br = ⟨code.bits ++ zeros 24, 0, .eof, []⟩ ∧
    DState.Inside (((d.skip e r 0 none m.incr).begin e m.type).param e m) 1 1 0 0 ∧
    (macroblock e 0 none s).1 = .ok 0 ∧ ¬ Rel 1 1 (macroblock e 0 none s).2 (d.mb e r 0 none m) := by
  refine ⟨ExField.e, ExField.r, ExField.d, ExField.mb, ExField.s, ExField.code, ?_, ?_, ?_, rfl, ?_, ?_, ?_⟩
  · exact ⟨rfl, rfl, .inl rfl, fun h => (by cases h), by decide, fun s t hs ht => by
      rcases (show s = 0 ∨ s = 1 by omega) with rfl | rfl <;> rcases (show t = 0 ∨ t = 1 by omega) with rfl | rfl <;>
        decide, by decide +kernel, by decide +kernel⟩
  · refine ⟨fun _ => .inr ⟨_, _, rfl, rfl, ⟨rfl, rfl, rfl, rfl, rfl⟩, fun c x y hc hx hy => ?_⟩, fun _ => .inl ⟨rfl, rfl⟩⟩
    rcases three hc with rfl | rfl | rfl
    · have hx' : x < 16 := hx
      show (y * 16 + x) / 16 = y
      omega
    · rfl
    · rfl
  · exact ⟨created_blank 16 16, fun _ _ => reset_get _ _, ⟨fun _ _ _ _ => rfl, fun _ _ _ _ => rfl, rfl, rfl⟩, rfl⟩
  · exact ⟨fun _ => ⟨by unfold inside; decide, by unfold inside; decide⟩, fun h => (by cases h)⟩
  · decide +kernel
  · intro h
    have h1 := h.frame.2 0 0 2 (by decide) (by decide) (by decide)
    have h2 : sampleOf (macroblock ExField.e 0 none ExField.s).2.frame 0 0 2 = 1 := by decide +kernel
    have h3 : (ExField.d.mb ExField.e ExField.r 0 none ExField.mb).pic 0 0 2 = 2 := by decide +kernel
    rw [h2, h3] at h1
    cases h1

end Mpeg.Video
