/-
The relation between the decoder and the reference decoder, and what is required of the bit stream.
-/
import Verif.Video.RefSpec
import Verif.Video.MbLemmas2
namespace Mpeg.Video
open Spec

/-! ### relations -/

/-- An optional frame shows an optional picture. -/
def ShowsOpt (W H : Nat) (o : Option Frame) (p : Option Image) : Prop :=
  (o = none ∧ p = none) ∨ ∃ f P, o = some f ∧ p = some P ∧ Shows W H f P

/-- The reference frames show the reference pictures, as far as pictures of this coding type refer to them: nothing is
required for I pictures, only the past for P pictures. -/
def RefsRel (W H : Nat) (e : PicEnv) (r : RefPics) : Prop :=
  (e.ph.pictureCodingType ≠ 1 → ShowsOpt W H e.past r.past) ∧
  (e.ph.pictureCodingType = 3 → ShowsOpt W H e.future r.future)

/-- The same, where the past is only referred to if `F`. -/
def RefsIf (F : Prop) (W H : Nat) (e : PicEnv) (r : RefPics) : Prop :=
  (e.ph.pictureCodingType ≠ 1 → F → ShowsOpt W H e.past r.past) ∧
  (e.ph.pictureCodingType = 3 → ShowsOpt W H e.future r.future)

theorem RefsRel.always {W H : Nat} {e : PicEnv} {r : RefPics} (h : RefsRel W H e r) : RefsIf True W H e r :=
  ⟨fun h1 _ => h.1 h1, h.2⟩

/-- directions fit the picture type -/
def Dirs (pct : Nat) (d : DState) : Prop := (d.fwd = true → pct ≠ 1) ∧ (d.bwd = true → pct = 3)

theorem dirs_param {e : PicEnv} {d : DState} {m : MbData} {t : List Bool}
    (h : (t, m.type) ∈ isoType e.ph.pictureCodingType) : Dirs e.ph.pictureCodingType (d.param e m) := by
  unfold isoType at h
  unfold Dirs DState.param
  dsimp only
  generalize e.ph.pictureCodingType = pct at *
  generalize m.type = ty at *
  have h1 : ∀ p ∈ isoTypeI, p.2.intra = true := by decide +kernel
  have h2 : ∀ p ∈ isoTypeP, p.2.backward = false := by decide +kernel
  split at h
  · have := h1 _ h
    dsimp only at this
    rw [this]
    exact ⟨fun h => (by cases h), fun h => (by cases h)⟩
  · rename_i n1
    split at h
    · have := h2 _ h
      dsimp only at this
      rw [this]
      exact ⟨fun _ => n1, fun h => by simp at h⟩
    · split at h
      · rename_i h3
        exact ⟨fun _ => n1, fun _ => h3⟩
      · cases h

theorem fwd_param {F : Prop} {e : PicEnv} {d : DState} {m : MbData} (h2 : e.ph.pictureCodingType = 2 → F)
    (hm : m.type.forward = true → F) : (d.param e m).fwd = true → F := by
  intro h
  have h' : (!m.type.intra && (e.ph.pictureCodingType == 2 || m.type.forward)) = true := h
  rw [Bool.and_eq_true, Bool.or_eq_true, beq_iff_eq] at h'
  exact h'.2.elim h2 hm

theorem fwd_mb {F : Prop} {e : PicEnv} {r : RefPics} {row : Nat} {a : Option Nat} {d : DState} {m : MbData}
    (h2 : e.ph.pictureCodingType = 2 → F) (hm : m.type.forward = true → F) : (d.mb e r row a m).fwd = true → F :=
  fwd_param (d := (d.skip e r row a m.incr).begin e m.type) h2 hm

/-- The vectors of the decoder are those of the reference decoder. -/
structure VecRel (m : MVD) (d : DState) : Prop where
  pred : ∀ s t, s < 2 → t < 2 → m.pred 0 s t = d.vec s t
  act : ∀ s t, s < 2 → t < 2 → m.act 0 s t = d.vec s t
  fwd : m.fwd = d.fwd
  bwd : m.bwd = d.bwd

/-- The state of the decoder is that of the reference decoder. -/
structure Rel (W H : Nat) (s : MB) (d : DState) : Prop where
  frame : Shows W H s.frame d.pic
  dc : ∀ c, c < 3 → s.dcp.get c = d.dc c
  mvd : VecRel s.mvd d
  qsc : s.qsc = d.qsc

/-- The vectors in use keep macroblock (row, addr) inside the reference pictures. -/
def DState.Inside (d : DState) (W H row addr : Nat) : Prop :=
  (d.fwd = true → inside (16 * addr) 16 (16 * W) (d.vec 0 0) ∧ inside (16 * row) 16 (16 * H) (d.vec 0 1)) ∧
  (d.bwd = true → inside (16 * addr) 16 (16 * W) (d.vec 1 0) ∧ inside (16 * row) 16 (16 * H) (d.vec 1 1))

/-- All samples of a picture are in 0..255. -/
def Samples (P : Option Image) : Prop := ∀ Q, P = some Q → ∀ c x y, Q c x y ≤ 255

/-- The pictures covered by the reference decoder: 4:2:0 frame pictures; concealment vectors only with
frame_pred_frame_dct (see `C69_conceal_false`). -/
structure Covered (e : PicEnv) : Prop where
  chroma : e.se.chromaFormat = 1
  structure_ : e.pce.pictureStructure = framePicture
  fpfd : e.pce.framePredFrameDCT = 0 ∨ e.pce.framePredFrameDCT = 1
  conceal : e.pce.concealmentMotionVectors = true → e.pce.framePredFrameDCT = 1
  precision : e.pce.intraDCPrecision < 4
  fcodes : FCodes e
  matrix0 : ∀ x ∈ e.qm.m0, x < 256
  matrix1 : ∀ x ∈ e.qm.m1, x < 256

/-- What a legal macroblock requires of its surroundings: it is inside the picture, its vectors (and those of skipped
macroblocks in B pictures) stay inside the reference pictures, a P picture with skipped macroblocks has a reference,
and only intra macroblocks use field DCT. -/
structure MbLegal (e : PicEnv) (r : RefPics) (W H row : Nat) (addr : Option Nat) (d : DState) (m : MbData) : Prop where
  inPicture : addrAfter addr m.incr < W
  skipP : ∀ a, addr = some a → 1 < m.incr → e.ph.pictureCodingType = 2 → r.past ≠ none
  skipB : ∀ a, addr = some a → e.ph.pictureCodingType = 3 → ∀ b, a < b → b < a + m.incr → DState.Inside d W H row b
  vectors : DState.Inside (((d.skip e r row addr m.incr).begin e m.type).param e m) W H row (addrAfter addr m.incr)
  frameDct : m.dct = true → m.type.intra = true


end Mpeg.Video
