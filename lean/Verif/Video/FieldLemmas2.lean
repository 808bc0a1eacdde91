/-
Intra field pictures: the data are decoded like those of a frame picture.
-/
import Verif.Video.FieldLemmas
import Verif.Video.SynLemmas
import Verif.Video.StreamLemmas4
set_option linter.all false
namespace Mpeg.Video
open Spec

variable {stop : Err} {later : List (List Bool × Err)}

theorem bind_congr_at {σ α β : Type} {m : Go σ α} {f g : α → Go σ β} {s : σ}
    (h : ∀ a s', m s = (.ok a, s') → f a s' = g a s') : (m >>= f) s = (m >>= g) s := by
  rw [Go.bind_apply, Go.bind_apply]
  rcases hm : m s with ⟨r, s'⟩
  cases r with
  | ok a => exact h a s' hm
  | err x => rfl
  | panic => rfl
  | hang => rfl

/-- The environment of a frame picture. -/
def asFrameExt (x : PictureCodingExtension) : PictureCodingExtension :=
  { x with pictureStructure := 3, framePredFrameDCT := 1 }
def PicEnv.asFrame (e : PicEnv) : PicEnv := { e with pce := asFrameExt e.pce }

/-- An intra field picture without concealment vectors. -/
structure IntraField (e : PicEnv) : Prop where
  kind : e.ph.pictureCodingType = 1
  structure_ : e.pce.pictureStructure ≠ 3
  conceal : e.pce.concealmentMotionVectors = false

theorem type_intra {s s' : BR} {t : MacroblockType} (h : mbType 1 s = (.ok t, s')) : t.forward = false ∧ t.backward = false := by
  obtain ⟨l, hl, -⟩ := (reads_mbType 1).bwd s t s' h
  have hl : (l, t) ∈ isoTypeI := hl
  have : ∀ p ∈ isoTypeI, p.2.forward = false ∧ p.2.backward = false := by decide
  exact this _ hl

theorem mode_field {e : PicEnv} (h : IntraField e) : macroblockMode e = macroblockMode e.asFrame := by
  funext s
  unfold macroblockMode
  have hk : e.asFrame.ph.pictureCodingType = e.ph.pictureCodingType := rfl
  rw [hk, h.kind]
  refine bind_congr_at fun t s' ht => ?_
  obtain ⟨a, b⟩ := type_intra ht
  have h1 : (e.pce.pictureStructure == framePicture) = false := by
    have := h.structure_
    simpa [framePicture] using this
  have h2 : (e.asFrame.pce.framePredFrameDCT == 0) = false := rfl
  have h3 : (e.asFrame.pce.pictureStructure == framePicture) = true := rfl
  simp only [a, b, h1, h2, h3, bne, Bool.or_self, Bool.false_and, Bool.and_false, Bool.true_and]

theorem mode_intra {e : PicEnv} (h : IntraField e) {s s' : BR} {m : Mode} (hm : macroblockMode e s = (.ok m, s')) :
    m.type.forward = false ∧ m.type.backward = false := by
  unfold macroblockMode at hm
  rw [h.kind] at hm
  obtain ⟨t, s1, h1, hm⟩ := Go.bind_eq_ok hm
  obtain ⟨x, s2, _, hm⟩ := Go.bind_eq_ok hm
  obtain ⟨y, s3, _, hm⟩ := Go.bind_eq_ok hm
  obtain ⟨z, s4, _, hm⟩ := Go.bind_eq_ok hm
  cases hm
  exact type_intra h1

theorem blocks_field (e : PicEnv) (intra dct : Bool) (coded : Nat → Bool) (addr row : Nat) :
    ∀ k i b, mbBlocks e intra dct coded addr row k i b = mbBlocks e.asFrame intra dct coded addr row k i b
  | 0, _, _ => rfl
  | k + 1, i, b => by
    unfold mbBlocks
    have h1 : mbBlock e = mbBlock e.asFrame := rfl
    have h2 : finishBlock e = finishBlock e.asFrame := rfl
    simp only [h1, h2, blocks_field e intra dct coded addr row k]

theorem pattern_field (e : PicEnv) (row addr : Nat) (m : Mode) : mbPattern e row addr m = mbPattern e.asFrame row addr m := by
  have h : ∀ cbp, mbFinish e row addr m cbp = mbFinish e.asFrame row addr m cbp := by
    intro cbp
    unfold mbFinish
    have h0 : e.asFrame.se.chromaFormat = e.se.chromaFormat := rfl
    rw [h0, blocks_field]
  unfold mbPattern mbCoded
  have h0 : e.asFrame.se.chromaFormat = e.se.chromaFormat := rfl
  simp only [h, h0]

theorem vectors_field {e : PicEnv} (h : IntraField e) {m : Mode} (hm : m.type.forward = false ∧ m.type.backward = false) :
    mbVectors e m = mbVectors e.asFrame m := by
  unfold mbVectors
  have h1 : e.asFrame.pce.concealmentMotionVectors = e.pce.concealmentMotionVectors := rfl
  have h2 : e.asFrame.ph = e.ph := rfl
  rw [h1, h2, hm.1, hm.2, h.conceal, Bool.and_false, Bool.or_self]
  have h3 : ∀ m n : Go MB Unit, Go.opt false () m = Go.opt false () n := fun _ _ => rfl
  rw [h3 (motionVectors e 0 m) (motionVectors e.asFrame 0 m), h3 (motionVectors e 1 m) (motionVectors e.asFrame 1 m)]

theorem macroblock_field {e : PicEnv} (h : IntraField e) (row : Nat) (addr : Option Nat) :
    macroblock e row addr = macroblock e.asFrame row addr := by
  funext s
  unfold macroblock
  refine bind_congr_at fun incr s1 _ => ?_
  have h1 : copySkipped e row addr incr = copySkipped e.asFrame row addr incr := by
    funext s
    unfold copySkipped
    have hp : e.asFrame.ph.pictureCodingType = e.ph.pictureCodingType := rfl
    have n1 : ¬ e.ph.pictureCodingType = pFrame := by rw [h.kind]; decide
    have n2 : ¬ e.ph.pictureCodingType = bFrame := by rw [h.kind]; decide
    simp only [hp, if_neg n1, if_neg n2]
  rw [h1]
  refine bind_congr_at fun _ s2 _ => ?_
  have h2 : skipResets e incr = skipResets e.asFrame incr := rfl
  rw [h2]
  refine bind_congr_at fun _ s3 _ => ?_
  rw [mode_field h]
  refine bind_congr_at fun m s4 h4 => ?_
  have hm : m.type.forward = false ∧ m.type.backward = false := by
    rw [← mode_field h] at h4
    have h4' : macroblockMode e s3.br = (.ok m, (macroblockMode e s3.br).2) := by
      unfold MB.lift at h4
      rw [Prod.mk.injEq] at h4
      exact Prod.ext h4.1 rfl
    exact mode_intra h h4'
  have h5 : modeResets e m.type = modeResets e.asFrame m.type := rfl
  rw [h5]
  refine bind_congr_at fun _ s5 _ => ?_
  rw [vectors_field h hm, pattern_field]

theorem mbLoop_field {e : PicEnv} (h : IntraField e) (row : Nat) : ∀ fuel addr, mbLoop e row fuel addr = mbLoop e.asFrame row fuel addr
  | 0, _ => rfl
  | fuel + 1, addr => by
    unfold mbLoop
    rw [macroblock_field h]
    simp only [mbLoop_field h row fuel]

theorem slice_field {e : PicEnv} (h : IntraField e) : slice e = slice e.asFrame := by
  unfold slice
  have h1 : ∀ row, mbLoopAll e row = mbLoopAll e.asFrame row := by
    intro row
    funext s
    unfold mbLoopAll
    rw [mbLoop_field h]
  have h2 : e.asFrame.sh = e.sh := rfl
  have h3 : e.asFrame.pce.intraDCPrecision = e.pce.intraDCPrecision := rfl
  simp only [h1, h2, h3]

theorem sliceLoop_field {e : PicEnv} (h : IntraField e) : ∀ fuel, sliceLoop e fuel = sliceLoop e.asFrame fuel
  | 0 => rfl
  | fuel + 1 => by
    unfold sliceLoop
    rw [slice_field h]
    simp only [sliceLoop_field h fuel]

/-- The data of an intra field picture are decoded like those of a frame picture. -/
theorem pictureData_field {s : VS} {ph : PictureHeader} {x : PictureCodingExtension} (h3 : s.ph = some ph)
    (h4 : s.pce = some x) (hk : ph.pictureCodingType = 1) (hs : x.pictureStructure ≠ 3)
    (hc : x.concealmentMotionVectors = false) :
    pictureData s = ((pictureData { s with pce := some (asFrameExt x) }).1,
      { (pictureData { s with pce := some (asFrameExt x) }).2 with pce := some x }) := by
  obtain ⟨br, sh, se, gop, ph', pce, qm, fs, fc⟩ := s
  cases h3
  cases h4
  unfold pictureData
  cases sh with
  | none => rfl
  | some sh =>
  cases se with
  | none => rfl
  | some se =>
  dsimp only
  have he : IntraField ⟨sh, se, ph, x, qm, fs.past, fs.future⟩ := ⟨hk, hs, hc⟩
  rw [sliceLoop_field he]
  dsimp only [PicEnv.asFrame, VS.size]
  have hd : DcPred.reset (asFrameExt x).intraDCPrecision = DcPred.reset x.intraDCPrecision := rfl
  rw [hd]
  generalize ((do sliceLoop _ _; MB.lift nextStartCode : Go MB Unit) _) = r
  rcases r with ⟨r, m⟩
  cases r <;> rfl

end Mpeg.Video
