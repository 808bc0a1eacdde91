/-
Header fields that decoding does not depend on: macroblocks, slices.
-/
import Verif.Video.DisplaySpec
import Verif.Video.DriftLemmas3
set_option linter.all false
namespace Mpeg.Video
open Spec

/-- what the macroblocks of a picture depend on -/
structure EnvAlike (e e' : PicEnv) : Prop where
  v : e.sh.verticalSizeValue = e'.sh.verticalSizeValue
  cf : e.se.chromaFormat = e'.se.chromaFormat
  pct : e.ph.pictureCodingType = e'.ph.pictureCodingType
  pce : PicExtAlike e.pce e'.pce
  qm : e.qm = e'.qm
  past : e.past = e'.past
  future : e.future = e'.future

section
variable {e e' : PicEnv} (h : EnvAlike e e')
include h

theorem envAlike_fCode (s t : Nat) : e.pce.fCode s t = e'.pce.fCode s t := by
  unfold PictureCodingExtension.fCode
  simp only [h.pce.f00, h.pce.f01, h.pce.f10, h.pce.f11]
theorem envAlike_finish (d : MVD) (b : Block) (i addr row : Nat) (il : Bool) (f : Frame) :
    finishBlock e d b i addr row il f = finishBlock e' d b i addr row il f := by
  unfold finishBlock
  rw [h.past, h.future]
theorem envAlike_bcopy (d : MVD) (addr row k : Nat) (f : Frame) : bcopyBlocks e d addr row k f = bcopyBlocks e' d addr row k f := by
  induction k generalizing f with
  | zero => exact Eq.trans (b := some f) rfl rfl
  | succ k ih =>
    have hf := envAlike_finish h d Block.zero (5 - k) addr row false f
    cases hx : finishBlock e' d Block.zero (5 - k) addr row false f with
    | none => rw [bcopyBlocks_none hx, bcopyBlocks_none (hf.trans hx)]
    | some g => rw [bcopyBlocks_step hx, bcopyBlocks_step (hf.trans hx), ih]
theorem envAlike_bframe (d : MVD) (row n addr : Nat) (f : Frame) : bframeCopy e d row addr n f = bframeCopy e' d row addr n f := by
  induction n generalizing addr f with
  | zero => exact Eq.trans (b := some f) rfl rfl
  | succ n ih =>
    have hf := envAlike_bcopy h d addr row 6 f
    cases hx : bcopyBlocks e' d addr row 6 f with
    | none => rw [bframeCopy_none hx, bframeCopy_none (hf.trans hx)]
    | some g => rw [bframeCopy_step hx, bframeCopy_step (hf.trans hx), ih]
theorem envAlike_copySkipped (row : Nat) (addr : Option Nat) (incr : Nat) : copySkipped e row addr incr = copySkipped e' row addr incr := by
  funext s
  unfold copySkipped
  simp only [envAlike_bframe h, h.pct, h.past]
theorem envAlike_skipResets (incr : Nat) : skipResets e incr = skipResets e' incr := by
  unfold skipResets
  rw [h.pct, h.pce.precision]
theorem envAlike_modeResets (t : MacroblockType) : modeResets e t = modeResets e' t := by
  unfold modeResets
  rw [h.pct, h.pce.precision, h.pce.conceal]
theorem envAlike_mode : macroblockMode e = macroblockMode e' := by
  unfold macroblockMode
  rw [h.pct, h.pce.structure_, h.pce.framePred]
theorem envAlike_part (info : MvInfo) (r s t : Nat) : motionVectorPart e info r s t = motionVectorPart e' info r s t := by
  unfold motionVectorPart
  rw [envAlike_fCode h, h.pce.structure_]
theorem envAlike_mvs (s : Nat) (m : Mode) : motionVectors e s m = motionVectors e' s m := by
  unfold motionVectors motionVector
  rw [h.pce.framePred]
  simp only [envAlike_part h]
theorem envAlike_vectors (m : Mode) : mbVectors e m = mbVectors e' m := by
  unfold mbVectors
  rw [h.pce.conceal, h.pct, envAlike_mvs h, envAlike_mvs h]
theorem envAlike_params (qsc i : Nat) (intra : Bool) : blockParams e qsc i intra = blockParams e' qsc i intra := by
  unfold blockParams
  rw [h.pce.scan, h.pce.qScale, h.pce.precision, h.cf, h.qm]
theorem envAlike_mbBlock (intra coded : Bool) (i : Nat) (b : Block) : mbBlock e intra coded i b = mbBlock e' intra coded i b := by
  funext s
  unfold mbBlock
  rw [h.pce.vlc, envAlike_params h]
theorem envAlike_mbBlocks (intra dctType : Bool) (coded : Nat → Bool) (addr row k i : Nat) (b : Block) :
    mbBlocks e intra dctType coded addr row k i b = mbBlocks e' intra dctType coded addr row k i b := by
  induction k generalizing i b with
  | zero => unfold mbBlocks; rfl
  | succ k ih =>
    unfold mbBlocks
    simp only [envAlike_mbBlock h, envAlike_finish h, ih]
theorem envAlike_mbFinish (row a : Nat) (m : Mode) (cbp : Nat) : mbFinish e row a m cbp = mbFinish e' row a m cbp := by
  unfold mbFinish
  rw [envAlike_mbBlocks h, h.cf]
theorem envAlike_mbCoded (row a : Nat) (m : Mode) : mbCoded e row a m = mbCoded e' row a m := by
  funext s
  unfold mbCoded
  rw [h.cf]
  simp only [envAlike_mbFinish h]
theorem envAlike_pattern (row a : Nat) (m : Mode) : mbPattern e row a m = mbPattern e' row a m := by
  unfold mbPattern
  rw [envAlike_mbFinish h, envAlike_mbCoded h]
theorem envAlike_macroblock (row : Nat) (addr : Option Nat) : macroblock e row addr = macroblock e' row addr := by
  unfold macroblock
  simp only [envAlike_copySkipped h, envAlike_skipResets h, envAlike_mode h, envAlike_modeResets h, envAlike_vectors h, envAlike_pattern h]
theorem envAlike_mbLoop (row f : Nat) (addr : Option Nat) : mbLoop e row f addr = mbLoop e' row f addr := by
  induction f generalizing addr with
  | zero => unfold mbLoop; rfl
  | succ f ih =>
    unfold mbLoop
    simp only [envAlike_macroblock h, ih]
theorem envAlike_mbLoopAll (row : Nat) : mbLoopAll e row = mbLoopAll e' row := by
  funext s
  unfold mbLoopAll
  rw [envAlike_mbLoop h]
theorem envAlike_slice : slice e = slice e' := by
  unfold slice
  simp only [envAlike_mbLoopAll h, h.v, h.pce.precision]
theorem envAlike_sliceLoop (f : Nat) : sliceLoop e f = sliceLoop e' f := by
  induction f with
  | zero => unfold sliceLoop; rfl
  | succ f ih =>
    unfold sliceLoop
    rw [envAlike_slice h, ih]
end

end Mpeg.Video
