/-
The decoder does not depend on how many bytes have been read before.
-/
import Verif.Video.DisplayLemmas
set_option linter.all false
namespace Mpeg
open Video.Spec

/-- the same result from readers at the same place of the same input -/
abbrev Blind1 {α : Type} (m : Go BR α) : Prop := Go.Step SameInput Eq m m

namespace Video.Spec.SameInput
theorem refl (a : BR) : SameInput a a := ⟨rfl, rfl, rfl, rfl⟩
theorem adv {a b : BR} (h : SameInput a b) (k : Nat) : SameInput (a.adv k) (b.adv k) :=
  ⟨by show a.bits.drop k = b.bits.drop k; rw [h.bits], h.stop, h.later, by
    show (a.pos + k) % 8 = (b.pos + k) % 8
    have := h.aligned; omega⟩
theorem failTo {a b : BR} (h : SameInput a b) : SameInput a.failTo b.failTo := by
  obtain ⟨ab, ap, as, al⟩ := a
  obtain ⟨bb, bp, bs, bl⟩ := b
  obtain ⟨h1, h2, h3, h4⟩ := h
  dsimp only at h1 h2 h3 h4
  subst h1 h2 h3
  unfold BR.failTo
  dsimp only
  cases al with
  | nil => exact ⟨rfl, rfl, rfl, by dsimp only; omega⟩
  | cons x l => exact ⟨rfl, rfl, rfl, by dsimp only; omega⟩
theorem err {a b : BR} (h : SameInput a b) : a.failErr = b.failErr := by unfold BR.failErr; rw [h.bits, h.stop]
theorem fuel {a b : BR} (h : SameInput a b) : Video.fuelOf a = Video.fuelOf b := by
  unfold Video.fuelOf; rw [h.bits, h.later]
end Video.Spec.SameInput

namespace BR
theorem blind_read (k : Nat) : Blind1 (read k) := by
  intro a b h
  unfold read
  rw [h.bits, h.err]
  split
  · exact ⟨.ok rfl, h.adv k⟩
  · exact ⟨sameRes_refl _, h.failTo⟩
theorem blind_peek (k : Nat) : Blind1 (peek k) := by
  intro a b h
  unfold peek
  rw [h.bits, h.err]
  split
  · exact ⟨.ok rfl, h⟩
  · exact ⟨sameRes_refl _, h.failTo⟩
theorem blind_skip (k : Nat) : Blind1 (skip k) := by
  intro a b h
  unfold skip
  rw [h.bits, h.err]
  split
  · exact ⟨.ok rfl, h.adv k⟩
  · exact ⟨sameRes_refl _, h.failTo⟩
theorem blind_read1 : Blind1 read1 := by
  intro a b h
  unfold read1
  rw [h.bits, h.err]
  split
  · exact ⟨.ok rfl, h.adv 1⟩
  · exact ⟨sameRes_refl _, h.failTo⟩
theorem blind_align : Blind1 align := by
  intro a b h
  unfold align
  rw [h.aligned]
  exact ⟨.ok rfl, h.adv _⟩
theorem blind_codeAssert (k v : Nat) (e : Err) : Blind1 (codeAssert k v e) := by
  unfold codeAssert codeCheck
  exact .bindEq (.bindEq (blind_peek k) fun _ => .pure rfl) fun _ => .bindEq .check fun _ => blind_skip _
end BR

namespace Video
open _root_.Mpeg.BR

/-- the same slice state, up to the number of bytes read before -/
structure MBSame (s t : MB) : Prop where
  br : SameInput s.br t.br
  dcp : s.dcp = t.dcp
  mvd : s.mvd = t.mvd
  qsc : s.qsc = t.qsc
  frame : s.frame = t.frame

abbrev Blind2 {α : Type} (m : Go MB α) : Prop := Go.Step MBSame Eq m m

theorem blind_mlift {α : Type} {m : Go BR α} (h : Blind1 m) : Blind2 (MB.lift m) := by
  intro s t r
  obtain ⟨h1, h2⟩ := h _ _ r.br
  exact ⟨h1, ⟨h2, r.dcp, r.mvd, r.qsc, r.frame⟩⟩

theorem blind_alignIfNeeded : Blind1 alignIfNeeded := by
  have h : alignIfNeeded = fun s => (if s.isAligned then (pure () : Go BR Unit) else BR.align) s := by
    funext s; unfold alignIfNeeded; split <;> rfl
  rw [h]
  refine Go.Step.byState (f := fun s => if s.isAligned then (pure () : Go BR Unit) else BR.align)
    (f' := fun s => if s.isAligned then (pure () : Go BR Unit) else BR.align) fun s t h => ?_
  unfold BR.isAligned
  rw [h.aligned]
  exact .ite (.pure rfl) blind_align
theorem blind_fuel {α : Type} {loop : Nat → Go BR α} (h : ∀ f, Blind1 (loop f)) {F : BR → Nat} (hF : ∀ s t, SameInput s t → F s = F t) :
    Blind1 (fun s => loop (F s) s) := by
  intro s t r
  show SameRes Eq (loop (F s) s).1 (loop (F t) t).1 ∧ SameInput (loop (F s) s).2 (loop (F t) t).2
  rw [hF s t r]
  exact h (F t) s t r
theorem blind_fuel2 {α : Type} {loop : Nat → Go MB α} (h : ∀ f, Blind2 (loop f)) {F : MB → Nat} (hF : ∀ s t, MBSame s t → F s = F t) :
    Blind2 (fun s => loop (F s) s) := by
  intro s t r
  show SameRes Eq (loop (F s) s).1 (loop (F t) t).1 ∧ MBSame (loop (F s) s).2 (loop (F t) t).2
  rw [hF s t r]
  exact h (F t) s t r
theorem fuel_bits (k : Nat) (s t : BR) (h : SameInput s t) : s.bits.length + k = t.bits.length + k := by rw [h.bits]

theorem blind_nscLoop : ∀ f, Blind1 (nextStartCodeLoop f)
  | 0 => .hang
  | f + 1 => .bindEq (blind_peek _) fun _ => .ite (.pure rfl) (.bindEq (blind_read _) fun _ => .ite (blind_nscLoop f) (.throw _))
theorem blind_nextStartCode : Blind1 nextStartCode :=
  .bindEq blind_alignIfNeeded fun _ => blind_fuel blind_nscLoop fun s t h => fuel_bits 1 s t h
theorem blind_markerBit : Blind1 markerBit := .bindEq blind_read1 fun _ => .check
theorem blind_readBytes : ∀ n, Blind1 (readBytes n)
  | 0 => .pure rfl
  | n + 1 => .bindEq (blind_read _) fun _ => .bindEq (blind_readBytes n) fun _ => .pure rfl
theorem blind_readMatrix : Blind1 readMatrix := blind_readBytes 64
theorem blind_extraLoop : ∀ f, Blind1 (extraInformationLoop f)
  | 0 => .hang
  | f + 1 => .bindEq (blind_peek _) fun _ => .ite (.bindEq (blind_skip _) fun _ => .bindEq (blind_read _) fun _ =>
      .bindEq (blind_extraLoop f) fun _ => .pure rfl) (.pure rfl)
theorem blind_readExtra : Blind1 readExtraInformation := blind_fuel blind_extraLoop fun s t h => fuel_bits 1 s t h
theorem blind_read1OrFalse : Blind1 read1OrFalse := by
  have h : read1OrFalse = Near.handle read1 pure fun _ => pure false := by
    funext s
    unfold read1OrFalse Near.handle
    have := safe_read1 s
    cases h : read1 s with
    | mk r s' =>
      rw [h] at this
      cases r with
      | ok a => rfl
      | err e => rfl
      | panic => exact absurd rfl this.1
      | hang => exact absurd rfl this.2
  rw [h]
  exact .handle blind_read1 (fun _ _ h => .pure h) fun _ => .pure rfl

macro "blind_steps" : tactic => `(tactic| repeat' with_reducible first
  | refine Go.Step.bindEq ?_ (fun _ => ?_)
  | exact Go.Step.pure rfl
  | exact Go.Step.check
  | exact Go.Step.panic
  | exact Go.Step.throw _
  | exact blind_read _
  | exact blind_read1
  | exact blind_skip _
  | exact blind_peek _
  | exact blind_codeAssert _ _ _
  | exact blind_markerBit
  | exact blind_nextStartCode
  | exact blind_readMatrix
  | exact blind_readExtra
  | exact blind_read1OrFalse
  | refine Go.Step.opt ?_
  | (rw [map_eq_pure_bind])
  | refine Go.Step.ite ?_ ?_)

theorem blind_startCode (c : Nat) : Blind1 (startCode c) := blind_codeAssert _ _ _
theorem blind_extensionID (c : Nat) : Blind1 (extensionID c) := blind_codeAssert _ _ _
theorem blind_readSequenceHeader : Blind1 readSequenceHeader := by
  unfold readSequenceHeader startCode; blind_steps
theorem blind_readSequenceExtension : Blind1 readSequenceExtension := by
  unfold readSequenceExtension startCode extensionID; blind_steps
theorem blind_readGOPHeader : Blind1 readGOPHeader := by
  unfold readGOPHeader startCode; blind_steps
theorem blind_readPictureHeader : Blind1 readPictureHeader := by
  unfold readPictureHeader startCode; blind_steps
theorem blind_readPictureCodingExtension : Blind1 readPictureCodingExtension := by
  unfold readPictureCodingExtension startCode extensionID; blind_steps
theorem blind_display : Blind1 readSequenceDisplayExtension := by
  unfold readSequenceDisplayExtension extensionID; blind_steps
theorem blind_scalable : Blind1 readSequenceScalableExtension := by
  unfold readSequenceScalableExtension extensionID; blind_steps
theorem blind_temporal : Blind1 readPictureTemporalScalableExtension := by
  unfold readPictureTemporalScalableExtension extensionID; blind_steps
theorem blind_userLoop : ∀ f, Blind1 (userDataLoop f)
  | 0 => .hang
  | f + 1 => .bindEq (blind_peek _) fun _ => .ite (.pure rfl) (.bindEq (blind_read _) fun _ =>
      .bindEq (blind_userLoop f) fun _ => .pure rfl)
theorem blind_userDataBytes : Blind1 userDataBytes := blind_fuel blind_userLoop fun s t h => fuel_bits 1 s t h
theorem blind_userData : Blind1 userData :=
  .bindEq (blind_startCode _) fun _ => .bindEq blind_userDataBytes fun _ => .bindEq blind_nextStartCode fun _ => .pure rfl

/-! ### macroblocks -/

theorem blind_huffLoop {α : Type} : ∀ (f : Nat) (t : Table α), Blind1 (huffLoop f t)
  | 0, _ => .hang
  | f + 1, t => by
    unfold huffLoop
    refine .bindEq blind_read1 fun b => ?_
    cases (t.next b).hit with
    | some v => exact .pure rfl
    | none => exact .ite (.throw _) (blind_huffLoop f _)
theorem blind_huffDecode {α : Type} (t : Table α) : Blind1 (huffDecode t) := blind_huffLoop _ t
theorem blind_escapeLoop : ∀ f n, Blind1 (escapeLoop f n)
  | 0, _ => .hang
  | f + 1, n => .bindEq (blind_peek _) fun _ => .ite (.bindEq (.ignoreErr (blind_skip _)) fun _ => blind_escapeLoop f _) (.pure rfl)
theorem blind_mbIncrement : Blind1 mbIncrement :=
  .bindEq (blind_fuel (loop := fun f => escapeLoop f 0) (fun f => blind_escapeLoop f 0) fun s t h => fuel_bits 1 s t h) fun _ =>
    .bindEq (blind_huffDecode _) fun _ => .pure rfl
theorem blind_mbType (pct : Nat) : Blind1 (mbType pct) := by
  unfold mbType
  exact .ite (blind_huffDecode _) (.ite (blind_huffDecode _) (.ite (blind_huffDecode _) .panic))
theorem blind_macroblockMode (e : PicEnv) : Blind1 (macroblockMode e) := by
  unfold macroblockMode
  refine .bindEq (blind_mbType _) fun _ => ?_
  blind_steps
theorem blind_readMotion (fc : Nat) : Blind1 (readMotion fc) := by
  unfold readMotion
  refine .bindEq (blind_huffDecode _) fun _ => ?_
  blind_steps
theorem blind_motionVectorPart (e : PicEnv) (info : MvInfo) (r s t : Nat) : Blind2 (motionVectorPart e info r s t) := by
  unfold motionVectorPart
  exact .bindEq (blind_mlift (blind_readMotion _)) fun _ => .ite .panic (.modify fun s t h =>
    ⟨h.br, h.dcp, by dsimp only; rw [h.mvd], h.qsc, h.frame⟩)
theorem blind_motionVector (e : PicEnv) (info : MvInfo) (r s : Nat) : Blind2 (motionVector e info r s) :=
  .bindEq (blind_motionVectorPart _ _ _ _ _) fun _ => blind_motionVectorPart _ _ _ _ _
theorem blind_orPanic {α : Type} (x : Option α) : Blind2 (orPanic x) := by
  cases x with
  | none => exact .panic
  | some a => exact .pure rfl
theorem blind_motionVectors (e : PicEnv) (s : Nat) (m : Mode) : Blind2 (motionVectors e s m) := by
  unfold motionVectors
  refine .bindEq (blind_orPanic _) fun info => .ite ?_ ?_
  · exact .bindEq (.opt (blind_mlift (blind_read _))) fun _ => blind_motionVector _ _ _ _
  · exact .bindEq (blind_mlift (blind_read _)) fun _ => .bindEq (blind_motionVector _ _ _ _) fun _ =>
      .bindEq (blind_mlift (blind_read _)) fun _ => blind_motionVector _ _ _ _
theorem blind_codedBlockPattern (cf : Nat) : Blind1 (codedBlockPattern cf) := by
  have h : codedBlockPattern cf = Near.handle decodeCbp (fun a => if cf = 2 ∨ cf = 3 then Go.panic else pure a)
      (fun e => if cf = 2 ∨ cf = 3 then Go.panic else Go.throw e) := by
    funext s
    unfold codedBlockPattern Near.handle
    cases decodeCbp s with
    | mk r s' => cases r <;> dsimp only <;> first | rfl | (split <;> rfl)
  rw [h]
  exact .handle (blind_huffDecode _) (fun _ _ h => .ite .panic (.pure h)) fun _ => .ite .panic (.throw _)
theorem blind_setFrame (f : Frame) : Blind2 (Go.modify fun s => { s with frame := f }) :=
  .modify fun s t h => ⟨h.br, h.dcp, h.mvd, h.qsc, rfl⟩
theorem blind_copySkipped (e : PicEnv) (row : Nat) (addr : Option Nat) (incr : Nat) :
    Blind2 (copySkipped e row addr incr) := by
  cases addr with
  | none => exact .pure rfl
  | some a =>
    intro s t h
    unfold copySkipped
    dsimp only
    rw [h.frame, h.mvd]
    split
    · split
      · exact Go.Step.bindEq (blind_orPanic _) (fun f => blind_setFrame f) s t h
      · split
        · exact Go.Step.bindEq (blind_orPanic _) (fun f => blind_setFrame f) s t h
        · exact ⟨.ok rfl, h⟩
    · exact ⟨.ok rfl, h⟩
theorem blind_dctTail : ∀ y, Blind1 (dctTail y)
  | .eob => .pure rfl
  | .escape => .bindEq (blind_read _) fun _ => .bindEq blind_read1 fun _ => .bindEq (blind_read _) fun _ => .pure rfl
  | .coef _ _ => .bindEq blind_read1 fun _ => .pure rfl
theorem blind_coeffLoop (one : Bool) : ∀ (fuel n : Nat) (b : Block), Blind1 (coeffLoop one fuel n b)
  | 0, _, _ => .hang
  | fuel + 1, n, b => by
    unfold coeffLoop
    refine .bindEq (.bindEq (blind_huffDecode _) fun _ => blind_dctTail _) fun ev => ?_
    cases ev with
    | eob => exact .pure rfl
    | coef run level => exact .ite (blind_coeffLoop one fuel _ _) .panic
theorem blind_readBlock (b : Block) (p : DcPred) (format cc : Nat) (intra : Bool) : Blind1 (readBlock b p format cc intra) := by
  unfold readBlock
  refine .ite ?_ ?_
  · refine .bindEq (.bindEq (blind_huffDecode _) fun _ => .bindEq (blind_read _) fun _ => .pure rfl) fun _ => ?_
    exact .bindEq (blind_coeffLoop _ _ _ _) fun _ => .pure rfl
  · exact .bindEq (blind_coeffLoop _ _ _ _) fun _ => .pure rfl
theorem blind_mbBlock (e : PicEnv) (intra coded : Bool) (i : Nat) (b : Block) : Blind2 (mbBlock e intra coded i b) := by
  cases coded with
  | false => exact .pure rfl
  | true =>
    rw [mbBlock_blockOf]
    refine Go.Step.byState fun s t h => ?_
    unfold blockOf
    rw [h.dcp, h.qsc]
    exact .bindEq (blind_mlift (blind_readBlock _ _ _ _ _)) fun _ =>
      .bindEq (.modify fun s t h => ⟨h.br, rfl, h.mvd, h.qsc, h.frame⟩) fun _ => .pure rfl
theorem blind_mbBlocks (e : PicEnv) (intra dct : Bool) (coded : Nat → Bool) (addr row : Nat) :
    ∀ k i b, Blind2 (mbBlocks e intra dct coded addr row k i b)
  | 0, _, _ => .pure rfl
  | k + 1, i, b => .bindEq (blind_mbBlock _ _ _ _ _) fun _ => .getBind fun s t h => by
      rw [h.mvd, h.frame]
      exact .bindEq (blind_orPanic _) fun f => .bindEq (blind_setFrame f) fun _ => blind_mbBlocks e intra dct coded addr row k _ _
theorem blind_mbFinish (e : PicEnv) (row a : Nat) (m : Mode) (cbp : Nat) : Blind2 (mbFinish e row a m cbp) :=
  .bindEq (blind_mbBlocks _ _ _ _ _ _ _ _ _) fun _ => .pure rfl
theorem blind_mbPattern (e : PicEnv) (row a : Nat) (m : Mode) : Blind2 (mbPattern e row a m) := by
  unfold mbPattern
  refine .ite ?_ (blind_mbFinish _ _ _ _ _)
  have h : mbCoded e row a m = Near.handle (MB.lift (codedBlockPattern e.se.chromaFormat)) (mbFinish e row a m)
      fun _ => pure 0 := by
    funext s
    unfold mbCoded Near.handle
    cases MB.lift (codedBlockPattern e.se.chromaFormat) s with | mk r s' => cases r <;> rfl
  rw [h]
  exact .handle (blind_mlift (blind_codedBlockPattern _)) (fun a b h => by cases h; exact blind_mbFinish _ _ _ _ _) fun _ => .pure rfl
theorem blind_mbVectors (e : PicEnv) (m : Mode) : Blind2 (mbVectors e m) := by
  unfold mbVectors
  exact .bindEq (.opt (.bindEq (blind_mlift (blind_read _)) fun _ => .modify fun s t h => ⟨h.br, h.dcp, h.mvd, rfl, h.frame⟩)) fun _ =>
    .bindEq (.opt (blind_motionVectors _ _ _)) fun _ => .bindEq (.opt (blind_motionVectors _ _ _)) fun _ =>
    .bindEq (.modify fun s t h => ⟨h.br, h.dcp, by dsimp only; rw [h.mvd], h.qsc, h.frame⟩) fun _ => .opt (blind_mlift blind_markerBit)
theorem blind_macroblock (e : PicEnv) (row : Nat) (addr : Option Nat) : Blind2 (macroblock e row addr) :=
  .bindEq (blind_mlift blind_mbIncrement) fun _ => .bindEq (blind_copySkipped _ _ _ _) fun _ =>
    .bindEq (.modify fun s t h => ⟨h.br, by dsimp only; rw [h.dcp], by dsimp only; rw [h.mvd], h.qsc, h.frame⟩) fun _ =>
    .bindEq (blind_mlift (blind_macroblockMode e)) fun _ =>
    .bindEq (.modify fun s t h => ⟨h.br, by dsimp only; rw [h.dcp], by dsimp only; rw [h.mvd], h.qsc, h.frame⟩) fun _ =>
    .bindEq (blind_mbVectors _ _) fun _ => blind_mbPattern _ _ _ _
theorem blind_mbLoop (e : PicEnv) (row : Nat) : ∀ f addr, Blind2 (mbLoop e row f addr)
  | 0, _ => .hang
  | f + 1, addr => .bindEq (blind_macroblock _ _ _) fun _ => .bindEq (blind_mlift (blind_peek _)) fun _ =>
      .ite (.pure rfl) (blind_mbLoop e row f _)
theorem blind_mbLoopAll (e : PicEnv) (row : Nat) : Blind2 (mbLoopAll e row) :=
  blind_fuel2 (loop := fun f => mbLoop e row f none) (fun f => blind_mbLoop e row f none) fun s t h => h.br.fuel
theorem blind_sliceHeader (v : Nat) : Blind1 (sliceHeader v) := by unfold sliceHeader; blind_steps
theorem blind_slice (e : PicEnv) : Blind2 (slice e) := by
  unfold slice
  refine .bindEq (blind_mlift (blind_read _)) fun _ => .bindEq .check fun _ => .getBind fun s t h => ?_
  rw [h.frame]
  exact .ite .panic (.bindEq (blind_mlift (blind_sliceHeader _)) fun _ =>
      .bindEq (.modify fun s t h => ⟨h.br, rfl, rfl, rfl, h.frame⟩) fun _ =>
      .bindEq (blind_mbLoopAll e _) fun _ => blind_mlift blind_nextStartCode)
theorem blind_sliceLoop (e : PicEnv) : ∀ f, Blind2 (sliceLoop e f)
  | 0 => .hang
  | f + 1 => .bindEq (blind_slice e) fun _ => .bindEq (blind_mlift (blind_peek _)) fun _ => .ite (blind_sliceLoop e f) (.pure rfl)
theorem blind_slicesOf (e : PicEnv) : Blind2 (slicesOf e) :=
  Go.Step.bindEq (blind_fuel2 (loop := sliceLoop e) (F := fun s => fuelOf s.br) (blind_sliceLoop e) fun s t h => h.br.fuel)
    fun _ => blind_mlift blind_nextStartCode

end Video
end Mpeg
