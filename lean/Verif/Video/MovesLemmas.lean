/-
How the decoder moves over its input: every call only consumes bits of the current segment or goes on to the next
one.
-/
import Verif.Video.HeaderTotal
import Verif.Video.MbLemmas
set_option linter.all false
namespace Mpeg

/-- `s'` is reached from `s` by consuming bits and by leaving segments. -/
inductive BR.Moves (s : BR) : BR → Prop
  | refl : BR.Moves s s
  | adv {s' : BR} (k : Nat) : BR.Moves s s' → BR.Moves s (s'.adv k)
  | fail {s' : BR} : BR.Moves s s' → BR.Moves s s'.failTo

namespace BR
theorem Moves.trans {a b c : BR} (h : Moves a b) (g : Moves b c) : Moves a c := by
  induction g with
  | refl => exact h
  | adv k _ ih => exact ih.adv k
  | fail _ ih => exact ih.fail
theorem Moves.size {a b : BR} (h : Moves a b) : b.size ≤ a.size := by
  induction h with
  | refl => exact Nat.le_refl _
  | adv k _ ih => exact Nat.le_trans (size_adv _ _) ih
  | fail _ ih => exact Nat.le_trans (size_failTo _) ih

/-- the runs of bits that are left -/
def segs (s : BR) : List (List Bool) := s.bits :: s.later.map (·.1)

/-- The unread bits of the current segment are the end of one of the segments before. -/
theorem Moves.segs {a b : BR} (h : Moves a b) : ∀ l ∈ b.segs, ∃ g ∈ a.segs, ∃ j, l = g.drop j := by
  induction h with
  | refl => intro l hl; exact ⟨l, hl, 0, rfl⟩
  | @adv b k _ ih =>
    intro l hl
    simp only [BR.segs, BR.adv, List.mem_cons] at hl
    rcases hl with rfl | hl
    · obtain ⟨g, hg, j, e⟩ := ih b.bits (by simp [BR.segs])
      exact ⟨g, hg, j + k, by rw [e, List.drop_drop]⟩
    · exact ih l (by simp only [BR.segs, List.mem_cons]; exact .inr hl)
  | @fail b _ ih =>
    intro l hl
    unfold BR.failTo at hl
    cases hL : b.later with
    | nil =>
      rw [hL] at hl
      simp only [BR.segs, hL, List.map_nil, List.mem_cons, List.not_mem_nil, or_false] at hl
      obtain ⟨g, hg, j, e⟩ := ih b.bits (by simp [BR.segs])
      refine ⟨g, hg, g.length, ?_⟩
      rw [hl, List.drop_length]
    | cons x L =>
      rw [hL] at hl
      refine ih l ?_
      simp only [BR.segs, hL, List.map_cons, List.mem_cons] at hl ⊢
      exact .inr hl
end BR

/-- Every run of `m` moves over the input. -/
def Go.Mv {σ α : Type} (gt : σ → BR) (m : Go σ α) : Prop := ∀ s, BR.Moves (gt s) (gt (m s).2)

namespace Go.Mv
variable {σ α β : Type} {gt : σ → BR}
theorem pure (a : α) : Go.Mv gt (Pure.pure a : Go σ α) := fun s => .refl
theorem throw (e : Err) : Go.Mv gt (Go.throw e : Go σ α) := fun s => .refl
theorem panic : Go.Mv gt (Go.panic : Go σ α) := fun s => .refl
theorem hang : Go.Mv gt (Go.hang : Go σ α) := fun s => .refl
theorem get : Go.Mv gt (Go.get : Go σ σ) := fun s => .refl
theorem modify {f : σ → σ} (h : ∀ s, gt (f s) = gt s) : Go.Mv gt (Go.modify f) := fun s => by
  show BR.Moves (gt s) (gt (f s)); rw [h]; exact .refl
theorem bind {m : Go σ α} {f : α → Go σ β} (hm : Go.Mv gt m) (hf : ∀ a, Go.Mv gt (f a)) : Go.Mv gt (m >>= f) := by
  intro s
  have h1 := hm s
  rw [Go.bind_apply]
  cases h : m s with
  | mk r s' =>
    rw [h] at h1
    cases r with
    | ok a => exact h1.trans (hf a s')
    | err e => exact h1
    | panic => exact h1
    | hang => exact h1
theorem map {m : Go σ α} (f : α → β) (hm : Go.Mv gt m) : Go.Mv gt (f <$> m) := by
  rw [map_eq_pure_bind]; exact .bind hm fun _ => .pure _
theorem opt {c : Bool} {d : α} {m : Go σ α} (hm : Go.Mv gt m) : Go.Mv gt (Go.opt c d m) := by
  cases c
  · exact .pure _
  · exact hm
theorem ite {c : Prop} [Decidable c] {m m' : Go σ α} (hm : Go.Mv gt m) (hm' : Go.Mv gt m') :
    Go.Mv gt (if c then m else m') := by split <;> assumption
theorem check {c : Bool} {e : Err} : Go.Mv gt (Go.check c e : Go σ Unit) := by
  cases c
  · exact .throw _
  · exact .pure _
theorem ignoreErr {m : Go σ α} (hm : Go.Mv gt m) : Go.Mv gt (Go.ignoreErr m) := by
  intro s
  have h1 := hm s
  unfold Go.ignoreErr
  cases h : m s with
  | mk r s' => rw [h] at h1; cases r <;> exact h1
theorem orPanic : ∀ x : Option α, Go.Mv gt (Video.orPanic x : Go σ α)
  | some _ => .pure _
  | none => .panic
end Go.Mv

/-- a parser on a bit reader moves over it -/
abbrev BR.Mv {α : Type} (m : Go BR α) : Prop := Go.Mv (fun s : BR => s) m

namespace BR
theorem mv_read (k : Nat) : BR.Mv (read k) := fun s => by
  unfold read; split
  · exact .adv _ .refl
  · exact .fail .refl
theorem mv_peek (k : Nat) : BR.Mv (peek k) := fun s => by
  unfold peek; split
  · exact .refl
  · exact .fail .refl
theorem mv_skip (k : Nat) : BR.Mv (skip k) := fun s => by
  unfold skip; split
  · exact .adv _ .refl
  · exact .fail .refl
theorem mv_read1 : BR.Mv read1 := fun s => by
  unfold read1; split
  · exact .adv _ .refl
  · exact .fail .refl
theorem mv_align : BR.Mv align := fun s => .adv _ .refl
theorem mv_codeAssert (k v : Nat) (e : Err) : BR.Mv (codeAssert k v e) := by
  unfold codeAssert codeCheck
  exact .bind (.bind (mv_peek _) fun _ => .pure _) fun _ => .bind .check fun _ => mv_skip _
end BR

namespace Video
open _root_.Mpeg.BR

theorem mv_vlift {α : Type} {m : Go BR α} (h : BR.Mv m) : Go.Mv VS.br (VS.lift m) := fun s => h s.br
theorem mv_mlift {α : Type} {m : Go BR α} (h : BR.Mv m) : Go.Mv MB.br (MB.lift m) := fun s => h s.br

theorem mv_alignIfNeeded : BR.Mv alignIfNeeded := fun s => by
  unfold alignIfNeeded; split
  · exact .refl
  · exact mv_align s
theorem mv_nscLoop : ∀ f, BR.Mv (nextStartCodeLoop f)
  | 0 => .hang
  | f + 1 => .bind (mv_peek _) fun _ => .ite (.pure _) (.bind (mv_read _) fun _ => .ite (mv_nscLoop f) (.throw _))
theorem mv_nextStartCode : BR.Mv nextStartCode := .bind mv_alignIfNeeded fun _ => fun s => mv_nscLoop _ s
theorem mv_markerBit : BR.Mv markerBit := .bind mv_read1 fun _ => .check
theorem mv_readBytes : ∀ n, BR.Mv (readBytes n)
  | 0 => .pure _
  | n + 1 => .bind (mv_read _) fun _ => .bind (mv_readBytes n) fun _ => .pure _
theorem mv_readMatrix : BR.Mv readMatrix := mv_readBytes 64
theorem mv_extraLoop : ∀ f, BR.Mv (extraInformationLoop f)
  | 0 => .hang
  | f + 1 => .bind (mv_peek _) fun _ => .ite (.bind (mv_skip _) fun _ => .bind (mv_read _) fun _ =>
      .bind (mv_extraLoop f) fun _ => .pure _) (.pure _)
theorem mv_readExtra : BR.Mv readExtraInformation := fun s => mv_extraLoop _ s
theorem mv_read1OrFalse : BR.Mv read1OrFalse := fun s => by
  have := mv_read1 s
  unfold read1OrFalse
  cases h : read1 s with
  | mk r s' => rw [h] at this; cases r <;> exact this

macro "mv_steps" : tactic => `(tactic| repeat' with_reducible first
  | refine Go.Mv.bind ?_ (fun _ => ?_)
  | exact Go.Mv.pure _
  | exact Go.Mv.check
  | exact Go.Mv.panic
  | exact Go.Mv.throw _
  | exact Go.Mv.get
  | exact mv_read _
  | exact mv_read1
  | exact mv_skip _
  | exact mv_peek _
  | exact mv_codeAssert _ _ _
  | exact mv_markerBit
  | exact mv_nextStartCode
  | exact mv_readMatrix
  | exact mv_readExtra
  | exact mv_read1OrFalse
  | refine mv_vlift ?_
  | refine mv_mlift ?_
  | refine Go.Mv.ignoreErr ?_
  | refine Go.Mv.opt ?_
  | refine Go.Mv.map _ ?_
  | refine Go.Mv.ite ?_ ?_)

theorem mv_startCode (c : Nat) : BR.Mv (startCode c) := mv_codeAssert _ _ _
theorem mv_extensionID (c : Nat) : BR.Mv (extensionID c) := mv_codeAssert _ _ _
theorem mv_readSequenceHeader : BR.Mv readSequenceHeader := by
  unfold readSequenceHeader startCode; mv_steps
theorem mv_readSequenceExtension : BR.Mv readSequenceExtension := by
  unfold readSequenceExtension startCode extensionID; mv_steps
theorem mv_readGOPHeader : BR.Mv readGOPHeader := by
  unfold readGOPHeader startCode; mv_steps
theorem mv_readPictureHeader : BR.Mv readPictureHeader := by
  unfold readPictureHeader startCode; mv_steps
theorem mv_readPictureCodingExtension : BR.Mv readPictureCodingExtension := by
  unfold readPictureCodingExtension startCode extensionID; mv_steps
theorem mv_display : BR.Mv readSequenceDisplayExtension := by
  unfold readSequenceDisplayExtension extensionID; mv_steps
theorem mv_scalable : BR.Mv readSequenceScalableExtension := by
  unfold readSequenceScalableExtension extensionID; mv_steps
theorem mv_temporal : BR.Mv readPictureTemporalScalableExtension := by
  unfold readPictureTemporalScalableExtension extensionID; mv_steps
theorem mv_userLoop : ∀ f, BR.Mv (userDataLoop f)
  | 0 => .hang
  | f + 1 => .bind (mv_peek _) fun _ => .ite (.pure _) (.bind (mv_read _) fun _ =>
      .bind (mv_userLoop f) fun _ => .pure _)
theorem mv_userData : BR.Mv userData := by
  unfold userData startCode
  refine .bind (mv_codeAssert _ _ _) fun _ => .bind (fun s => mv_userLoop _ s) fun _ => ?_
  mv_steps

theorem mv_storeHeader {α : Type} {m : Go BR α} {put : VS → Option α → VS} (h : BR.Mv m)
    (hp : ∀ s x, (put s x).br = s.br) : Go.Mv VS.br (storeHeader m put) := by
  intro s
  have h1 := mv_vlift h s
  unfold storeHeader
  cases hm : VS.lift m s with
  | mk r s' =>
    rw [hm] at h1
    cases r with
    | ok a =>
      refine h1.trans ?_
      have := mv_vlift mv_nextStartCode (put s' (some a))
      rw [hp] at this
      exact this
    | err e => show BR.Moves s.br (put s' none).br; rw [hp]; exact h1
    | panic => exact h1
    | hang => exact h1

theorem mv_sequenceHeader : Go.Mv VS.br sequenceHeader := by
  unfold sequenceHeader
  exact .bind (mv_vlift mv_readSequenceHeader) fun _ => .modify fun _ => rfl
theorem mv_sequenceExtension : Go.Mv VS.br sequenceExtension := mv_storeHeader mv_readSequenceExtension fun _ _ => rfl
theorem mv_pictureHeader : Go.Mv VS.br pictureHeader := mv_storeHeader mv_readPictureHeader fun _ _ => rfl
theorem mv_pictureCodingExtension : Go.Mv VS.br pictureCodingExtension :=
  mv_storeHeader mv_readPictureCodingExtension fun _ _ => rfl
theorem mv_loadMatrix (set : QMatrices → Matrix → QMatrices) : Go.Mv VS.br (loadMatrix set) := by
  unfold loadMatrix
  exact .bind (mv_vlift mv_read1) fun _ => .opt (.bind (mv_vlift mv_readMatrix) fun _ => .modify fun _ => rfl)
theorem mv_quant : Go.Mv VS.br quantMatrixExtension := by
  unfold quantMatrixExtension
  exact .bind (.ignoreErr (mv_vlift (mv_extensionID _))) fun _ => .bind (mv_loadMatrix _) fun _ =>
    .bind (mv_loadMatrix _) fun _ => .bind (mv_loadMatrix _) fun _ => .bind (mv_loadMatrix _) fun _ =>
    mv_vlift mv_nextStartCode
theorem mv_body (i : Nat) : Go.Mv VS.br (extensionBody i) := by
  unfold extensionBody
  exact .ite (.bind (mv_vlift (mv_peek _)) fun _ =>
      .ite (.bind (mv_vlift mv_display) fun _ => .pure _) (mv_vlift mv_scalable))
    (.ite (.bind (mv_vlift (mv_peek _)) fun _ =>
      .ite mv_quant (.ite .panic (.bind (mv_vlift mv_temporal) fun _ => .pure _)))
      (.pure _))
theorem mv_extensionStep (i : Nat) : Go.Mv VS.br (extensionDataStep i) := by
  rw [extensionDataStep_eq]
  exact .bind (.ignoreErr (mv_vlift (mv_skip _))) fun _ => mv_body i
theorem mv_extensionData (i : Nat) : ∀ f, Go.Mv VS.br (extensionData i f)
  | 0 => .hang
  | f + 1 => .bind (mv_vlift (mv_peek _)) fun _ => .ite (.bind (mv_extensionStep i) fun _ => mv_extensionData i f) (.pure _)
theorem mv_extUser (i : Nat) : ∀ f, Go.Mv VS.br (extensionAndUserData i f)
  | 0 => .hang
  | f + 1 => .bind (mv_vlift (mv_peek _)) fun _ => .ite
      (.ite (.bind (mv_extensionData i f) fun _ => mv_extUser i f) (mv_extUser i f))
      (.ite (.bind (mv_vlift mv_userData) fun _ => mv_extUser i f) (.pure _))

/-! ### macroblocks -/

theorem mv_huffLoop {α : Type} : ∀ (f : Nat) (t : Table α), BR.Mv (huffLoop f t)
  | 0, _ => .hang
  | f + 1, t => by
    unfold huffLoop
    refine .bind mv_read1 fun b => ?_
    cases (t.next b).hit with
    | some v => exact .pure _
    | none => exact .ite (.throw _) (mv_huffLoop f _)
theorem mv_huffDecode {α : Type} (t : Table α) : BR.Mv (huffDecode t) := mv_huffLoop _ t
theorem mv_escapeLoop : ∀ f n, BR.Mv (escapeLoop f n)
  | 0, _ => .hang
  | f + 1, n => .bind (mv_peek _) fun _ => .ite (.bind (.ignoreErr (mv_skip _)) fun _ => mv_escapeLoop f _) (.pure _)
theorem mv_mbIncrement : BR.Mv mbIncrement :=
  .bind (fun s => mv_escapeLoop _ _ s) fun _ => .bind (mv_huffDecode _) fun _ => .pure _
theorem mv_mbType (pct : Nat) : BR.Mv (mbType pct) := by
  unfold mbType
  exact .ite (mv_huffDecode _) (.ite (mv_huffDecode _) (.ite (mv_huffDecode _) .panic))
theorem mv_macroblockMode (e : PicEnv) : BR.Mv (macroblockMode e) := by
  unfold macroblockMode
  refine .bind (mv_mbType _) fun _ => ?_
  mv_steps
theorem mv_readMotion (fc : Nat) : BR.Mv (readMotion fc) := by
  unfold readMotion
  refine .bind (mv_huffDecode _) fun _ => ?_
  mv_steps
theorem mv_motionVectorPart (e : PicEnv) (info : MvInfo) (r s t : Nat) : Go.Mv MB.br (motionVectorPart e info r s t) := by
  unfold motionVectorPart
  exact .bind (mv_mlift (mv_readMotion _)) fun _ => .ite .panic (.modify fun _ => rfl)
theorem mv_motionVector (e : PicEnv) (info : MvInfo) (r s : Nat) : Go.Mv MB.br (motionVector e info r s) :=
  .bind (mv_motionVectorPart _ _ _ _ _) fun _ => mv_motionVectorPart _ _ _ _ _
theorem mv_motionVectors (e : PicEnv) (s : Nat) (m : Mode) : Go.Mv MB.br (motionVectors e s m) := by
  unfold motionVectors
  refine .bind (.orPanic _) fun info => .ite ?_ ?_
  · exact .bind (.opt (mv_mlift (mv_read _))) fun _ => mv_motionVector _ _ _ _
  · exact .bind (mv_mlift (mv_read _)) fun _ => .bind (mv_motionVector _ _ _ _) fun _ =>
      .bind (mv_mlift (mv_read _)) fun _ => mv_motionVector _ _ _ _
theorem mv_codedBlockPattern (cf : Nat) : BR.Mv (codedBlockPattern cf) := fun s => by
  have := mv_huffDecode cbpTable s
  unfold codedBlockPattern decodeCbp
  cases h : huffDecode cbpTable s with
  | mk r s' =>
    rw [h] at this
    cases r
    · dsimp only; split <;> exact this
    · dsimp only; split <;> exact this
    · exact this
    · exact this
theorem mv_copySkipped (e : PicEnv) (row : Nat) (addr : Option Nat) (incr : Nat) :
    Go.Mv MB.br (copySkipped e row addr incr) := fun s => by
  unfold copySkipped
  cases addr with
  | none => exact .refl
  | some a =>
    dsimp only
    split
    · split
      · exact (Go.Mv.bind (.orPanic (pframeCopy row (a + 1) (incr - 1) s.frame e.past)) fun f => .modify fun _ => rfl :
          Go.Mv MB.br (orPanic (pframeCopy row (a + 1) (incr - 1) s.frame e.past) >>= fun f => Go.modify fun s => { s with frame := f })) s
      · split
        · exact (Go.Mv.bind (.orPanic (bframeCopy e s.mvd row (a + 1) (incr - 1) s.frame)) fun f => .modify fun _ => rfl :
          Go.Mv MB.br (orPanic (bframeCopy e s.mvd row (a + 1) (incr - 1) s.frame) >>= fun f => Go.modify fun s => { s with frame := f })) s
        · exact .refl
    · exact .refl
theorem mv_dctTail : ∀ y, BR.Mv (dctTail y)
  | .eob => .pure _
  | .escape => .bind (mv_read _) fun _ => .bind mv_read1 fun _ => .bind (mv_read _) fun _ => .pure _
  | .coef _ _ => .bind mv_read1 fun _ => .pure _
theorem mv_coeffLoop (one : Bool) : ∀ (fuel n : Nat) (b : Block), BR.Mv (coeffLoop one fuel n b)
  | 0, _, _ => .hang
  | fuel + 1, n, b => by
    unfold coeffLoop
    refine .bind (.bind (mv_huffDecode _) fun _ => mv_dctTail _) fun ev => ?_
    cases ev with
    | eob => exact .pure _
    | coef run level => exact .ite (mv_coeffLoop one fuel _ _) .panic
theorem mv_readBlock (b : Block) (p : DcPred) (format cc : Nat) (intra : Bool) : BR.Mv (readBlock b p format cc intra) := by
  unfold readBlock
  refine .ite ?_ ?_
  · refine .bind (.bind (mv_huffDecode _) fun _ => .bind (mv_read _) fun _ => .pure _) fun _ => ?_
    exact .bind (mv_coeffLoop _ _ _ _) fun _ => .pure _
  · exact .bind (mv_coeffLoop _ _ _ _) fun _ => .pure _
theorem mv_mbBlock (e : PicEnv) (intra coded : Bool) (i : Nat) (b : Block) : Go.Mv MB.br (mbBlock e intra coded i b) :=
  fun s => by
  unfold mbBlock
  cases coded with
  | false => exact .refl
  | true =>
    rw [if_pos rfl]
    have := mv_readBlock b s.dcp e.pce.intraVLCFormat (colorChannel i) intra s.br
    cases h : readBlock b s.dcp e.pce.intraVLCFormat (colorChannel i) intra s.br with
    | mk r s' => rw [h] at this; cases r <;> exact this
theorem mv_mbBlocks (e : PicEnv) (intra dct : Bool) (coded : Nat → Bool) (addr row : Nat) :
    ∀ k i b, Go.Mv MB.br (mbBlocks e intra dct coded addr row k i b)
  | 0, _, _ => .pure _
  | k + 1, i, b => .bind (mv_mbBlock _ _ _ _ _) fun _ => .bind .get fun _ => .bind (.orPanic _) fun _ =>
      .bind (.modify fun _ => rfl) fun _ => mv_mbBlocks e intra dct coded addr row k _ _
theorem mv_mbFinish (e : PicEnv) (row a : Nat) (m : Mode) (cbp : Nat) : Go.Mv MB.br (mbFinish e row a m cbp) :=
  .bind (mv_mbBlocks _ _ _ _ _ _ _ _ _) fun _ => .pure _
theorem mv_mbPattern (e : PicEnv) (row a : Nat) (m : Mode) : Go.Mv MB.br (mbPattern e row a m) := by
  unfold mbPattern
  refine .ite (fun s => ?_) (mv_mbFinish _ _ _ _ _)
  have := mv_mlift (mv_codedBlockPattern e.se.chromaFormat) s
  unfold mbCoded
  cases h : MB.lift (codedBlockPattern e.se.chromaFormat) s with
  | mk r s' =>
    rw [h] at this
    cases r with
    | ok c => exact this.trans (mv_mbFinish e row a m c s')
    | err x => exact this
    | panic => exact this
    | hang => exact this
theorem mv_mbVectors (e : PicEnv) (m : Mode) : Go.Mv MB.br (mbVectors e m) := by
  unfold mbVectors
  exact .bind (.opt (.bind (mv_mlift (mv_read _)) fun _ => .modify fun _ => rfl)) fun _ =>
    .bind (.opt (mv_motionVectors _ _ _)) fun _ => .bind (.opt (mv_motionVectors _ _ _)) fun _ =>
    .bind (.modify fun _ => rfl) fun _ => .opt (mv_mlift mv_markerBit)

/-- what follows the address increment -/
def mbRest (e : PicEnv) (row : Nat) (addr : Option Nat) (incr : Nat) : Go MB Nat := do
  copySkipped e row addr incr
  skipResets e incr
  let m ← MB.lift (macroblockMode e)
  modeResets e m.type
  mbVectors e m
  mbPattern e row (newAddress addr incr) m
theorem macroblock_eq (e : PicEnv) (row : Nat) (addr : Option Nat) :
    macroblock e row addr = MB.lift mbIncrement >>= mbRest e row addr := rfl
theorem mv_mbRest (e : PicEnv) (row : Nat) (addr : Option Nat) (incr : Nat) : Go.Mv MB.br (mbRest e row addr incr) := by
  unfold mbRest
  exact .bind (mv_copySkipped _ _ _ _) fun _ => .bind (.modify fun _ => rfl) fun _ =>
    .bind (mv_mlift (mv_macroblockMode e)) fun _ => .bind (.modify fun _ => rfl) fun _ =>
    .bind (mv_mbVectors _ _) fun _ => mv_mbPattern _ _ _ _
theorem mv_macroblock (e : PicEnv) (row : Nat) (addr : Option Nat) : Go.Mv MB.br (macroblock e row addr) := by
  rw [macroblock_eq]; exact .bind (mv_mlift mv_mbIncrement) fun _ => mv_mbRest _ _ _ _
theorem mv_mbLoop (e : PicEnv) (row : Nat) : ∀ f addr, Go.Mv MB.br (mbLoop e row f addr)
  | 0, _ => .hang
  | f + 1, addr => .bind (mv_macroblock _ _ _) fun _ => .bind (mv_mlift (mv_peek _)) fun _ =>
      .ite (.pure _) (mv_mbLoop e row f _)
theorem mv_sliceHeader (v : Nat) : BR.Mv (sliceHeader v) := by unfold sliceHeader; mv_steps
theorem mv_slice (e : PicEnv) : Go.Mv MB.br (slice e) := by
  unfold slice
  exact .bind (mv_mlift (mv_read _)) fun _ => .bind .check fun _ => .bind .get fun _ => .ite .panic
    (.bind (mv_mlift (mv_sliceHeader _)) fun _ => .bind (.modify fun _ => rfl) fun _ =>
      .bind (fun s => mv_mbLoop e _ _ _ s) fun _ => mv_mlift mv_nextStartCode)
theorem mv_sliceLoop (e : PicEnv) : ∀ f, Go.Mv MB.br (sliceLoop e f)
  | 0 => .hang
  | f + 1 => .bind (mv_slice e) fun _ => .bind (mv_mlift (mv_peek _)) fun _ => .ite (mv_sliceLoop e f) (.pure _)

theorem mv_pictureData : Go.Mv VS.br pictureData := fun s => by
  unfold pictureData
  split
  · rename_i sh se ph pce _ _ _ _
    dsimp only
    generalize hm : (⟨s.br, DcPred.reset pce.intraDCPrecision, MVD.init, 0,
      createFrameBuffer s.size.1.toNat s.size.2.toNat se.chromaFormat⟩ : MB) = m
    generalize (⟨sh, se, ph, pce, s.qm, s.fs.past, s.fs.future⟩ : PicEnv) = e
    have : BR.Moves m.br _ := (Go.Mv.bind (mv_sliceLoop e (fuelOf m.br)) fun _ => mv_mlift mv_nextStartCode :
      Go.Mv MB.br (do sliceLoop e (fuelOf m.br); MB.lift nextStartCode)) m
    rw [← hm] at this ⊢
    generalize hr : (do sliceLoop e (fuelOf (MB.br _)); MB.lift nextStartCode : Go MB Unit) _ = r at this ⊢
    obtain ⟨r, s'⟩ := r
    cases r <;> exact this
  · exact .refl

theorem mv_pictureStep : Go.Mv VS.br pictureStep := by
  unfold pictureStep
  refine .bind .get fun s => ?_
  cases s.ph with
  | none => exact .panic
  | some ph =>
    exact .bind (.modify fun _ => rfl) fun _ => .bind mv_pictureData fun _ =>
      .bind (.modify fun s => by split <;> rfl) fun _ => .pure _
theorem mv_groupHeader (f : Nat) : Go.Mv VS.br (groupHeader f) := by
  unfold groupHeader
  exact .bind (mv_vlift (mv_peek _)) fun _ => .opt (.bind (mv_vlift mv_readGOPHeader) fun _ =>
    .bind (.modify fun _ => rfl) fun _ => mv_extUser 1 f)
theorem mv_moreFrames (f : Nat) : Go.Mv VS.br (moreFrames f) :=
  .bind (mv_groupHeader f) fun _ => .bind mv_pictureHeader fun _ => .bind mv_pictureCodingExtension fun _ =>
    .bind (mv_extUser 2 f) fun _ => mv_pictureStep
theorem mv_continueFrames (f : Nat) : Go.Mv VS.br (continueFrames f) :=
  .bind (mv_extUser 0 f) fun _ => mv_moreFrames f
theorem mv_resume (f : Nat) : Go.Mv VS.br (resume f) :=
  .bind (mv_vlift (mv_peek _)) fun _ => .ite (mv_moreFrames f) (.ite (.bind (mv_vlift (mv_skip _)) fun _ => .throw _)
    (.bind mv_sequenceHeader fun _ => .bind mv_sequenceExtension fun _ => mv_continueFrames f))
theorem mv_start (f : Nat) : Go.Mv VS.br (start f) :=
  .bind (mv_vlift mv_nextStartCode) fun _ => .bind mv_sequenceHeader fun _ => .bind (mv_vlift (mv_peek _)) fun _ =>
    .bind .check fun _ => .bind mv_sequenceExtension fun _ => mv_continueFrames f
theorem mv_step (f : Nat) : Go.Mv VS.br (step f) := fun s => by
  unfold step; split
  · exact mv_resume f s
  · exact mv_start f s

end Video
end Mpeg
