/-
The lookahead of the parsers and of the decoder.
-/
import Verif.Video.NearLemmas
set_option linter.all false
namespace Mpeg
open HasBR
namespace Video
open _root_.Mpeg.BR

theorem near_nscLoop : ∀ f, Near (nextStartCodeLoop f)
  | 0 => .hang
  | f + 1 => .bind (near_peek (by decide)) fun _ => .ite (.pure _) (.bind (near_read _) fun _ => .ite (near_nscLoop f) (.throw _))
theorem len_nscLoop : ∀ f f', f ≤ f' → LeN (nextStartCodeLoop f) (nextStartCodeLoop f')
  | 0, f', _ => .hang (near_nscLoop f')
  | f + 1, 0, h => absurd h (by omega)
  | f + 1, f' + 1, h => .bind (near_peek (by decide)) (near_peek (by decide)) (.refl _) (fun _ => .ite (.refl _)
      (.bind (near_read _) (near_read _) (.refl _) (fun _ => .ite (len_nscLoop f f' (by omega)) (.refl _))
        fun _ => .ite (near_nscLoop f') (.throw _)))
      fun _ => .ite (.pure _) (.bind (near_read _) fun _ => .ite (near_nscLoop f') (.throw _))
theorem near_nextStartCodeScan : Near nextStartCodeScan :=
  Near.fuel near_nscLoop len_nscLoop len_ext nohang_nscLoop
theorem near_nextStartCode : Near nextStartCode := .bind near_alignIfNeeded fun _ => near_nextStartCodeScan
theorem near_markerBit : Near markerBit := .bind near_read1 fun _ => .check
theorem near_readBytes : ∀ n, Near (readBytes n)
  | 0 => .pure _
  | n + 1 => .bind (near_read _) fun _ => .bind (near_readBytes n) fun _ => .pure _
theorem near_readMatrix : Near readMatrix := near_readBytes 64
theorem near_extraLoop : ∀ f, Near (extraInformationLoop f)
  | 0 => .hang
  | f + 1 => .bind (near_peek (by decide)) fun _ => .ite (.bind (near_skip _) fun _ => .bind (near_read _) fun _ =>
      .bind (near_extraLoop f) fun _ => .pure _) (.pure _)
theorem len_extraLoop : ∀ f f', f ≤ f' → LeN (extraInformationLoop f) (extraInformationLoop f')
  | 0, f', _ => .hang (near_extraLoop f')
  | f + 1, 0, h => absurd h (by omega)
  | f + 1, f' + 1, h => .bind (near_peek (by decide)) (near_peek (by decide)) (.refl _) (fun _ => .ite
      (.bind (near_skip _) (near_skip _) (.refl _) (fun _ => .bind (near_read _) (near_read _) (.refl _) (fun _ =>
        .bind (near_extraLoop f) (near_extraLoop f') (len_extraLoop f f' (by omega)) (fun _ => .refl _) fun _ => .pure _)
          fun _ => .bind (near_extraLoop f') fun _ => .pure _)
        fun _ => .bind (near_read _) fun _ => .bind (near_extraLoop f') fun _ => .pure _) (.refl _))
      fun _ => .ite (.bind (near_skip _) fun _ => .bind (near_read _) fun _ => .bind (near_extraLoop f') fun _ => .pure _) (.pure _)
theorem near_readExtra : Near readExtraInformation :=
  Near.fuel near_extraLoop len_extraLoop len_ext fun s => (safe_extraLoop _ s (by omega)).2
theorem near_read1OrFalse : Near read1OrFalse := by
  have h : read1OrFalse = Near.handle read1 pure fun _ => pure false := by
    funext s
    unfold read1OrFalse Near.handle
    have := safe_read1 s
    cases h : read1 s with
    | mk r s' =>
      rw [h] at this
      cases r with
      | ok a => rfl
      | err e => rfl
      | panic => exact absurd rfl this.1
      | hang => exact absurd rfl this.2
  rw [h]
  exact .byHandle near_read1 (fun _ => .pure _) fun _ => .pure _

macro "near_steps" : tactic => `(tactic| repeat' with_reducible first
  | refine Near.bind ?_ (fun _ => ?_)
  | exact Near.pure _
  | exact Near.check
  | exact Near.panic
  | exact Near.throw _
  | exact near_read _
  | exact near_read1
  | exact near_skip _
  | exact near_peek (by decide)
  | exact near_codeAssert (by decide) _ _
  | exact near_markerBit
  | exact near_nextStartCode
  | exact near_readMatrix
  | exact near_readExtra
  | exact near_read1OrFalse
  | refine Near.opt ?_
  | refine Near.map _ ?_
  | refine Near.ite ?_ ?_)

theorem near_startCode (c : Nat) : Near (startCode c) := near_codeAssert (by decide) _ _
theorem near_extensionID (c : Nat) : Near (extensionID c) := near_codeAssert (by decide) _ _
theorem near_readSequenceHeader : Near readSequenceHeader := by
  unfold readSequenceHeader startCode; near_steps
theorem near_readSequenceExtension : Near readSequenceExtension := by
  unfold readSequenceExtension startCode extensionID; near_steps
theorem near_readGOPHeader : Near readGOPHeader := by
  unfold readGOPHeader startCode; near_steps
theorem near_readPictureHeader : Near readPictureHeader := by
  unfold readPictureHeader startCode; near_steps
theorem near_readPictureCodingExtension : Near readPictureCodingExtension := by
  unfold readPictureCodingExtension startCode extensionID; near_steps
theorem near_display : Near readSequenceDisplayExtension := by
  unfold readSequenceDisplayExtension extensionID; near_steps
theorem near_scalable : Near readSequenceScalableExtension := by
  unfold readSequenceScalableExtension extensionID; near_steps
theorem near_temporal : Near readPictureTemporalScalableExtension := by
  unfold readPictureTemporalScalableExtension extensionID; near_steps
theorem near_userLoop : ∀ f, Near (userDataLoop f)
  | 0 => .hang
  | f + 1 => .bind (near_peek (by decide)) fun _ => .ite (.pure _) (.bind (near_read _) fun _ =>
      .bind (near_userLoop f) fun _ => .pure _)
theorem len_userLoop : ∀ f f', f ≤ f' → LeN (userDataLoop f) (userDataLoop f')
  | 0, f', _ => .hang (near_userLoop f')
  | f + 1, 0, h => absurd h (by omega)
  | f + 1, f' + 1, h => .bind (near_peek (by decide)) (near_peek (by decide)) (.refl _) (fun _ => .ite (.refl _)
      (.bind (near_read _) (near_read _) (.refl _) (fun _ =>
        .bind (near_userLoop f) (near_userLoop f') (len_userLoop f f' (by omega)) (fun _ => .refl _) fun _ => .pure _)
        fun _ => .bind (near_userLoop f') fun _ => .pure _))
      fun _ => .ite (.pure _) (.bind (near_read _) fun _ => .bind (near_userLoop f') fun _ => .pure _)
theorem near_userDataBytes : Near userDataBytes :=
  Near.fuel near_userLoop len_userLoop len_ext fun s => (safe_userLoop _ s (by omega)).2
theorem near_userData : Near userData :=
  .bind (near_startCode _) fun _ => .bind near_userDataBytes fun _ => .bind near_nextStartCode fun _ => .pure _

theorem near_storeHeader {α : Type} {m : Go BR α} {put : VS → Option α → VS} (h : Near m)
    (hp : ∀ s x, (put s x).br = s.br) (he : ∀ (s : VS) t x, put (HasBR.ext s t) x = HasBR.ext (put s x) t) :
    Near (storeHeader m put) := by
  have e : storeHeader m put = Near.handle (VS.lift m)
      (fun a => (Go.modify fun s => put s (some a)) >>= fun _ => VS.lift nextStartCode)
      (fun e => (Go.modify fun s => put s none) >>= fun _ => Go.throw e) := by
    funext s
    unfold storeHeader Near.handle
    cases VS.lift m s with | mk r s' => cases r <;> rfl
  rw [e]
  exact .byHandle (near_vlift h) (fun a => .bind (.modify (fun s => hp s _) fun s t => he s t _) fun _ => near_vlift near_nextStartCode)
    fun e => .bind (.modify (fun s => hp s _) fun s t => he s t _) fun _ => .throw _

theorem near_sequenceHeader : Near sequenceHeader := by
  unfold sequenceHeader
  exact .bind (near_vlift near_readSequenceHeader) fun _ => .modify (fun _ => rfl) fun _ _ => rfl
theorem near_sequenceExtension : Near sequenceExtension :=
  near_storeHeader near_readSequenceExtension (fun _ _ => rfl) fun _ _ _ => rfl
theorem near_pictureHeader : Near pictureHeader :=
  near_storeHeader near_readPictureHeader (fun _ _ => rfl) fun _ _ _ => rfl
theorem near_pictureCodingExtension : Near pictureCodingExtension :=
  near_storeHeader near_readPictureCodingExtension (fun _ _ => rfl) fun _ _ _ => rfl
theorem near_loadMatrix (set : QMatrices → Matrix → QMatrices) : Near (loadMatrix set) := by
  unfold loadMatrix
  exact .bind (near_vlift near_read1) fun _ => .opt (.bind (near_vlift near_readMatrix) fun _ =>
    .modify (fun _ => rfl) fun _ _ => rfl)
theorem near_quant : Near quantMatrixExtension := by
  unfold quantMatrixExtension
  exact .bind (.ignoreErr (near_vlift (near_extensionID _)))
    fun _ => .bind (near_loadMatrix _) fun _ =>
    .bind (near_loadMatrix _) fun _ => .bind (near_loadMatrix _) fun _ => .bind (near_loadMatrix _) fun _ =>
    near_vlift near_nextStartCode
theorem near_body (i : Nat) : Near (extensionBody i) := by
  unfold extensionBody
  exact .ite (.bind (near_vlift (near_peek (by decide))) fun _ =>
      .ite (.bind (near_vlift near_display) fun _ => .pure _) (near_vlift near_scalable))
    (.ite (.bind (near_vlift (near_peek (by decide))) fun _ =>
      .ite near_quant (.ite .panic (.bind (near_vlift near_temporal) fun _ => .pure _)))
      (.pure _))
theorem near_extensionData (i : Nat) : ∀ f, Near (extensionData i f)
  | 0 => .hang
  | f + 1 => .bind (near_vlift (near_peek (by decide))) fun _ => .ite (.bind (by
      rw [extensionDataStep_eq]
      exact .bind (.ignoreErr (near_vlift (near_skip _))) fun _ => near_body i) fun _ => near_extensionData i f) (.pure _)
theorem near_extUser (i : Nat) : ∀ f, Near (extensionAndUserData i f)
  | 0 => .hang
  | f + 1 => .bind (near_vlift (near_peek (by decide))) fun _ => .ite
      (.ite (.bind (near_extensionData i f) fun _ => near_extUser i f) (near_extUser i f))
      (.ite (.bind (near_vlift near_userData) fun _ => near_extUser i f) (.pure _))

/-! ### macroblocks -/

theorem near_huffLoop {α : Type} : ∀ (f : Nat) (t : Table α), Near (huffLoop f t)
  | 0, _ => .hang
  | f + 1, t => by
    unfold huffLoop
    refine .bind near_read1 fun b => ?_
    cases (t.next b).hit with
    | some v => exact .pure _
    | none => exact .ite (.throw _) (near_huffLoop f _)
theorem near_huffDecode {α : Type} (t : Table α) : Near (huffDecode t) := near_huffLoop _ t
theorem near_escapeLoop : ∀ f n, Near (escapeLoop f n)
  | 0, _ => .hang
  | f + 1, n => .bind (near_peek (by decide)) fun _ => .ite (.bind (.ignoreErr (near_skip _)) fun _ => near_escapeLoop f _) (.pure _)
theorem len_escapeLoop : ∀ f f' n, f ≤ f' → LeN (escapeLoop f n) (escapeLoop f' n)
  | 0, f', n, _ => .hang (near_escapeLoop f' n)
  | f + 1, 0, _, h => absurd h (by omega)
  | f + 1, f' + 1, n, h => .bind (near_peek (by decide)) (near_peek (by decide)) (.refl _) (fun _ => .ite
      (.bind (.ignoreErr (near_skip _)) (.ignoreErr (near_skip _)) (.refl _) (fun _ => len_escapeLoop f f' _ (by omega))
        fun _ => near_escapeLoop f' _) (.refl _))
      fun _ => .ite (.bind (.ignoreErr (near_skip _)) fun _ => near_escapeLoop f' _) (.pure _)
theorem near_mbIncrement : Near mbIncrement :=
  .bind (Near.fuel (loop := fun f => escapeLoop f 0) (fun f => near_escapeLoop f 0) (fun f f' h => len_escapeLoop f f' 0 h)
    len_ext fun s => (escapeLoop_result _ 0 s (by omega)).1) fun _ => .bind (near_huffDecode _) fun _ => .pure _
theorem near_mbType (pct : Nat) : Near (mbType pct) := by
  unfold mbType
  exact .ite (near_huffDecode _) (.ite (near_huffDecode _) (.ite (near_huffDecode _) .panic))
theorem near_macroblockMode (e : PicEnv) : Near (macroblockMode e) := by
  unfold macroblockMode
  refine .bind (near_mbType _) fun _ => ?_
  near_steps
theorem near_readMotion (fc : Nat) : Near (readMotion fc) := by
  unfold readMotion
  refine .bind (near_huffDecode _) fun _ => ?_
  near_steps
theorem near_motionVectorPart (e : PicEnv) (info : MvInfo) (r s t : Nat) : Near (motionVectorPart e info r s t) := by
  unfold motionVectorPart
  exact .bind (near_mlift (near_readMotion _)) fun _ => .ite .panic (.modify (fun _ => rfl) fun _ _ => rfl)
theorem near_motionVector (e : PicEnv) (info : MvInfo) (r s : Nat) : Near (motionVector e info r s) :=
  .bind (near_motionVectorPart _ _ _ _ _) fun _ => near_motionVectorPart _ _ _ _ _
theorem near_motionVectors (e : PicEnv) (s : Nat) (m : Mode) : Near (motionVectors e s m) := by
  unfold motionVectors
  refine .bind (.orPanic _) fun info => .ite ?_ ?_
  · exact .bind (.opt (near_mlift (near_read _))) fun _ => near_motionVector _ _ _ _
  · exact .bind (near_mlift (near_read _)) fun _ => .bind (near_motionVector _ _ _ _) fun _ =>
      .bind (near_mlift (near_read _)) fun _ => near_motionVector _ _ _ _
theorem near_codedBlockPattern (cf : Nat) : Near (codedBlockPattern cf) := by
  have h : codedBlockPattern cf = Near.handle decodeCbp (fun a => if cf = 2 ∨ cf = 3 then Go.panic else pure a)
      (fun e => if cf = 2 ∨ cf = 3 then Go.panic else Go.throw e) := by
    funext s
    unfold codedBlockPattern Near.handle
    cases decodeCbp s with
    | mk r s' => cases r <;> dsimp only <;> first | rfl | (split <;> rfl)
  rw [h]
  exact .byHandle (near_huffDecode _) (fun _ => .ite .panic (.pure _)) fun _ => .ite .panic (.throw _)
theorem near_copySkipped (e : PicEnv) (row : Nat) (addr : Option Nat) (incr : Nat) :
    Near (copySkipped e row addr incr) := by
  cases addr with
  | none => exact .pure _
  | some a =>
    have h : copySkipped e row (some a) incr = fun s => (if 1 < incr then
        if e.ph.pictureCodingType = pFrame then
          (orPanic (pframeCopy row (a + 1) (incr - 1) s.frame e.past) >>= fun f => Go.modify fun s => { s with frame := f } : Go MB Unit)
        else if e.ph.pictureCodingType = bFrame then
          (orPanic (bframeCopy e s.mvd row (a + 1) (incr - 1) s.frame) >>= fun f => Go.modify fun s => { s with frame := f } : Go MB Unit)
        else pure ()
      else pure ()) s := by
      funext s
      unfold copySkipped
      dsimp only
      split <;> (try split) <;> (try split) <;> rfl
    rw [h]
    exact Near.byState (m := fun s => if 1 < incr then
        if e.ph.pictureCodingType = pFrame then
          (orPanic (pframeCopy row (a + 1) (incr - 1) s.frame e.past) >>= fun f => Go.modify fun s => { s with frame := f } : Go MB Unit)
        else if e.ph.pictureCodingType = bFrame then
          (orPanic (bframeCopy e s.mvd row (a + 1) (incr - 1) s.frame) >>= fun f => Go.modify fun s => { s with frame := f } : Go MB Unit)
        else pure ()
      else pure ())
      (fun s => .ite (.ite (.bind (.orPanic _) fun _ => .modify (fun _ => rfl) fun _ _ => rfl)
        (.ite (.bind (.orPanic _) fun _ => .modify (fun _ => rfl) fun _ _ => rfl) (.pure _))) (.pure _)) fun _ _ => rfl
theorem near_dctTail : ∀ y, Near (dctTail y)
  | .eob => .pure _
  | .escape => .bind (near_read _) fun _ => .bind near_read1 fun _ => .bind (near_read _) fun _ => .pure _
  | .coef _ _ => .bind near_read1 fun _ => .pure _
theorem near_coeffLoop (one : Bool) : ∀ (fuel n : Nat) (b : Block), Near (coeffLoop one fuel n b)
  | 0, _, _ => .hang
  | fuel + 1, n, b => by
    unfold coeffLoop
    refine .bind (.bind (near_huffDecode _) fun _ => near_dctTail _) fun ev => ?_
    cases ev with
    | eob => exact .pure _
    | coef run level => exact .ite (near_coeffLoop one fuel _ _) .panic
theorem near_readBlock (b : Block) (p : DcPred) (format cc : Nat) (intra : Bool) : Near (readBlock b p format cc intra) := by
  unfold readBlock
  refine .ite ?_ ?_
  · refine .bind (.bind (near_huffDecode _) fun _ => .bind (near_read _) fun _ => .pure _) fun _ => ?_
    exact .bind (near_coeffLoop _ _ _ _) fun _ => .pure _
  · exact .bind (near_coeffLoop _ _ _ _) fun _ => .pure _

/-- read one block and keep its result -/
def blockOf (e : PicEnv) (intra : Bool) (i : Nat) (b : Block) (s : MB) : Go MB Block :=
  MB.lift (readBlock b s.dcp e.pce.intraVLCFormat (colorChannel i) intra) >>= fun c =>
    Go.modify (fun s => { s with dcp := c.2 }) >>= fun _ => pure (idct (decodeBlock (blockParams e s.qsc i intra) c.1))
theorem mbBlock_blockOf (e : PicEnv) (intra : Bool) (i : Nat) (b : Block) :
    mbBlock e intra true i b = fun s => blockOf e intra i b s s := by
  funext s
  unfold mbBlock blockOf
  rw [if_pos rfl]
  cases h : readBlock b s.dcp e.pce.intraVLCFormat (colorChannel i) intra s.br with
  | mk r s' =>
    have hl : MB.lift (readBlock b s.dcp e.pce.intraVLCFormat (colorChannel i) intra) s = (r, { s with br := s' }) := by
      unfold MB.lift; rw [h]
    cases r with
    | ok c => rw [Go.bind_ok hl]; rfl
    | err x => rw [Go.bind_err hl]
    | panic => rw [Go.bind_panic hl]
    | hang => rw [Go.bind_hang hl]
theorem near_mbBlock (e : PicEnv) (intra coded : Bool) (i : Nat) (b : Block) : Near (mbBlock e intra coded i b) := by
  cases coded with
  | false => exact .pure _
  | true =>
    rw [mbBlock_blockOf]
    exact Near.byState (fun s => .bind (near_mlift (near_readBlock _ _ _ _ _)) fun _ =>
      .bind (.modify (fun _ => rfl) fun _ _ => rfl) fun _ => .pure _) fun _ _ => rfl
theorem near_mbBlocks (e : PicEnv) (intra dct : Bool) (coded : Nat → Bool) (addr row : Nat) :
    ∀ k i b, Near (mbBlocks e intra dct coded addr row k i b)
  | 0, _, _ => .pure _
  | k + 1, i, b => .bind (near_mbBlock _ _ _ _ _) fun _ => .getBind (fun _ => .bind (.orPanic _) fun _ =>
      .bind (.modify (fun _ => rfl) fun _ _ => rfl) fun _ => near_mbBlocks e intra dct coded addr row k _ _) fun _ _ => rfl
theorem near_mbFinish (e : PicEnv) (row a : Nat) (m : Mode) (cbp : Nat) : Near (mbFinish e row a m cbp) :=
  .bind (near_mbBlocks _ _ _ _ _ _ _ _ _) fun _ => .pure _
theorem near_mbPattern (e : PicEnv) (row a : Nat) (m : Mode) : Near (mbPattern e row a m) := by
  unfold mbPattern
  refine .ite ?_ (near_mbFinish _ _ _ _ _)
  have h : mbCoded e row a m = Near.handle (MB.lift (codedBlockPattern e.se.chromaFormat)) (mbFinish e row a m)
      fun _ => pure 0 := by
    funext s
    unfold mbCoded Near.handle
    cases MB.lift (codedBlockPattern e.se.chromaFormat) s with | mk r s' => cases r <;> rfl
  rw [h]
  exact .byHandle (near_mlift (near_codedBlockPattern _)) (fun _ => near_mbFinish _ _ _ _ _) fun _ => .pure _
theorem near_mbVectors (e : PicEnv) (m : Mode) : Near (mbVectors e m) := by
  unfold mbVectors
  exact .bind (.opt (.bind (near_mlift (near_read _)) fun _ => .modify (fun _ => rfl) fun _ _ => rfl)) fun _ =>
    .bind (.opt (near_motionVectors _ _ _)) fun _ => .bind (.opt (near_motionVectors _ _ _)) fun _ =>
    .bind (.modify (fun _ => rfl) fun _ _ => rfl) fun _ => .opt (near_mlift near_markerBit)
theorem near_mbRest (e : PicEnv) (row : Nat) (addr : Option Nat) (incr : Nat) : Near (mbRest e row addr incr) := by
  unfold mbRest
  exact .bind (near_copySkipped _ _ _ _) fun _ => .bind (.modify (fun _ => rfl) fun _ _ => rfl) fun _ =>
    .bind (near_mlift (near_macroblockMode e)) fun _ => .bind (.modify (fun _ => rfl) fun _ _ => rfl) fun _ =>
    .bind (near_mbVectors _ _) fun _ => near_mbPattern _ _ _ _
theorem near_macroblock (e : PicEnv) (row : Nat) (addr : Option Nat) : Near (macroblock e row addr) := by
  rw [macroblock_eq]; exact .bind (near_mlift near_mbIncrement) fun _ => near_mbRest _ _ _ _
theorem near_mbLoop (e : PicEnv) (row : Nat) : ∀ f addr, Near (mbLoop e row f addr)
  | 0, _ => .hang
  | f + 1, addr => .bind (near_macroblock _ _ _) fun _ => .bind (near_mlift (near_peek (by decide))) fun _ =>
      .ite (.pure _) (near_mbLoop e row f _)
theorem len_mbLoop (e : PicEnv) (row : Nat) : ∀ f f' addr, f ≤ f' → LeN (mbLoop e row f addr) (mbLoop e row f' addr)
  | 0, f', a, _ => .hang (near_mbLoop e row f' a)
  | f + 1, 0, _, h => absurd h (by omega)
  | f + 1, f' + 1, _, h => .bind (near_macroblock _ _ _) (near_macroblock _ _ _) (.refl _) (fun _ =>
      .bind (near_mlift (near_peek (by decide))) (near_mlift (near_peek (by decide))) (.refl _) (fun _ =>
        .ite (.refl _) (len_mbLoop e row f f' _ (by omega))) fun _ => .ite (.pure _) (near_mbLoop e row f' _))
      fun _ => .bind (near_mlift (near_peek (by decide))) fun _ => .ite (.pure _) (near_mbLoop e row f' _)
theorem near_mbLoopAll (e : PicEnv) (row : Nat) : Near (mbLoopAll e row) :=
  Near.fuel (loop := fun f => mbLoop e row f none) (F := fun s => fuelOf s.br) (fun f => near_mbLoop e row f none)
    (fun f f' h => len_mbLoop e row f f' none h) (fun s t => fuelOf_ext s.br t) fun s =>
      mbLoop_term e row _ none s (by rw [fuelOf_eq]; omega)
theorem near_sliceHeader (v : Nat) : Near (sliceHeader v) := by unfold sliceHeader; near_steps
theorem near_slice (e : PicEnv) : Near (slice e) := by
  unfold slice
  exact .bind (near_mlift (near_read _)) fun _ => .bind .check fun _ => .getBind (fun _ => .ite .panic
    (.bind (near_mlift (near_sliceHeader _)) fun _ => .bind (.modify (fun _ => rfl) fun _ _ => rfl) fun _ =>
      .bind (near_mbLoopAll e _) fun _ => near_mlift near_nextStartCode)) fun _ _ => rfl
theorem near_sliceLoop (e : PicEnv) : ∀ f, Near (sliceLoop e f)
  | 0 => .hang
  | f + 1 => .bind (near_slice e) fun _ => .bind (near_mlift (near_peek (by decide))) fun _ => .ite (near_sliceLoop e f) (.pure _)
theorem len_sliceLoop (e : PicEnv) : ∀ f f', f ≤ f' → LeN (sliceLoop e f) (sliceLoop e f')
  | 0, f', _ => .hang (near_sliceLoop e f')
  | f + 1, 0, h => absurd h (by omega)
  | f + 1, f' + 1, h => .bind (near_slice e) (near_slice e) (.refl _) (fun _ =>
      .bind (near_mlift (near_peek (by decide))) (near_mlift (near_peek (by decide))) (.refl _) (fun _ =>
        .ite (len_sliceLoop e f f' (by omega)) (.refl _)) fun _ => .ite (near_sliceLoop e f') (.pure _))
      fun _ => .bind (near_mlift (near_peek (by decide))) fun _ => .ite (near_sliceLoop e f') (.pure _)
theorem near_slicesAll (e : PicEnv) : Near (fun s : MB => (do sliceLoop e (fuelOf s.br); MB.lift nextStartCode : Go MB Unit) s) :=
  Near.bind (Near.fuel (loop := sliceLoop e) (F := fun s => fuelOf s.br) (near_sliceLoop e) (len_sliceLoop e)
    (fun s t => fuelOf_ext s.br t) fun s => sliceLoop_term e _ s (by rw [fuelOf_eq]; omega)) fun _ => near_mlift near_nextStartCode

/-- the result of the slices as a result of the picture -/
def fromMB (s : VS) : Res Unit × MB → Res Frame × VS
  | (.ok _, m') => (.ok m'.frame, { s with br := m'.br })
  | (.err x, m') => (.err x, { s with br := m'.br })
  | (.panic, m') => (.panic, { s with br := m'.br })
  | (.hang, m') => (.hang, { s with br := m'.br })
theorem fromMB_br (s : VS) (x : Res Unit × MB) : (fromMB s x).2.br = x.2.br := by
  obtain ⟨r, m⟩ := x; cases r <;> rfl
theorem fromMB_ext (s : VS) (x : Res Unit × MB) (t : List Bool) :
    fromMB (ext s t) (x.1, ext x.2 t) = ((fromMB s x).1, ext (fromMB s x).2 t) := by
  obtain ⟨r, m⟩ := x; cases r <;> rfl

/-- all slices of a picture -/
def slicesOf (e : PicEnv) : Go MB Unit := fun s => (do sliceLoop e (fuelOf s.br); MB.lift nextStartCode : Go MB Unit) s
/-- where the slices of a picture start -/
def startMB (se : SequenceExtension) (pce : PictureCodingExtension) (s : VS) : MB :=
  ⟨s.br, DcPred.reset pce.intraDCPrecision, MVD.init, 0, createFrameBuffer s.size.1.toNat s.size.2.toNat se.chromaFormat⟩
theorem pictureWith_from (sh : SequenceHeader) (se : SequenceExtension) (ph : PictureHeader) (pce : PictureCodingExtension)
    (s : VS) : pictureWith sh se ph pce s =
      fromMB s (slicesOf ⟨sh, se, ph, pce, s.qm, s.fs.past, s.fs.future⟩ (startMB se pce s)) := by
  unfold pictureWith fromMB slicesOf startMB
  rfl

theorem near_pictureWith (sh : SequenceHeader) (se : SequenceExtension) (ph : PictureHeader) (pce : PictureCodingExtension) :
    Near (pictureWith sh se ph pce) := by
  intro s hp
  obtain ⟨h1, h2, h3⟩ := near_slicesAll ⟨sh, se, ph, pce, s.qm, s.fs.past, s.fs.future⟩ (startMB se pce s) hp
  rw [pictureWith_from]
  refine ⟨?_, ?_, fun t => ?_⟩
  · show (fromMB s _).2.br.Plain
    rw [fromMB_br]; exact h1
  · show (fromMB s _).2.br.bits.length ≤ _
    rw [fromMB_br]; exact h2
  · rw [pictureWith_from]
    have h4 : NR t (slicesOf ⟨sh, se, ph, pce, s.qm, s.fs.past, s.fs.future⟩ (startMB se pce s))
      (slicesOf ⟨sh, se, ph, pce, s.qm, s.fs.past, s.fs.future⟩ (startMB se pce (ext s t))) := h3 t
    show NR t _ (fromMB (ext s t) (slicesOf ⟨sh, se, ph, pce, s.qm, s.fs.past, s.fs.future⟩ (startMB se pce (ext s t))))
    rcases h4 with h4 | h4
    · rw [h4, fromMB_ext]; exact .inl rfl
    · right
      show (fromMB (ext s t) _).2.br.bits.length < _ ∧ (fromMB s _).2.br.bits.length = 0
      rw [fromMB_br, fromMB_br]; exact h4

/-- the picture that the headers of `s` announce -/
def pictureOf (s : VS) : Go VS Frame :=
  match s.sh, s.se, s.ph, s.pce with
  | some sh, some se, some ph, some pce => pictureWith sh se ph pce
  | _, _, _, _ => Go.panic
theorem pictureData_of : pictureData = fun s => pictureOf s s := by
  funext s
  have hd : pictureData s = (match s.sh, s.se, s.ph, s.pce with
    | some sh, some se, some ph, some pce => pictureWith sh se ph pce s
    | _, _, _, _ => (.panic, s)) := rfl
  rw [hd]
  unfold pictureOf
  cases s.sh <;> cases s.se <;> cases s.ph <;> cases s.pce <;> rfl
theorem near_pictureData : Near pictureData := by
  rw [pictureData_of]
  refine Near.byState (fun s => ?_) fun _ _ => rfl
  unfold pictureOf
  cases s.sh <;> cases s.se <;> cases s.ph <;> cases s.pce <;> first
    | exact .panic
    | exact near_pictureWith _ _ _ _

theorem near_pictureStep : Near pictureStep := by
  unfold pictureStep
  refine .getBind (fun s => ?_) fun _ _ => rfl
  cases s.ph with
  | none => exact .panic
  | some ph =>
    exact .bind (.modify (fun _ => rfl) fun _ _ => rfl) fun _ => .bind near_pictureData fun _ =>
      .bind (.modify (fun s => by split <;> rfl) fun s _ => by split <;> rfl) fun _ => .pure _
theorem near_groupHeader (f : Nat) : Near (groupHeader f) := by
  unfold groupHeader
  exact .bind (near_vlift (near_peek (by decide))) fun _ => .opt (.bind (near_vlift near_readGOPHeader) fun _ =>
    .bind (.modify (fun _ => rfl) fun _ _ => rfl) fun _ => near_extUser 1 f)
theorem near_moreFrames (f : Nat) : Near (moreFrames f) :=
  .bind (near_groupHeader f) fun _ => .bind near_pictureHeader fun _ => .bind near_pictureCodingExtension fun _ =>
    .bind (near_extUser 2 f) fun _ => near_pictureStep
theorem near_continueFrames (f : Nat) : Near (continueFrames f) :=
  .bind (near_extUser 0 f) fun _ => near_moreFrames f
theorem near_resume (f : Nat) : Near (resume f) :=
  .bind (near_vlift (near_peek (by decide))) fun _ => .ite (near_moreFrames f) (.ite (.bind (near_vlift (near_skip _)) fun _ => .throw _)
    (.bind near_sequenceHeader fun _ => .bind near_sequenceExtension fun _ => near_continueFrames f))
theorem near_start (f : Nat) : Near (start f) :=
  .bind (near_vlift near_nextStartCode) fun _ => .bind near_sequenceHeader fun _ => .bind (near_vlift (near_peek (by decide))) fun _ =>
    .bind .check fun _ => .bind near_sequenceExtension fun _ => near_continueFrames f
theorem near_step (f : Nat) : Near (step f) := by
  have h : step f = fun s => (if s.sh.isSome then resume f else start f) s := by
    funext s; unfold step; split <;> rfl
  rw [h]
  exact Near.byState (m := fun s => if s.sh.isSome then resume f else start f)
    (fun s => .ite (near_resume f) (near_start f)) fun _ _ => rfl
theorem near_nextLoop (fuel : Nat) : ∀ k, Near (nextLoop fuel k)
  | 0 => .hang
  | k + 1 => by
    unfold nextLoop
    refine .bind (near_step fuel) fun f => .getBind (fun s => ?_) fun _ _ => rfl
    cases s.ph with
    | none => exact .panic
    | some ph => exact .ite (.bind (.modify (fun _ => rfl) fun _ _ => rfl) fun _ => .pure _) (near_nextLoop fuel k)
theorem near_next (fuel k : Nat) : Near (VS.next fuel k) := by
  intro s hp
  have h : ∀ s, VS.next fuel k s = match s.fs.tryGet s.frameCounter with
    | some f => (.ok f, s.count)
    | none => nextLoop fuel k s := fun s => by unfold VS.next; split <;> simp_all
  cases hw : s.fs.tryGet s.frameCounter with
  | some f =>
    have hn : ∀ s : VS, s.fs.tryGet s.frameCounter = some f → VS.next fuel k s = (.ok f, s.count) := by
      intro s h1; rw [h, h1]
    rw [hn s hw]
    exact ⟨hp, Nat.le_refl _, fun t => .inl (by rw [hn (ext s t) hw]; rfl)⟩
  | none =>
    have hn : ∀ s : VS, s.fs.tryGet s.frameCounter = none → VS.next fuel k s = nextLoop fuel k s := by
      intro s h1; rw [h, h1]
    obtain ⟨h1, h2, h3⟩ := near_nextLoop fuel k s hp
    rw [hn s hw]
    exact ⟨h1, h2, fun t => by rw [hn (ext s t) hw]; exact h3 t⟩

end Video
end Mpeg
