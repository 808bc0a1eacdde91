/-
Which errors the decoder reports: a compositional predicate and the errors of every parser of package video.
-/
import Verif.Base.ErrSpec
import Verif.Video.MovesLemmas
set_option linter.all false
namespace Mpeg

namespace BR
theorem Moves.stops {a b : BR} (h : Moves a b) : ∀ e ∈ b.stops, e ∈ a.stops := by
  induction h with
  | refl => exact fun _ h => h
  | adv k _ ih => exact ih
  | @fail b _ ih =>
    intro e he
    unfold BR.failTo at he
    cases hL : b.later with
    | nil => rw [hL] at he; exact ih e (by simpa [BR.stops, hL] using he)
    | cons x L =>
      rw [hL] at he
      refine ih e ?_
      simp only [BR.stops, hL, List.map_cons, List.mem_cons] at he ⊢
      exact .inr he
theorem Moves.says {a b : BR} (h : Moves a b) {e : Err} (hs : b.Says e) : a.Says e :=
  hs.imp (h.stops e) fun ⟨h1, h2⟩ => ⟨h1, h.stops _ h2⟩
theorem Moves.later {a b : BR} (h : Moves a b) : b.later.length ≤ a.later.length := by
  induction h with
  | refl => exact Nat.le_refl _
  | adv k _ ih => exact ih
  | @fail b _ ih =>
    unfold BR.failTo
    cases hL : b.later with
    | nil => exact Nat.zero_le _
    | cons x L => rw [hL] at ih; exact Nat.le_trans (by simp) ih
theorem Moves.done {a b : BR} (h : Moves a b) (ha : a.bits = [] ∧ a.later = []) : b.bits = [] ∧ b.later = [] := by
  induction h with
  | refl => exact ha
  | adv k _ ih => exact ⟨by simp [BR.adv, ih.1], ih.2⟩
  | @fail b _ ih => unfold BR.failTo; rw [ih.2]; exact ⟨rfl, rfl⟩
theorem Left.of_moves {a b c : BR} (h : Moves a b) (hl : b.Left c) : a.Left c :=
  hl.imp (fun h1 => Nat.lt_of_lt_of_le h1 h.later) id
theorem left_failTo (s : BR) : s.Left s.failTo := by
  unfold BR.failTo BR.Left
  cases hL : s.later with
  | nil => exact .inr ⟨rfl, rfl⟩
  | cons x L => exact .inl (Nat.lt_succ_self _)
theorem says_failErr (s : BR) : s.Says s.failErr := by
  unfold BR.failErr BR.Says BR.stops
  split
  · exact .inl (List.mem_cons_self ..)
  · split
    · rename_i h; exact .inr ⟨rfl, by rw [h]; exact List.mem_cons_self ..⟩
    · exact .inl (List.mem_cons_self ..)
end BR

/-- `m` moves over the input, and every error it reports is one of `F` or comes from the source, which has then been
read to its end. -/
structure Go.Er {σ α : Type} (F : List Err) (gt : σ → BR) (m : Go σ α) : Prop where
  mv : Go.Mv gt m
  er : ∀ s e s', m s = (.err e, s') → e ∈ F ∨ ((gt s).Says e ∧ (gt s).Left (gt s'))

macro "er_mem" : tactic => `(tactic| first | assumption | decide)

namespace Go.Er
variable {σ α β : Type} {gt : σ → BR} {F : List Err}
theorem pure (a : α) : Go.Er F gt (Pure.pure a : Go σ α) := ⟨.pure a, fun s e s' h => by cases h⟩
theorem throw (e : Err) (h : e ∈ F := by er_mem) : Go.Er F gt (Go.throw e : Go σ α) :=
  ⟨.throw e, fun s x s' hx => by cases hx; exact .inl h⟩
theorem panic : Go.Er F gt (Go.panic : Go σ α) := ⟨.panic, fun s e s' h => by cases h⟩
theorem hang : Go.Er F gt (Go.hang : Go σ α) := ⟨.hang, fun s e s' h => by cases h⟩
theorem get : Go.Er F gt (Go.get : Go σ σ) := ⟨.get, fun s e s' h => by cases h⟩
theorem modify {f : σ → σ} (h : ∀ s, gt (f s) = gt s) : Go.Er F gt (Go.modify f) :=
  ⟨.modify h, fun s e s' h => by cases h⟩
theorem bind {m : Go σ α} {f : α → Go σ β} (hm : Go.Er F gt m) (hf : ∀ a, Go.Er F gt (f a)) : Go.Er F gt (m >>= f) := by
  refine ⟨.bind hm.mv fun a => (hf a).mv, fun s e s' h => ?_⟩
  have h1 := hm.mv s
  rw [Go.bind_apply] at h
  cases hr : m s with
  | mk r s1 =>
    rw [hr] at h h1
    cases r with
    | ok a => exact ((hf a).er s1 e s' h).imp id fun ⟨g1, g2⟩ => ⟨h1.says g1, g2.of_moves h1⟩
    | err x => cases h; exact hm.er s _ _ hr
    | panic => cases h
    | hang => cases h
theorem map {m : Go σ α} (f : α → β) (hm : Go.Er F gt m) : Go.Er F gt (f <$> m) := by
  rw [map_eq_pure_bind]; exact .bind hm fun _ => .pure _
theorem opt {c : Bool} {d : α} {m : Go σ α} (hm : Go.Er F gt m) : Go.Er F gt (Go.opt c d m) := by
  cases c
  · exact .pure _
  · exact hm
theorem ite {c : Prop} [Decidable c] {m m' : Go σ α} (hm : Go.Er F gt m) (hm' : Go.Er F gt m') :
    Go.Er F gt (if c then m else m') := by split <;> assumption
theorem check {c : Bool} {e : Err} (h : e ∈ F := by er_mem) : Go.Er F gt (Go.check c e : Go σ Unit) := by
  cases c
  · exact .throw _ h
  · exact .pure _
theorem ignoreErr {m : Go σ α} (hm : Go.Er F gt m) : Go.Er F gt (Go.ignoreErr m) := by
  refine ⟨.ignoreErr hm.mv, fun s e s' h => ?_⟩
  unfold Go.ignoreErr at h
  cases hr : m s with
  | mk r s1 => rw [hr] at h; cases r <;> cases h
theorem orPanic : ∀ x : Option α, Go.Er F gt (Video.orPanic x : Go σ α)
  | some _ => .pure _
  | none => .panic
theorem at_state {m : σ → Go σ α} (h : ∀ s, Go.Er F gt (m s)) : Go.Er F gt (fun s => m s s) :=
  ⟨fun s => (h s).mv s, fun s => (h s).er s⟩
theorem mono {G : List Err} {m : Go σ α} (h : Go.Er F gt m) (hs : ∀ e ∈ F, e ∈ G) : Go.Er G gt m :=
  ⟨h.mv, fun s e s' hm => (h.er s e s' hm).imp (hs e) id⟩
end Go.Er

/-- the errors of a parser on a bit reader -/
abbrev BR.Er {α : Type} (F : List Err) (m : Go BR α) : Prop := Go.Er F (fun s : BR => s) m

namespace BR
variable {F : List Err}
theorem er_read (k : Nat) : BR.Er F (read k) := ⟨mv_read k, fun s e s' h => by
  unfold read at h; split at h
  · cases h
  · cases h; exact .inr ⟨says_failErr s, left_failTo s⟩⟩
theorem er_peek (k : Nat) : BR.Er F (peek k) := ⟨mv_peek k, fun s e s' h => by
  unfold peek at h; split at h
  · cases h
  · cases h; exact .inr ⟨says_failErr s, left_failTo s⟩⟩
theorem er_skip (k : Nat) : BR.Er F (skip k) := ⟨mv_skip k, fun s e s' h => by
  unfold skip at h; split at h
  · cases h
  · cases h; exact .inr ⟨says_failErr s, left_failTo s⟩⟩
theorem er_read1 : BR.Er F read1 := ⟨mv_read1, fun s e s' h => by
  unfold read1 at h; split at h
  · cases h
  · cases h; exact .inr ⟨says_failErr s, left_failTo s⟩⟩
theorem er_align : BR.Er F align := ⟨mv_align, fun s e s' h => by cases h⟩
theorem er_codeAssert (k v : Nat) (e : Err) (h : e ∈ F := by er_mem) : BR.Er F (codeAssert k v e) := by
  unfold codeAssert codeCheck
  exact .bind (.bind (er_peek _) fun _ => .pure _) fun _ => .bind (.check h) fun _ => er_skip _
end BR

namespace Video
open _root_.Mpeg.BR
variable {F : List Err}

theorem er_vlift {α : Type} {m : Go BR α} (h : BR.Er F m) : Go.Er F VS.br (VS.lift m) := ⟨mv_vlift h.mv, fun s e s' hm => by
  have h1 : (m s.br).1 = .err e := congrArg Prod.fst hm
  have h2 : s' = _ := (congrArg Prod.snd hm).symm
  subst h2
  exact h.er s.br e _ (Prod.ext h1 rfl)⟩
theorem er_mlift {α : Type} {m : Go BR α} (h : BR.Er F m) : Go.Er F MB.br (MB.lift m) := ⟨mv_mlift h.mv, fun s e s' hm => by
  have h1 : (m s.br).1 = .err e := congrArg Prod.fst hm
  have h2 : s' = _ := (congrArg Prod.snd hm).symm
  subst h2
  exact h.er s.br e _ (Prod.ext h1 rfl)⟩

theorem er_alignIfNeeded : BR.Er F alignIfNeeded := ⟨mv_alignIfNeeded, fun s e s' h => by
  unfold alignIfNeeded at h; split at h
  · cases h
  · exact er_align.er s e s' h⟩
theorem er_nscLoop (h : .unexpectedNonZeroByte ∈ F) : ∀ f, BR.Er F (nextStartCodeLoop f)
  | 0 => .hang
  | f + 1 => .bind (er_peek _) fun _ => .ite (.pure _) (.bind (er_read _) fun _ => .ite (er_nscLoop h f) (.throw _))
theorem er_nextStartCode (h : .unexpectedNonZeroByte ∈ F := by er_mem) : BR.Er F nextStartCode :=
  .bind er_alignIfNeeded fun _ => ⟨fun s => (er_nscLoop h _).mv s, fun s => (er_nscLoop h _).er s⟩
theorem er_alignLoop (code : Nat) : ∀ f, BR.Er F (alignToLoop code f)
  | 0 => .hang
  | f + 1 => .bind (er_peek _) fun _ => .ite (.pure _) (.bind (er_skip _) fun _ => er_alignLoop code f)
theorem er_alignTo (code : Nat) : BR.Er F (alignTo code) :=
  .bind er_alignIfNeeded fun _ => ⟨fun s => (er_alignLoop (F := F) code _).mv s, fun s => (er_alignLoop (F := F) code _).er s⟩
theorem er_markerBit (h : .missingMarkerBit ∈ F := by er_mem) : BR.Er F markerBit := .bind er_read1 fun _ => .check
theorem er_readBytes : ∀ n, BR.Er F (readBytes n)
  | 0 => .pure _
  | n + 1 => .bind (er_read _) fun _ => .bind (er_readBytes n) fun _ => .pure _
theorem er_readMatrix : BR.Er F readMatrix := er_readBytes 64
theorem er_extraLoop : ∀ f, BR.Er F (extraInformationLoop f)
  | 0 => .hang
  | f + 1 => .bind (er_peek _) fun _ => .ite (.bind (er_skip _) fun _ => .bind (er_read _) fun _ =>
      .bind (er_extraLoop f) fun _ => .pure _) (.pure _)
theorem er_readExtra : BR.Er F readExtraInformation := ⟨fun s => (er_extraLoop (F := F) _).mv s, fun s => (er_extraLoop (F := F) _).er s⟩
theorem er_read1OrFalse : BR.Er F read1OrFalse := ⟨mv_read1OrFalse, fun s e s' h => by
  unfold read1OrFalse at h
  cases hr : read1 s with
  | mk r s1 => rw [hr] at h; cases r <;> cases h⟩

macro "er_steps" : tactic => `(tactic| repeat' with_reducible first
  | refine Go.Er.bind ?_ (fun _ => ?_)
  | exact Go.Er.pure _
  | exact Go.Er.check
  | exact Go.Er.panic
  | exact Go.Er.throw _
  | exact Go.Er.get
  | exact er_read _
  | exact er_read1
  | exact er_skip _
  | exact er_peek _
  | exact er_codeAssert _ _ _
  | exact er_markerBit
  | exact er_nextStartCode
  | exact er_readMatrix
  | exact er_readExtra
  | exact er_read1OrFalse
  | refine er_vlift ?_
  | refine er_mlift ?_
  | refine Go.Er.ignoreErr ?_
  | refine Go.Er.opt ?_
  | refine Go.Er.map _ ?_
  | refine Go.Er.ite ?_ ?_)

theorem er_startCode (c : Nat) (h : .unexpectedStartCode ∈ F := by er_mem) : BR.Er F (startCode c) := er_codeAssert _ _ _
theorem er_extensionID (c : Nat) (h : .unexpectedExtensionID ∈ F := by er_mem) : BR.Er F (extensionID c) := er_codeAssert _ _ _
/-- the errors of the decoder itself within pictures and headers -/
abbrev V0 : List Err := [.unexpectedStartCode, .unexpectedExtensionID, .unexpectedNonZeroByte, .missingMarkerBit,
  .invalidReservedBits, .missingHuffmanValue]
/-- the errors of the decoder itself -/
abbrev V : List Err := [.unexpectedStartCode, .unexpectedExtensionID, .unexpectedNonZeroByte, .missingMarkerBit,
  .invalidReservedBits, .missingHuffmanValue, .eos, .unsupported11172]

theorem er_readSequenceHeader : BR.Er [.unexpectedStartCode, .missingMarkerBit, .unexpectedNonZeroByte] readSequenceHeader := by
  unfold readSequenceHeader startCode; er_steps
theorem er_readSequenceExtension : BR.Er [.unexpectedStartCode, .unexpectedExtensionID, .missingMarkerBit] readSequenceExtension := by
  unfold readSequenceExtension startCode extensionID; er_steps
theorem er_readGOPHeader : BR.Er [.unexpectedStartCode, .unexpectedNonZeroByte] readGOPHeader := by
  unfold readGOPHeader startCode; er_steps
theorem er_readPictureHeader : BR.Er [.unexpectedStartCode] readPictureHeader := by
  unfold readPictureHeader startCode; er_steps
theorem er_readPictureCodingExtension : BR.Er [.unexpectedStartCode, .unexpectedExtensionID] readPictureCodingExtension := by
  unfold readPictureCodingExtension startCode extensionID; er_steps
theorem er_display : BR.Er V0 readSequenceDisplayExtension := by
  unfold readSequenceDisplayExtension extensionID; er_steps
theorem er_scalable : BR.Er V0 readSequenceScalableExtension := by
  unfold readSequenceScalableExtension extensionID; er_steps
theorem er_temporal : BR.Er V0 readPictureTemporalScalableExtension := by
  unfold readPictureTemporalScalableExtension extensionID; er_steps
theorem er_userLoop : ∀ f, BR.Er V0 (userDataLoop f)
  | 0 => .hang
  | f + 1 => .bind (er_peek _) fun _ => .ite (.pure _) (.bind (er_read _) fun _ =>
      .bind (er_userLoop f) fun _ => .pure _)
theorem er_userData : BR.Er V0 userData := by
  unfold userData startCode
  refine .bind (er_codeAssert _ _ _) fun _ => .bind (⟨fun s => (er_userLoop _).mv s, fun s => (er_userLoop _).er s⟩) fun _ => ?_
  er_steps

theorem er_storeHeader {α : Type} {m : Go BR α} {put : VS → Option α → VS} (h : BR.Er F m)
    (hp : ∀ s x, (put s x).br = s.br) (hn : .unexpectedNonZeroByte ∈ F := by er_mem) :
    Go.Er F VS.br (storeHeader m put) := by
  refine ⟨mv_storeHeader h.mv hp, fun s e s' hs => ?_⟩
  have h0 := mv_vlift h.mv s
  have h1 := (er_vlift h).er s
  unfold storeHeader at hs
  cases hm : VS.lift m s with
  | mk r s1 =>
    rw [hm] at hs h0
    cases r with
    | ok a =>
      have h2 := (er_vlift (F := F) er_nextStartCode).er (put s1 (some a)) e s' hs
      rw [hp] at h2
      exact h2.imp id fun ⟨g1, g2⟩ => ⟨h0.says g1, g2.of_moves h0⟩
    | err x =>
      cases hs
      have h2 := h1 _ _ hm
      show _ ∨ _ ∧ BR.Left _ (put s1 none).br
      rw [hp]
      exact h2
    | panic => cases hs
    | hang => cases hs

abbrev extErrs : List Err := [.unexpectedStartCode, .unexpectedExtensionID, .missingMarkerBit, .unexpectedNonZeroByte]
theorem er_sequenceHeader : Go.Er [.unexpectedStartCode, .missingMarkerBit, .unexpectedNonZeroByte] VS.br sequenceHeader := by
  unfold sequenceHeader
  exact .bind (er_vlift er_readSequenceHeader) fun _ => .modify fun _ => rfl
theorem er_sequenceExtension : Go.Er extErrs VS.br sequenceExtension :=
  er_storeHeader (er_readSequenceExtension.mono (by decide)) fun _ _ => rfl
theorem er_pictureHeader : Go.Er [.unexpectedStartCode, .unexpectedNonZeroByte] VS.br pictureHeader :=
  er_storeHeader (er_readPictureHeader.mono (by decide)) fun _ _ => rfl
theorem er_pictureCodingExtension :
    Go.Er [.unexpectedStartCode, .unexpectedExtensionID, .unexpectedNonZeroByte] VS.br pictureCodingExtension :=
  er_storeHeader (er_readPictureCodingExtension.mono (by decide)) fun _ _ => rfl
theorem er_loadMatrix (set : QMatrices → Matrix → QMatrices) : Go.Er V0 VS.br (loadMatrix set) := by
  unfold loadMatrix
  exact .bind (er_vlift er_read1) fun _ => .opt (.bind (er_vlift er_readMatrix) fun _ => .modify fun _ => rfl)
theorem er_quant : Go.Er V0 VS.br quantMatrixExtension := by
  unfold quantMatrixExtension
  exact .bind (.ignoreErr (er_vlift (er_extensionID _))) fun _ => .bind (er_loadMatrix _) fun _ =>
    .bind (er_loadMatrix _) fun _ => .bind (er_loadMatrix _) fun _ => .bind (er_loadMatrix _) fun _ =>
    er_vlift er_nextStartCode
theorem er_body (i : Nat) : Go.Er V0 VS.br (extensionBody i) := by
  unfold extensionBody
  exact .ite (.bind (er_vlift (er_peek _)) fun _ =>
      .ite (.bind (er_vlift er_display) fun _ => .pure _) (er_vlift er_scalable))
    (.ite (.bind (er_vlift (er_peek _)) fun _ =>
      .ite er_quant (.ite .panic (.bind (er_vlift er_temporal) fun _ => .pure _)))
      (.pure _))
theorem er_extensionStep (i : Nat) : Go.Er V0 VS.br (extensionDataStep i) := by
  rw [extensionDataStep_eq]
  exact .bind (.ignoreErr (er_vlift (er_skip _))) fun _ => er_body i
theorem er_extensionData (i : Nat) : ∀ f, Go.Er V0 VS.br (extensionData i f)
  | 0 => .hang
  | f + 1 => .bind (er_vlift (er_peek _)) fun _ => .ite (.bind (er_extensionStep i) fun _ => er_extensionData i f) (.pure _)
theorem er_extUser (i : Nat) : ∀ f, Go.Er V0 VS.br (extensionAndUserData i f)
  | 0 => .hang
  | f + 1 => .bind (er_vlift (er_peek _)) fun _ => .ite
      (.ite (.bind (er_extensionData i f) fun _ => er_extUser i f) (er_extUser i f))
      (.ite (.bind (er_vlift er_userData) fun _ => er_extUser i f) (.pure _))

/-! ### macroblocks -/

theorem er_huffLoop {α : Type} : ∀ (f : Nat) (t : Table α), BR.Er V0 (huffLoop f t)
  | 0, _ => .hang
  | f + 1, t => by
    unfold huffLoop
    refine .bind er_read1 fun b => ?_
    cases (t.next b).hit with
    | some v => exact .pure _
    | none => exact .ite (.throw _) (er_huffLoop f _)
theorem er_huffDecode {α : Type} (t : Table α) : BR.Er V0 (huffDecode t) := er_huffLoop _ t
theorem er_escapeLoop : ∀ f n, BR.Er V0 (escapeLoop f n)
  | 0, _ => .hang
  | f + 1, n => .bind (er_peek _) fun _ => .ite (.bind (.ignoreErr (er_skip _)) fun _ => er_escapeLoop f _) (.pure _)
theorem er_mbIncrement : BR.Er V0 mbIncrement :=
  .bind (⟨fun s => (er_escapeLoop _ _).mv s, fun s => (er_escapeLoop _ _).er s⟩) fun _ => .bind (er_huffDecode _) fun _ => .pure _
theorem er_mbType (pct : Nat) : BR.Er V0 (mbType pct) := by
  unfold mbType
  exact .ite (er_huffDecode _) (.ite (er_huffDecode _) (.ite (er_huffDecode _) .panic))
theorem er_macroblockMode (e : PicEnv) : BR.Er V0 (macroblockMode e) := by
  unfold macroblockMode
  refine .bind (er_mbType _) fun _ => ?_
  er_steps
theorem er_readMotion (fc : Nat) : BR.Er V0 (readMotion fc) := by
  unfold readMotion
  refine .bind (er_huffDecode _) fun _ => ?_
  er_steps
theorem er_motionVectorPart (e : PicEnv) (info : MvInfo) (r s t : Nat) : Go.Er V0 MB.br (motionVectorPart e info r s t) := by
  unfold motionVectorPart
  exact .bind (er_mlift (er_readMotion _)) fun _ => .ite .panic (.modify fun _ => rfl)
theorem er_motionVector (e : PicEnv) (info : MvInfo) (r s : Nat) : Go.Er V0 MB.br (motionVector e info r s) :=
  .bind (er_motionVectorPart _ _ _ _ _) fun _ => er_motionVectorPart _ _ _ _ _
theorem er_motionVectors (e : PicEnv) (s : Nat) (m : Mode) : Go.Er V0 MB.br (motionVectors e s m) := by
  unfold motionVectors
  refine .bind (.orPanic _) fun info => .ite ?_ ?_
  · exact .bind (.opt (er_mlift (er_read _))) fun _ => er_motionVector _ _ _ _
  · exact .bind (er_mlift (er_read _)) fun _ => .bind (er_motionVector _ _ _ _) fun _ =>
      .bind (er_mlift (er_read _)) fun _ => er_motionVector _ _ _ _
theorem er_codedBlockPattern (cf : Nat) : BR.Er V0 (codedBlockPattern cf) := ⟨mv_codedBlockPattern cf, fun s e s' hs => by
  unfold codedBlockPattern decodeCbp at hs
  cases h : huffDecode cbpTable s with
  | mk r s1 =>
    rw [h] at hs
    cases r
    · dsimp only at hs; split at hs <;> cases hs
    · dsimp only at hs
      split at hs
      · cases hs
      · cases hs; exact (er_huffDecode _).er s _ _ h
    · cases hs
    · cases hs⟩
theorem er_copySkipped (e : PicEnv) (row : Nat) (addr : Option Nat) (incr : Nat) :
    Go.Er V0 MB.br (copySkipped e row addr incr) := ⟨mv_copySkipped e row addr incr, fun s x s' hs => by
  unfold copySkipped at hs
  cases addr with
  | none => cases hs
  | some a =>
    dsimp only at hs
    split at hs
    · split at hs
      · exact (Go.Er.bind (.orPanic (pframeCopy row (a + 1) (incr - 1) s.frame e.past)) fun f => .modify fun _ => rfl :
          Go.Er V0 MB.br (orPanic (pframeCopy row (a + 1) (incr - 1) s.frame e.past) >>= fun f => Go.modify fun s => { s with frame := f })).er s _ _ hs
      · split at hs
        · exact (Go.Er.bind (.orPanic (bframeCopy e s.mvd row (a + 1) (incr - 1) s.frame)) fun f => .modify fun _ => rfl :
          Go.Er V0 MB.br (orPanic (bframeCopy e s.mvd row (a + 1) (incr - 1) s.frame) >>= fun f => Go.modify fun s => { s with frame := f })).er s _ _ hs
        · cases hs
    · cases hs⟩
theorem er_dctTail : ∀ y, BR.Er V0 (dctTail y)
  | .eob => .pure _
  | .escape => .bind (er_read _) fun _ => .bind er_read1 fun _ => .bind (er_read _) fun _ => .pure _
  | .coef _ _ => .bind er_read1 fun _ => .pure _
theorem er_coeffLoop (one : Bool) : ∀ (fuel n : Nat) (b : Block), BR.Er V0 (coeffLoop one fuel n b)
  | 0, _, _ => .hang
  | fuel + 1, n, b => by
    unfold coeffLoop
    refine .bind (.bind (er_huffDecode _) fun _ => er_dctTail _) fun ev => ?_
    cases ev with
    | eob => exact .pure _
    | coef run level => exact .ite (er_coeffLoop one fuel _ _) .panic
theorem er_readBlock (b : Block) (p : DcPred) (format cc : Nat) (intra : Bool) : BR.Er V0 (readBlock b p format cc intra) := by
  unfold readBlock
  refine .ite ?_ ?_
  · refine .bind (.bind (er_huffDecode _) fun _ => .bind (er_read _) fun _ => .pure _) fun _ => ?_
    exact .bind (er_coeffLoop _ _ _ _) fun _ => .pure _
  · exact .bind (er_coeffLoop _ _ _ _) fun _ => .pure _
theorem er_mbBlock (e : PicEnv) (intra coded : Bool) (i : Nat) (b : Block) : Go.Er V0 MB.br (mbBlock e intra coded i b) :=
  ⟨mv_mbBlock e intra coded i b, fun s x s' hs => by
  unfold mbBlock at hs
  cases coded with
  | false => cases hs
  | true =>
    rw [if_pos rfl] at hs
    have := (er_readBlock b s.dcp e.pce.intraVLCFormat (colorChannel i) intra).er s.br
    cases h : readBlock b s.dcp e.pce.intraVLCFormat (colorChannel i) intra s.br with
    | mk r s1 =>
      rw [h] at hs
      cases r with
      | ok a => cases hs
      | err y => cases hs; exact this _ _ h
      | panic => cases hs
      | hang => cases hs⟩
theorem er_mbBlocks (e : PicEnv) (intra dct : Bool) (coded : Nat → Bool) (addr row : Nat) :
    ∀ k i b, Go.Er V0 MB.br (mbBlocks e intra dct coded addr row k i b)
  | 0, _, _ => .pure _
  | k + 1, i, b => .bind (er_mbBlock _ _ _ _ _) fun _ => .bind .get fun _ => .bind (.orPanic _) fun _ =>
      .bind (.modify fun _ => rfl) fun _ => er_mbBlocks e intra dct coded addr row k _ _
theorem er_mbFinish (e : PicEnv) (row a : Nat) (m : Mode) (cbp : Nat) : Go.Er V0 MB.br (mbFinish e row a m cbp) :=
  .bind (er_mbBlocks _ _ _ _ _ _ _ _ _) fun _ => .pure _
theorem er_mbPattern (e : PicEnv) (row a : Nat) (m : Mode) : Go.Er V0 MB.br (mbPattern e row a m) := by
  unfold mbPattern
  refine .ite ⟨?_, fun s x s' hs => ?_⟩ (er_mbFinish _ _ _ _ _)
  · intro s
    have := mv_mlift (mv_codedBlockPattern e.se.chromaFormat) s
    unfold mbCoded
    cases h : MB.lift (codedBlockPattern e.se.chromaFormat) s with
    | mk r s' =>
      rw [h] at this
      cases r with
      | ok c => exact this.trans (mv_mbFinish e row a m c s')
      | err x => exact this
      | panic => exact this
      | hang => exact this
  have := mv_mlift (mv_codedBlockPattern e.se.chromaFormat) s
  unfold mbCoded at hs
  cases h : MB.lift (codedBlockPattern e.se.chromaFormat) s with
  | mk r s1 =>
    rw [h] at this hs
    cases r with
    | ok c => exact ((er_mbFinish e row a m c).er s1 x s' hs).imp id fun ⟨g1, g2⟩ => ⟨this.says g1, g2.of_moves this⟩
    | err y => cases hs
    | panic => cases hs
    | hang => cases hs
theorem er_mbVectors (e : PicEnv) (m : Mode) : Go.Er V0 MB.br (mbVectors e m) := by
  unfold mbVectors
  exact .bind (.opt (.bind (er_mlift (er_read _)) fun _ => .modify fun _ => rfl)) fun _ =>
    .bind (.opt (er_motionVectors _ _ _)) fun _ => .bind (.opt (er_motionVectors _ _ _)) fun _ =>
    .bind (.modify fun _ => rfl) fun _ => .opt (er_mlift er_markerBit)

theorem er_mbRest (e : PicEnv) (row : Nat) (addr : Option Nat) (incr : Nat) : Go.Er V0 MB.br (mbRest e row addr incr) := by
  unfold mbRest
  exact .bind (er_copySkipped _ _ _ _) fun _ => .bind (.modify fun _ => rfl) fun _ =>
    .bind (er_mlift (er_macroblockMode e)) fun _ => .bind (.modify fun _ => rfl) fun _ =>
    .bind (er_mbVectors _ _) fun _ => er_mbPattern _ _ _ _
theorem er_macroblock (e : PicEnv) (row : Nat) (addr : Option Nat) : Go.Er V0 MB.br (macroblock e row addr) := by
  rw [macroblock_eq]; exact .bind (er_mlift er_mbIncrement) fun _ => er_mbRest _ _ _ _
theorem er_mbLoop (e : PicEnv) (row : Nat) : ∀ f addr, Go.Er V0 MB.br (mbLoop e row f addr)
  | 0, _ => .hang
  | f + 1, addr => .bind (er_macroblock _ _ _) fun _ => .bind (er_mlift (er_peek _)) fun _ =>
      .ite (.pure _) (er_mbLoop e row f _)
theorem er_sliceHeader (v : Nat) : BR.Er V0 (sliceHeader v) := by unfold sliceHeader; er_steps
theorem er_slice (e : PicEnv) : Go.Er V0 MB.br (slice e) := by
  unfold slice
  exact .bind (er_mlift (er_read _)) fun _ => .bind .check fun _ => .bind .get fun _ => .ite .panic
    (.bind (er_mlift (er_sliceHeader _)) fun _ => .bind (.modify fun _ => rfl) fun _ =>
      .bind (⟨fun s => (er_mbLoop e _ _ _).mv s, fun s => (er_mbLoop e _ _ _).er s⟩) fun _ => er_mlift er_nextStartCode)
theorem er_sliceLoop (e : PicEnv) : ∀ f, Go.Er V0 MB.br (sliceLoop e f)
  | 0 => .hang
  | f + 1 => .bind (er_slice e) fun _ => .bind (er_mlift (er_peek _)) fun _ => .ite (er_sliceLoop e f) (.pure _)

theorem er_pictureData : Go.Er V0 VS.br pictureData := ⟨mv_pictureData, fun s x s' hs => by
  unfold pictureData at hs
  split at hs
  · rename_i sh se ph pce _ _ _ _
    dsimp only at hs
    generalize (⟨sh, se, ph, pce, s.qm, s.fs.past, s.fs.future⟩ : PicEnv) = e at hs
    generalize hm : (⟨s.br, DcPred.reset pce.intraDCPrecision, MVD.init, 0,
      createFrameBuffer s.size.1.toNat s.size.2.toNat se.chromaFormat⟩ : MB) = m at hs
    have hb : m.br = s.br := by rw [← hm]
    have h1 := (Go.Er.bind (er_sliceLoop e (fuelOf s.br)) fun _ => er_mlift er_nextStartCode :
      Go.Er V0 MB.br (do sliceLoop e (fuelOf s.br); MB.lift nextStartCode)).er m
    generalize hr : (do sliceLoop e (fuelOf s.br); MB.lift nextStartCode : Go MB Unit) m = r at hs h1
    obtain ⟨r, s1⟩ := r
    cases r with
    | ok a => cases hs
    | err y => cases hs; have := h1 _ _ rfl; rw [hb] at this; exact this
    | panic => cases hs
    | hang => cases hs
  · cases hs⟩

theorem er_pictureStep : Go.Er V0 VS.br pictureStep := by
  unfold pictureStep
  refine .bind .get fun s => ?_
  cases s.ph with
  | none => exact .panic
  | some ph =>
    exact .bind (.modify fun _ => rfl) fun _ => .bind er_pictureData fun _ =>
      .bind (.modify fun s => by split <;> rfl) fun _ => .pure _
theorem er_groupHeader (f : Nat) : Go.Er V0 VS.br (groupHeader f) := by
  unfold groupHeader
  exact .bind (er_vlift (er_peek _)) fun _ => .opt (.bind (er_vlift (er_readGOPHeader.mono (by decide))) fun _ =>
    .bind (.modify fun _ => rfl) fun _ => er_extUser 1 f)
theorem er_moreFrames (f : Nat) : Go.Er V0 VS.br (moreFrames f) :=
  .bind (er_groupHeader f) fun _ => .bind (er_pictureHeader.mono (by decide)) fun _ => .bind (er_pictureCodingExtension.mono (by decide)) fun _ =>
    .bind (er_extUser 2 f) fun _ => er_pictureStep
theorem er_continueFrames (f : Nat) : Go.Er V0 VS.br (continueFrames f) :=
  .bind (er_extUser 0 f) fun _ => er_moreFrames f
theorem er_resume (f : Nat) : Go.Er V VS.br (resume f) :=
  .bind (er_vlift (er_peek _)) fun _ => .ite ((er_moreFrames f).mono (by decide)) (.ite (.bind (er_vlift (er_skip _)) fun _ => .throw _)
    (.bind (er_sequenceHeader.mono (by decide)) fun _ => .bind (er_sequenceExtension.mono (by decide)) fun _ => (er_continueFrames f).mono (by decide)))
theorem er_start (f : Nat) : Go.Er V VS.br (start f) :=
  .bind (er_vlift er_nextStartCode) fun _ => .bind (er_sequenceHeader.mono (by decide)) fun _ => .bind (er_vlift (er_peek _)) fun _ =>
    .bind .check fun _ => .bind (er_sequenceExtension.mono (by decide)) fun _ => (er_continueFrames f).mono (by decide)
theorem er_step (f : Nat) : Go.Er V VS.br (step f) := ⟨mv_step f, fun s e s' h => by
  unfold step at h; split at h
  · exact (er_resume f).er s e s' h
  · exact (er_start f).er s e s' h⟩
theorem er_nextLoop (f : Nat) : ∀ k, Go.Er V VS.br (nextLoop f k)
  | 0 => .hang
  | k + 1 => by
    unfold nextLoop
    refine .bind (er_step f) fun _ => .bind .get fun s => ?_
    cases s.ph with
    | none => exact .panic
    | some ph => exact .ite (.bind (.modify fun _ => rfl) fun _ => .pure _) (er_nextLoop f k)

end Video
end Mpeg
