/-
Causality of the parsers and of the decoder.
-/
import Verif.Video.CausLemmas
set_option linter.all false
namespace Mpeg
open HasBR
namespace Video
open _root_.Mpeg.BR

theorem weak_alignIfNeeded : Weak alignIfNeeded := by
  intro s t hp
  unfold alignIfNeeded
  by_cases h : s.isAligned
  · rw [if_pos h, if_pos (show (HasBR.ext s t).isAligned = true from h)]
    exact ⟨hp, .inl rfl⟩
  · rw [if_neg h, if_neg (show ¬ (HasBR.ext s t).isAligned = true from h)]
    exact weak_align s t hp

theorem caus_nscLoop : ∀ f, Caus (nextStartCodeLoop f)
  | 0 => .hang
  | f + 1 => .bind (caus_peek _) fun _ => .ite (.pure _) (.bind (caus_read _) fun _ => .ite (caus_nscLoop f) (.throw _))
theorem le_nscLoop : ∀ f f', f ≤ f' → Go.Le (nextStartCodeLoop f) (nextStartCodeLoop f')
  | 0, _, _ => .hang _
  | f + 1, 0, h => absurd h (by omega)
  | f + 1, f' + 1, h => .bind (.refl _) fun _ => .ite (.refl _) (.bind (.refl _) fun _ =>
      .ite (le_nscLoop f f' (by omega)) (.refl _))
theorem nohang_nscLoop (s : BR) : (nextStartCodeLoop (s.bits.length + 1) s).1 ≠ .hang := by
  have := nscLoop_result s.bits.length s (by omega)
  generalize nextStartCodeLoop (s.bits.length + 1) s = r at this ⊢
  cases this <;> simp
theorem len_ext (s : BR) (t : List Bool) : s.bits.length + 1 ≤ (HasBR.ext s t).bits.length + 1 := by
  show _ ≤ (s.bits ++ t).length + 1
  rw [List.length_append]; omega
theorem caus_nextStartCodeScan : Caus nextStartCodeScan :=
  Caus.fuel caus_nscLoop le_nscLoop len_ext nohang_nscLoop
theorem ends_nextStartCodeScan : Ends nextStartCodeScan := by
  intro s hp hb
  unfold nextStartCodeScan nextStartCodeLoop
  exact (ends_peek (by decide : 0 < 24)).bind s hp hb
theorem caus_nextStartCode : Caus nextStartCode :=
  .weakBind weak_alignIfNeeded (fun _ => caus_nextStartCodeScan) fun _ => ends_nextStartCodeScan
theorem caus_markerBit : Caus markerBit := .bind caus_read1 fun _ => .check
theorem caus_readBytes : ∀ n, Caus (readBytes n)
  | 0 => .pure _
  | n + 1 => .bind (caus_read _) fun _ => .bind (caus_readBytes n) fun _ => .pure _
theorem caus_readMatrix : Caus readMatrix := caus_readBytes 64
theorem caus_extraLoop : ∀ f, Caus (extraInformationLoop f)
  | 0 => .hang
  | f + 1 => .bind (caus_peek _) fun _ => .ite (.bind (caus_skip _) fun _ => .bind (caus_read _) fun _ =>
      .bind (caus_extraLoop f) fun _ => .pure _) (.pure _)
theorem le_extraLoop : ∀ f f', f ≤ f' → Go.Le (extraInformationLoop f) (extraInformationLoop f')
  | 0, _, _ => .hang _
  | f + 1, 0, h => absurd h (by omega)
  | f + 1, f' + 1, h => .bind (.refl _) fun _ => .ite (.bind (.refl _) fun _ => .bind (.refl _) fun _ =>
      .bind (le_extraLoop f f' (by omega)) fun _ => .refl _) (.refl _)
theorem caus_readExtra : Caus readExtraInformation :=
  Caus.fuel caus_extraLoop le_extraLoop len_ext fun s => (safe_extraLoop _ s (by omega)).2
theorem weak_read1OrFalse : Weak read1OrFalse := by
  intro s t hp
  have h := caus_read1 s t hp
  unfold read1OrFalse
  cases hx : read1 s with
  | mk r s' =>
    rw [hx] at h
    obtain ⟨h1, h2⟩ := h
    cases r with
    | ok a =>
      rcases h2 with h2 | ⟨⟨⟩, _⟩
      rw [h2]
      exact ⟨h1, .inl rfl⟩
    | err e =>
      rcases h2 with h2 | h2
      · exact ⟨h1, .inr ⟨trivial, h2.2⟩⟩
      · rw [h2.2]; exact ⟨h1, .inl rfl⟩
    | panic => exact absurd (by rw [hx]) (safe_read1 s).1
    | hang => exact absurd (by rw [hx]) (safe_read1 s).2

macro "caus_steps" : tactic => `(tactic| repeat' with_reducible first
  | refine Caus.bind ?_ (fun _ => ?_)
  | exact Caus.pure _
  | exact Caus.check
  | exact Caus.panic
  | exact Caus.throw _
  | exact caus_read _
  | exact caus_read1
  | exact caus_skip _
  | exact caus_peek _
  | exact caus_codeAssert _ _ _
  | exact caus_markerBit
  | exact caus_nextStartCode
  | exact caus_readMatrix
  | exact caus_readExtra
  | refine Caus.opt ?_
  | refine Caus.map _ ?_
  | refine Caus.ite ?_ ?_)

theorem caus_startCode (c : Nat) : Caus (startCode c) := caus_codeAssert _ _ _
theorem caus_extensionID (c : Nat) : Caus (extensionID c) := caus_codeAssert _ _ _
theorem caus_readSequenceHeader : Caus readSequenceHeader := by
  unfold readSequenceHeader startCode; caus_steps
theorem caus_readSequenceExtension : Caus readSequenceExtension := by
  unfold readSequenceExtension startCode extensionID; caus_steps
theorem caus_readGOPHeader : Caus readGOPHeader := by
  unfold readGOPHeader startCode; caus_steps
theorem caus_readPictureHeader : Caus readPictureHeader := by
  unfold readPictureHeader startCode; caus_steps
theorem caus_readPictureCodingExtension : Caus readPictureCodingExtension := by
  unfold readPictureCodingExtension startCode extensionID; caus_steps
theorem caus_display : Caus readSequenceDisplayExtension := by
  unfold readSequenceDisplayExtension extensionID
  refine .bind (caus_codeAssert _ _ _) fun _ => .bind (caus_read _) fun _ => .weakBind weak_read1OrFalse (fun _ => ?_) fun _ => ?_
  · caus_steps
  · exact .optBind (ends_read (by decide)) fun _ => .optBind (ends_read (by decide)) fun _ =>
      .optBind (ends_read (by decide)) fun _ => .bind (ends_read (by decide))
theorem caus_scalable : Caus readSequenceScalableExtension := by
  unfold readSequenceScalableExtension extensionID; caus_steps
theorem caus_temporal : Caus readPictureTemporalScalableExtension := by
  unfold readPictureTemporalScalableExtension extensionID; caus_steps
theorem caus_userLoop : ∀ f, Caus (userDataLoop f)
  | 0 => .hang
  | f + 1 => .bind (caus_peek _) fun _ => .ite (.pure _) (.bind (caus_read _) fun _ =>
      .bind (caus_userLoop f) fun _ => .pure _)
theorem le_userLoop : ∀ f f', f ≤ f' → Go.Le (userDataLoop f) (userDataLoop f')
  | 0, _, _ => .hang _
  | f + 1, 0, h => absurd h (by omega)
  | f + 1, f' + 1, h => .bind (.refl _) fun _ => .ite (.refl _) (.bind (.refl _) fun _ =>
      .bind (le_userLoop f f' (by omega)) fun _ => .refl _)
theorem caus_userDataBytes : Caus userDataBytes :=
  Caus.fuel caus_userLoop le_userLoop len_ext fun s => (safe_userLoop _ s (by omega)).2
theorem caus_userData : Caus userData :=
  .bind (caus_startCode _) fun _ => .bind caus_userDataBytes fun _ => .bind caus_nextStartCode fun _ => .pure _

theorem caus_storeHeader {α : Type} {m : Go BR α} {put : VS → Option α → VS} (h : Caus m)
    (hp : ∀ s x, (put s x).br = s.br) (he : ∀ (s : VS) t x, put (HasBR.ext s t) x = HasBR.ext (put s x) t) :
    Caus (storeHeader m put) := by
  intro s t hpl
  have h1 := caus_vlift h s t hpl
  unfold storeHeader
  cases hm : VS.lift m s with
  | mk r s' =>
    rw [hm] at h1
    obtain ⟨h1, h2⟩ := h1
    cases r with
    | ok a =>
      rcases h2 with h2 | ⟨⟨⟩, _⟩
      rw [h2]
      simp only [he]
      exact caus_vlift caus_nextStartCode (put s' (some a)) t (by show (put s' (some a)).br.Plain; rw [hp]; exact h1)
    | err e =>
      have hpl' : (put s' none).br.Plain := by rw [hp]; exact h1
      rcases h2 with h2 | h2
      · refine ⟨hpl', .inl ⟨h2.1, ?_⟩⟩
        show (put s' none).br.bits = []
        rw [hp]; exact h2.2
      · rw [h2.2]
        refine ⟨hpl', .inr ⟨h2.1, ?_⟩⟩
        simp only [he]
    | panic =>
      refine ⟨h1, ?_⟩
      generalize VS.lift m (HasBR.ext s t) = y at h2
      obtain ⟨y1, y2⟩ := y
      simp only at h2
      subst h2
      rfl
    | hang =>
      refine ⟨h1, ?_⟩
      generalize VS.lift m (HasBR.ext s t) = y at h2
      obtain ⟨y1, y2⟩ := y
      simp only at h2
      subst h2
      rfl

theorem caus_sequenceHeader : Caus sequenceHeader := by
  unfold sequenceHeader
  exact .bind (caus_vlift caus_readSequenceHeader) fun _ => .modify (fun _ => rfl) fun _ _ => rfl
theorem caus_sequenceExtension : Caus sequenceExtension :=
  caus_storeHeader caus_readSequenceExtension (fun _ _ => rfl) fun _ _ _ => rfl
theorem caus_pictureHeader : Caus pictureHeader :=
  caus_storeHeader caus_readPictureHeader (fun _ _ => rfl) fun _ _ _ => rfl
theorem caus_pictureCodingExtension : Caus pictureCodingExtension :=
  caus_storeHeader caus_readPictureCodingExtension (fun _ _ => rfl) fun _ _ _ => rfl
theorem caus_loadMatrix (set : QMatrices → Matrix → QMatrices) : Caus (loadMatrix set) := by
  unfold loadMatrix
  exact .bind (caus_vlift caus_read1) fun _ => .opt (.bind (caus_vlift caus_readMatrix) fun _ =>
    .modify (fun _ => rfl) fun _ _ => rfl)
theorem ends_loadMatrix (set : QMatrices → Matrix → QMatrices) : Ends (loadMatrix set) := by
  unfold loadMatrix
  exact .bind (ends_vlift ends_read1)
theorem caus_quant : Caus quantMatrixExtension := by
  unfold quantMatrixExtension
  exact .weakBind (Caus.ignoreErr (caus_vlift (caus_extensionID _)))
    (fun _ => .bind (caus_loadMatrix _) fun _ =>
    .bind (caus_loadMatrix _) fun _ => .bind (caus_loadMatrix _) fun _ => .bind (caus_loadMatrix _) fun _ =>
    caus_vlift caus_nextStartCode) fun _ => .bind (ends_loadMatrix _)
theorem caus_body (i : Nat) : Caus (extensionBody i) := by
  unfold extensionBody
  exact .ite (.bind (caus_vlift (caus_peek _)) fun _ =>
      .ite (.bind (caus_vlift caus_display) fun _ => .pure _) (caus_vlift caus_scalable))
    (.ite (.bind (caus_vlift (caus_peek _)) fun _ =>
      .ite caus_quant (.ite .panic (.bind (caus_vlift caus_temporal) fun _ => .pure _)))
      (.pure _))

/-- an error of Skip after a successful Peek of as many bits cannot occur -/
theorem vpeek_ignore {α : Type} (k : Nat) (c : Nat → Prop) [∀ v, Decidable (c v)] (g h : Nat → Go VS α) :
    (VS.lift (peek k) >>= fun v => if c v then Go.ignoreErr (VS.lift (skip k)) >>= fun _ => g v else h v) =
      (VS.lift (peek k) >>= fun v => if c v then VS.lift (skip k) >>= fun _ => g v else h v) := by
  funext s
  by_cases hk : k ≤ s.br.bits.length
  · rw [Go.bind_ok (lift_ok (peek_ok hk)), Go.bind_ok (lift_ok (peek_ok hk))]
    split
    · have h1 : VS.lift (skip k) { s with br := s.br } = (.ok (), { s with br := s.br.adv k }) := lift_ok (skip_ok hk)
      have : Go.ignoreErr (VS.lift (skip k)) { s with br := s.br } = (.ok (), { s with br := s.br.adv k }) := by
        unfold Go.ignoreErr; rw [h1]
      rw [Go.bind_ok this, Go.bind_ok h1]
    · rfl
  · have h1 : VS.lift (peek k) s = (.err s.br.failErr, { s with br := s.br.failTo }) := by
      unfold VS.lift; rw [peek_short (by omega)]
    rw [Go.bind_err h1, Go.bind_err h1]

theorem caus_extensionData (i : Nat) : ∀ f, Caus (extensionData i f)
  | 0 => .hang
  | f + 1 => by
    have h : extensionData i (f + 1) = (VS.lift (peek 32) >>= fun v => if v = extensionStartCode then
        VS.lift (skip 32) >>= fun _ => (extensionBody i >>= fun _ => extensionData i f) else pure ()) := by
      rw [← vpeek_ignore]
      conv => lhs; unfold extensionData
      simp only [extensionDataStep_eq, bind_assoc]
    rw [h]
    exact .bind (caus_vlift (caus_peek _)) fun _ => .ite (.bind (caus_vlift (caus_skip _)) fun _ =>
      .bind (caus_body i) fun _ => caus_extensionData i f) (.pure _)
theorem caus_extUser (i : Nat) : ∀ f, Caus (extensionAndUserData i f)
  | 0 => .hang
  | f + 1 => .bind (caus_vlift (caus_peek _)) fun _ => .ite
      (.ite (.bind (caus_extensionData i f) fun _ => caus_extUser i f) (caus_extUser i f))
      (.ite (.bind (caus_vlift caus_userData) fun _ => caus_extUser i f) (.pure _))

/-! ### macroblocks -/

theorem caus_huffLoop {α : Type} : ∀ (f : Nat) (t : Table α), Caus (huffLoop f t)
  | 0, _ => .hang
  | f + 1, t => by
    unfold huffLoop
    refine .bind caus_read1 fun b => ?_
    cases (t.next b).hit with
    | some v => exact .pure _
    | none => exact .ite (.throw _) (caus_huffLoop f _)
theorem caus_huffDecode {α : Type} (t : Table α) : Caus (huffDecode t) := caus_huffLoop _ t
theorem caus_escapeLoop : ∀ f n, Caus (escapeLoop f n)
  | 0, _ => .hang
  | f + 1, n => by
    unfold escapeLoop
    rw [peek_ignore]
    exact .bind (caus_peek _) fun _ => .ite (.bind (caus_skip _) fun _ => caus_escapeLoop f _) (.pure _)
theorem le_escapeLoop : ∀ f f' n, f ≤ f' → Go.Le (escapeLoop f n) (escapeLoop f' n)
  | 0, _, _, _ => .hang _
  | f + 1, 0, _, h => absurd h (by omega)
  | f + 1, f' + 1, n, h => .bind (.refl _) fun _ => .ite (.bind (.refl _) fun _ => le_escapeLoop f f' _ (by omega)) (.refl _)
theorem caus_mbIncrement : Caus mbIncrement :=
  .bind (Caus.fuel (loop := fun f => escapeLoop f 0) (fun f => caus_escapeLoop f 0) (fun f f' h => le_escapeLoop f f' 0 h)
    len_ext fun s => (escapeLoop_result _ 0 s (by omega)).1) fun _ => .bind (caus_huffDecode _) fun _ => .pure _
theorem caus_mbType (pct : Nat) : Caus (mbType pct) := by
  unfold mbType
  exact .ite (caus_huffDecode _) (.ite (caus_huffDecode _) (.ite (caus_huffDecode _) .panic))
theorem caus_macroblockMode (e : PicEnv) : Caus (macroblockMode e) := by
  unfold macroblockMode
  refine .bind (caus_mbType _) fun _ => ?_
  caus_steps
theorem caus_readMotion (fc : Nat) : Caus (readMotion fc) := by
  unfold readMotion
  refine .bind (caus_huffDecode _) fun _ => ?_
  caus_steps
theorem caus_motionVectorPart (e : PicEnv) (info : MvInfo) (r s t : Nat) : Caus (motionVectorPart e info r s t) := by
  unfold motionVectorPart
  exact .bind (caus_mlift (caus_readMotion _)) fun _ => .ite .panic (.modify (fun _ => rfl) fun _ _ => rfl)
theorem caus_motionVector (e : PicEnv) (info : MvInfo) (r s : Nat) : Caus (motionVector e info r s) :=
  .bind (caus_motionVectorPart _ _ _ _ _) fun _ => caus_motionVectorPart _ _ _ _ _
theorem caus_motionVectors (e : PicEnv) (s : Nat) (m : Mode) : Caus (motionVectors e s m) := by
  unfold motionVectors
  refine .bind (.orPanic _) fun info => .ite ?_ ?_
  · exact .bind (.opt (caus_mlift (caus_read _))) fun _ => caus_motionVector _ _ _ _
  · exact .bind (caus_mlift (caus_read _)) fun _ => .bind (caus_motionVector _ _ _ _) fun _ =>
      .bind (caus_mlift (caus_read _)) fun _ => caus_motionVector _ _ _ _
theorem caus_codedBlockPattern (cf : Nat) : Caus (codedBlockPattern cf) := by
  intro s t hp
  have h := caus_huffDecode cbpTable s t hp
  unfold codedBlockPattern decodeCbp
  cases hx : huffDecode cbpTable s with
  | mk r s' =>
    rw [hx] at h
    obtain ⟨h1, h2⟩ := h
    have hs := safe_huffDecode (t := cbpTable) (PrefixFree.ne_nil pf_cbp) (by decide) (HasBR.ext s t)
    by_cases hc : cf = 2 ∨ cf = 3
    · simp only [hc, if_true]
      cases r with
      | panic => exact absurd (by rw [hx]) (safe_huffDecode (t := cbpTable) (PrefixFree.ne_nil pf_cbp) (by decide) s).1
      | hang => exact absurd (by rw [hx]) (safe_huffDecode (t := cbpTable) (PrefixFree.ne_nil pf_cbp) (by decide) s).2
      | ok a =>
        refine ⟨h1, ?_⟩
        generalize huffDecode cbpTable (HasBR.ext s t) = y at hs
        obtain ⟨y1, y2⟩ := y
        cases y1 <;> simp_all
      | err a =>
        refine ⟨h1, ?_⟩
        generalize huffDecode cbpTable (HasBR.ext s t) = y at hs
        obtain ⟨y1, y2⟩ := y
        cases y1 <;> simp_all
    · simp only [hc, if_false]
      generalize huffDecode cbpTable (HasBR.ext s t) = y at hs h2
      cases r with
      | ok a =>
        rcases h2 with h2 | ⟨⟨⟩, _⟩
        rw [h2]
        exact ⟨h1, .inl rfl⟩
      | err x =>
        rcases h2 with h2 | h2
        · exact ⟨h1, .inl h2⟩
        · rw [h2.2]; exact ⟨h1, .inr ⟨h2.1, rfl⟩⟩
      | panic => exact absurd h2 hs.1
      | hang => exact absurd h2 hs.2
theorem caus_copySkipped (e : PicEnv) (row : Nat) (addr : Option Nat) (incr : Nat) :
    Caus (copySkipped e row addr incr) := by
  intro s t hp
  unfold copySkipped
  cases addr with
  | none => exact ⟨hp, .inl rfl⟩
  | some a =>
    dsimp only
    split
    · split
      · exact (Caus.bind (.orPanic (pframeCopy row (a + 1) (incr - 1) s.frame e.past)) fun f => .modify (fun _ => rfl) fun _ _ => rfl :
          Caus (orPanic (pframeCopy row (a + 1) (incr - 1) s.frame e.past) >>= fun f => Go.modify fun s => { s with frame := f } : Go MB Unit)) s t hp
      · split
        · exact (Caus.bind (.orPanic (bframeCopy e s.mvd row (a + 1) (incr - 1) s.frame)) fun f => .modify (fun _ => rfl) fun _ _ => rfl :
          Caus (orPanic (bframeCopy e s.mvd row (a + 1) (incr - 1) s.frame) >>= fun f => Go.modify fun s => { s with frame := f } : Go MB Unit)) s t hp
        · exact ⟨hp, .inl rfl⟩
    · exact ⟨hp, .inl rfl⟩
theorem caus_dctTail : ∀ y, Caus (dctTail y)
  | .eob => .pure _
  | .escape => .bind (caus_read _) fun _ => .bind caus_read1 fun _ => .bind (caus_read _) fun _ => .pure _
  | .coef _ _ => .bind caus_read1 fun _ => .pure _
theorem caus_coeffLoop (one : Bool) : ∀ (fuel n : Nat) (b : Block), Caus (coeffLoop one fuel n b)
  | 0, _, _ => .hang
  | fuel + 1, n, b => by
    unfold coeffLoop
    refine .bind (.bind (caus_huffDecode _) fun _ => caus_dctTail _) fun ev => ?_
    cases ev with
    | eob => exact .pure _
    | coef run level => exact .ite (caus_coeffLoop one fuel _ _) .panic
theorem caus_readBlock (b : Block) (p : DcPred) (format cc : Nat) (intra : Bool) : Caus (readBlock b p format cc intra) := by
  unfold readBlock
  refine .ite ?_ ?_
  · refine .bind (.bind (caus_huffDecode _) fun _ => .bind (caus_read _) fun _ => .pure _) fun _ => ?_
    exact .bind (caus_coeffLoop _ _ _ _) fun _ => .pure _
  · exact .bind (caus_coeffLoop _ _ _ _) fun _ => .pure _
theorem caus_mbBlock (e : PicEnv) (intra coded : Bool) (i : Nat) (b : Block) : Caus (mbBlock e intra coded i b) := by
  intro s t hp
  unfold mbBlock
  cases coded with
  | false => exact ⟨hp, .inl rfl⟩
  | true =>
    rw [if_pos rfl, if_pos rfl]
    have h := caus_readBlock b s.dcp e.pce.intraVLCFormat (colorChannel i) intra s.br t hp
    have he : ∀ x, x = readBlock b s.dcp e.pce.intraVLCFormat (colorChannel i) intra (HasBR.ext s.br t) →
      readBlock b (HasBR.ext s t).dcp e.pce.intraVLCFormat (colorChannel i) intra (HasBR.ext s t).br = x := by
      rintro x rfl; rfl
    cases hx : readBlock b s.dcp e.pce.intraVLCFormat (colorChannel i) intra s.br with
    | mk r s' =>
      rw [hx] at h
      obtain ⟨h1, h2⟩ := h
      cases r with
      | ok c =>
        rcases h2 with h2 | ⟨⟨⟩, _⟩
        rw [he _ h2.symm]
        exact ⟨h1, .inl rfl⟩
      | err x =>
        rcases h2 with h2 | h2
        · exact ⟨h1, .inl h2⟩
        · rw [he _ h2.2.symm]; exact ⟨h1, .inr ⟨h2.1, rfl⟩⟩
      | panic =>
        generalize hy : readBlock b s.dcp e.pce.intraVLCFormat (colorChannel i) intra (HasBR.ext s.br t) = y at h2
        obtain ⟨y1, y2⟩ := y
        simp only at h2
        subst h2
        exact ⟨h1, rfl⟩
      | hang =>
        generalize hy : readBlock b s.dcp e.pce.intraVLCFormat (colorChannel i) intra (HasBR.ext s.br t) = y at h2
        obtain ⟨y1, y2⟩ := y
        simp only at h2
        subst h2
        exact ⟨h1, rfl⟩
theorem caus_mbBlocks (e : PicEnv) (intra dct : Bool) (coded : Nat → Bool) (addr row : Nat) :
    ∀ k i b, Caus (mbBlocks e intra dct coded addr row k i b)
  | 0, _, _ => .pure _
  | k + 1, i, b => .bind (caus_mbBlock _ _ _ _ _) fun _ => .getBind (fun _ => .bind (.orPanic _) fun _ =>
      .bind (.modify (fun _ => rfl) fun _ _ => rfl) fun _ => caus_mbBlocks e intra dct coded addr row k _ _) fun _ _ => rfl
theorem caus_mbFinish (e : PicEnv) (row a : Nat) (m : Mode) (cbp : Nat) : Caus (mbFinish e row a m cbp) :=
  .bind (caus_mbBlocks _ _ _ _ _ _ _ _ _) fun _ => .pure _
theorem weak_mbPattern (e : PicEnv) (row a : Nat) (m : Mode) : Weak (mbPattern e row a m) := by
  unfold mbPattern
  split
  case isFalse => exact Caus.weak (caus_mbFinish _ _ _ _ _)
  intro s t hp
  have h := caus_mlift (caus_codedBlockPattern e.se.chromaFormat) s t hp
  unfold mbCoded
  cases hx : MB.lift (codedBlockPattern e.se.chromaFormat) s with
  | mk r s' =>
    rw [hx] at h
    obtain ⟨h1, h2⟩ := h
    cases r with
    | ok c =>
      rcases h2 with h2 | ⟨⟨⟩, _⟩
      rw [h2]
      exact Caus.weak (caus_mbFinish e row a m c) s' t h1
    | err x =>
      rcases h2 with h2 | h2
      · exact ⟨h1, .inr ⟨trivial, h2.2⟩⟩
      · rw [h2.2]; exact ⟨h1, .inl rfl⟩
    | panic =>
      generalize hy : MB.lift (codedBlockPattern e.se.chromaFormat) (HasBR.ext s t) = y at h2
      obtain ⟨y1, y2⟩ := y
      simp only at h2
      subst h2
      exact ⟨h1, rfl⟩
    | hang =>
      generalize hy : MB.lift (codedBlockPattern e.se.chromaFormat) (HasBR.ext s t) = y at h2
      obtain ⟨y1, y2⟩ := y
      simp only at h2
      subst h2
      exact ⟨h1, rfl⟩
theorem caus_mbVectors (e : PicEnv) (m : Mode) : Caus (mbVectors e m) := by
  unfold mbVectors
  exact .bind (.opt (.bind (caus_mlift (caus_read _)) fun _ => .modify (fun _ => rfl) fun _ _ => rfl)) fun _ =>
    .bind (.opt (caus_motionVectors _ _ _)) fun _ => .bind (.opt (caus_motionVectors _ _ _)) fun _ =>
    .bind (.modify (fun _ => rfl) fun _ _ => rfl) fun _ => .opt (caus_mlift caus_markerBit)
theorem weak_mbRest (e : PicEnv) (row : Nat) (addr : Option Nat) (incr : Nat) : Weak (mbRest e row addr incr) := by
  unfold mbRest
  exact Caus.bind' (caus_copySkipped _ _ _ _) fun _ => Caus.bind' (.modify (fun _ => rfl) fun _ _ => rfl) fun _ =>
    Caus.bind' (caus_mlift (caus_macroblockMode e)) fun _ => Caus.bind' (.modify (fun _ => rfl) fun _ _ => rfl) fun _ =>
    Caus.bind' (caus_mbVectors _ _) fun _ => weak_mbPattern _ _ _ _
theorem weak_macroblock (e : PicEnv) (row : Nat) (addr : Option Nat) : Weak (macroblock e row addr) := by
  rw [macroblock_eq]; exact Caus.bind' (caus_mlift caus_mbIncrement) fun _ => weak_mbRest _ _ _ _
theorem caus_mbLoop (e : PicEnv) (row : Nat) : ∀ f addr, Caus (mbLoop e row f addr)
  | 0, _ => .hang
  | f + 1, addr => .weakBind (weak_macroblock _ _ _) (fun _ => .bind (caus_mlift (caus_peek _)) fun _ =>
      .ite (.pure _) (caus_mbLoop e row f _)) fun _ => .bind (ends_mlift (ends_peek (by decide)))
theorem le_mbLoop (e : PicEnv) (row : Nat) : ∀ f f' addr, f ≤ f' → Go.Le (mbLoop e row f addr) (mbLoop e row f' addr)
  | 0, _, _, _ => .hang _
  | f + 1, 0, _, h => absurd h (by omega)
  | f + 1, f' + 1, _, h => .bind (.refl _) fun _ => .bind (.refl _) fun _ => .ite (.refl _) (le_mbLoop e row f f' _ (by omega))
theorem fuelOf_ext (s : BR) (t : List Bool) : fuelOf s ≤ fuelOf (s.ext t) := by
  unfold fuelOf
  show _ ≤ (s.bits ++ t).length + _ + 1
  rw [List.length_append]
  show _ ≤ s.bits.length + t.length + (s.later.map fun x => x.1.length).sum + 1
  omega

theorem caus_mbLoopAll (e : PicEnv) (row : Nat) : Caus (mbLoopAll e row) :=
  Caus.fuel (loop := fun f => mbLoop e row f none) (F := fun s => fuelOf s.br) (fun f => caus_mbLoop e row f none)
    (fun f f' h => le_mbLoop e row f f' none h) (fun s t => fuelOf_ext s.br t) fun s =>
      mbLoop_term e row _ none s (by rw [fuelOf_eq]; omega)
theorem caus_sliceHeader (v : Nat) : Caus (sliceHeader v) := by unfold sliceHeader; caus_steps
theorem caus_slice (e : PicEnv) : Caus (slice e) := by
  unfold slice
  exact .bind (caus_mlift (caus_read _)) fun _ => .bind .check fun _ => .getBind (fun _ => .ite .panic
    (.bind (caus_mlift (caus_sliceHeader _)) fun _ => .bind (.modify (fun _ => rfl) fun _ _ => rfl) fun _ =>
      .bind (caus_mbLoopAll e _) fun _ => caus_mlift caus_nextStartCode)) fun _ _ => rfl
theorem caus_sliceLoop (e : PicEnv) : ∀ f, Caus (sliceLoop e f)
  | 0 => .hang
  | f + 1 => .bind (caus_slice e) fun _ => .bind (caus_mlift (caus_peek _)) fun _ => .ite (caus_sliceLoop e f) (.pure _)
theorem le_sliceLoop (e : PicEnv) : ∀ f f', f ≤ f' → Go.Le (sliceLoop e f) (sliceLoop e f')
  | 0, _, _ => .hang _
  | f + 1, 0, h => absurd h (by omega)
  | f + 1, f' + 1, h => .bind (.refl _) fun _ => .bind (.refl _) fun _ => .ite (le_sliceLoop e f f' (by omega)) (.refl _)
theorem caus_slices (e : PicEnv) : Caus (fun s : MB => (do sliceLoop e (fuelOf s.br); MB.lift nextStartCode : Go MB Unit) s) :=
  Caus.bind (Caus.fuel (loop := sliceLoop e) (F := fun s => fuelOf s.br) (caus_sliceLoop e) (le_sliceLoop e)
    (fun s t => fuelOf_ext s.br t) fun s => sliceLoop_term e _ s (by rw [fuelOf_eq]; omega)) fun _ => caus_mlift caus_nextStartCode

/-- the pictures decoded from given headers -/
def pictureWith (sh : SequenceHeader) (se : SequenceExtension) (ph : PictureHeader) (pce : PictureCodingExtension) :
    Go VS Frame := fun s =>
  match (do sliceLoop ⟨sh, se, ph, pce, s.qm, s.fs.past, s.fs.future⟩ (fuelOf s.br); MB.lift nextStartCode : Go MB Unit)
      ⟨s.br, DcPred.reset pce.intraDCPrecision, MVD.init, 0,
        createFrameBuffer s.size.1.toNat s.size.2.toNat se.chromaFormat⟩ with
  | (.ok _, m') => (.ok m'.frame, { s with br := m'.br })
  | (.err x, m') => (.err x, { s with br := m'.br })
  | (.panic, m') => (.panic, { s with br := m'.br })
  | (.hang, m') => (.hang, { s with br := m'.br })

theorem caus_pictureWith (sh : SequenceHeader) (se : SequenceExtension) (ph : PictureHeader) (pce : PictureCodingExtension) :
    Caus (pictureWith sh se ph pce) := by
  intro s t hp
  have h := caus_slices ⟨sh, se, ph, pce, s.qm, s.fs.past, s.fs.future⟩ ⟨s.br, DcPred.reset pce.intraDCPrecision,
    MVD.init, 0, createFrameBuffer s.size.1.toNat s.size.2.toNat se.chromaFormat⟩ t hp
  unfold pictureWith
  change CRel False t (match (do sliceLoop _ (fuelOf s.br); MB.lift nextStartCode : Go MB Unit) _ with
    | (.ok _, m') => _ | (.err x, m') => _ | (.panic, m') => _ | (.hang, m') => _)
    (match (do sliceLoop _ (fuelOf (s.br.ext t)); MB.lift nextStartCode : Go MB Unit) ⟨s.br.ext t, _, _, _, _⟩ with
    | (.ok _, m') => _ | (.err x, m') => _ | (.panic, m') => _ | (.hang, m') => _)
  change CRel False t ((do sliceLoop _ (fuelOf s.br); MB.lift nextStartCode : Go MB Unit) _)
    ((do sliceLoop _ (fuelOf (s.br.ext t)); MB.lift nextStartCode : Go MB Unit) ⟨s.br.ext t, _, _, _, _⟩) at h
  have e1 : (HasBR.ext s t).size = s.size := rfl
  rw [e1]
  generalize (do sliceLoop _ (fuelOf s.br); MB.lift nextStartCode : Go MB Unit) _ = x at h ⊢
  generalize (do sliceLoop _ (fuelOf (s.br.ext t)); MB.lift nextStartCode : Go MB Unit) _ = y at h ⊢
  obtain ⟨r, m⟩ := x
  obtain ⟨h1, h2⟩ := h
  cases r with
  | ok a =>
    rcases h2 with h2 | ⟨⟨⟩, _⟩
    rw [h2]
    exact ⟨h1, .inl rfl⟩
  | err x =>
    rcases h2 with h2 | h2
    · exact ⟨h1, .inl h2⟩
    · rw [h2.2]; exact ⟨h1, .inr ⟨h2.1, rfl⟩⟩
  | panic =>
    obtain ⟨y1, y2⟩ := y
    simp only at h2
    subst h2
    exact ⟨h1, rfl⟩
  | hang =>
    obtain ⟨y1, y2⟩ := y
    simp only at h2
    subst h2
    exact ⟨h1, rfl⟩

theorem caus_pictureData : Caus pictureData := by
  intro s t hp
  have hd : ∀ s : VS, pictureData s = (match s.sh, s.se, s.ph, s.pce with
    | some sh, some se, some ph, some pce => pictureWith sh se ph pce s
    | _, _, _, _ => (.panic, s)) := fun _ => rfl
  rw [hd, hd]
  change CRel False t _ (match s.sh, s.se, s.ph, s.pce with
    | some sh, some se, some ph, some pce => pictureWith sh se ph pce (HasBR.ext s t)
    | _, _, _, _ => (.panic, HasBR.ext s t))
  cases s.sh <;> cases s.se <;> cases s.ph <;> cases s.pce <;> first
    | exact ⟨hp, rfl⟩
    | exact caus_pictureWith _ _ _ _ s t hp

theorem caus_pictureStep : Caus pictureStep := by
  unfold pictureStep
  refine .getBind (fun s => ?_) fun _ _ => rfl
  cases s.ph with
  | none => exact .panic
  | some ph =>
    exact .bind (.modify (fun _ => rfl) fun _ _ => rfl) fun _ => .bind caus_pictureData fun _ =>
      .bind (.modify (fun s => by split <;> rfl) fun s _ => by split <;> rfl) fun _ => .pure _
theorem caus_groupHeader (f : Nat) : Caus (groupHeader f) := by
  unfold groupHeader
  exact .bind (caus_vlift (caus_peek _)) fun _ => .opt (.bind (caus_vlift caus_readGOPHeader) fun _ =>
    .bind (.modify (fun _ => rfl) fun _ _ => rfl) fun _ => caus_extUser 1 f)
theorem caus_moreFrames (f : Nat) : Caus (moreFrames f) :=
  .bind (caus_groupHeader f) fun _ => .bind caus_pictureHeader fun _ => .bind caus_pictureCodingExtension fun _ =>
    .bind (caus_extUser 2 f) fun _ => caus_pictureStep
theorem caus_continueFrames (f : Nat) : Caus (continueFrames f) :=
  .bind (caus_extUser 0 f) fun _ => caus_moreFrames f
theorem caus_resume (f : Nat) : Caus (resume f) :=
  .bind (caus_vlift (caus_peek _)) fun _ => .ite (caus_moreFrames f) (.ite (.bind (caus_vlift (caus_skip _)) fun _ => .throw _)
    (.bind caus_sequenceHeader fun _ => .bind caus_sequenceExtension fun _ => caus_continueFrames f))
theorem caus_start (f : Nat) : Caus (start f) :=
  .bind (caus_vlift caus_nextStartCode) fun _ => .bind caus_sequenceHeader fun _ => .bind (caus_vlift (caus_peek _)) fun _ =>
    .bind .check fun _ => .bind caus_sequenceExtension fun _ => caus_continueFrames f
theorem caus_step (f : Nat) : Caus (step f) := fun s t hp => by
  unfold step
  show CRel False t _ (if s.sh.isSome then _ else _)
  split
  · exact caus_resume f s t hp
  · exact caus_start f s t hp
theorem caus_nextLoop (fuel : Nat) : ∀ k, Caus (nextLoop fuel k)
  | 0 => .hang
  | k + 1 => by
    unfold nextLoop
    refine .bind (caus_step fuel) fun f => .getBind (fun s => ?_) fun _ _ => rfl
    cases s.ph with
    | none => exact .panic
    | some ph => exact .ite (.bind (.modify (fun _ => rfl) fun _ _ => rfl) fun _ => .pure _) (caus_nextLoop fuel k)
theorem caus_next (fuel k : Nat) : Caus (VS.next fuel k) := fun s t hp => by
  unfold VS.next
  cases h : s.fs.tryGet s.frameCounter with
  | some f =>
    exact ⟨hp, .inl rfl⟩
  | none =>
    exact caus_nextLoop fuel k s t hp

end Video
end Mpeg
