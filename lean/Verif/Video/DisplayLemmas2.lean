/-
Header fields that decoding does not depend on: headers, pictures, `Next`.
-/
import Verif.Video.BlindLemmas
set_option linter.all false
namespace Mpeg.Video
open Spec _root_.Mpeg.BR

abbrev Blind3 {α : Type} (m : Go VS α) : Prop := Go.Step Alike Eq m m

theorem seqAlike_refl (a : SequenceHeader) : SeqAlike a a := ⟨rfl, rfl⟩
theorem seqExtAlike_refl (a : SequenceExtension) : SeqExtAlike a a := ⟨rfl, rfl, rfl⟩
theorem picAlike_refl (a : PictureHeader) : PicAlike a a := ⟨rfl, rfl⟩
theorem picExtAlike_refl (a : PictureCodingExtension) : PicExtAlike a a := ⟨rfl, rfl, rfl, rfl, rfl, rfl, rfl, rfl, rfl, rfl, rfl⟩
theorem both_refl {α : Type} {R : α → α → Prop} (h : ∀ a, R a a) : ∀ x : Option α, Both R x x
  | none => .none
  | some a => .some (h a)

theorem alike_lift {α : Type} {m : Go BR α} (h : Blind1 m) : Blind3 (VS.lift m) := by
  intro s t r
  obtain ⟨h1, h2⟩ := h _ _ r.br
  exact ⟨h1, ⟨h2, r.sh, r.se, r.ph, r.pce, r.qm, r.store, r.counter⟩⟩
theorem alike_storeHeader {α : Type} {m : Go BR α} {put : VS → Option α → VS} (hm : Blind1 m)
    (hp : ∀ s t x, Alike s t → Alike (put s x) (put t x)) : Blind3 (storeHeader m put) := by
  rw [storeHeader_handle]
  refine .handle (alike_lift hm) (fun a b h => ?_) fun e => ?_
  · cases h
    exact .bindEq (.modify fun s t h => hp s t _ h) fun _ => alike_lift blind_nextStartCode
  · exact .bindEq (.modify fun s t h => hp s t _ h) fun _ => .throw e

theorem alike_sequenceHeader : Blind3 sequenceHeader :=
  .bindEq (alike_lift blind_readSequenceHeader) fun _ => .modify fun s t h =>
    ⟨h.br, both_refl seqAlike_refl _, h.se, h.ph, h.pce, rfl, h.store, h.counter⟩
theorem alike_sequenceExtension : Blind3 sequenceExtension :=
  alike_storeHeader blind_readSequenceExtension fun s t _ h => ⟨h.br, h.sh, both_refl seqExtAlike_refl _, h.ph, h.pce, h.qm, h.store, h.counter⟩
theorem alike_pictureHeader : Blind3 pictureHeader :=
  alike_storeHeader blind_readPictureHeader fun s t _ h => ⟨h.br, h.sh, h.se, both_refl picAlike_refl _, h.pce, h.qm, h.store, h.counter⟩
theorem alike_pictureCodingExtension : Blind3 pictureCodingExtension :=
  alike_storeHeader blind_readPictureCodingExtension fun s t _ h =>
    ⟨h.br, h.sh, h.se, h.ph, both_refl picExtAlike_refl _, h.qm, h.store, h.counter⟩
theorem alike_loadMatrix (set : QMatrices → Matrix → QMatrices) : Blind3 (loadMatrix set) :=
  .bindEq (alike_lift blind_read1) fun _ => .opt (.bindEq (alike_lift blind_readMatrix) fun _ => .modify fun s t h =>
    ⟨h.br, h.sh, h.se, h.ph, h.pce, by dsimp only; rw [h.qm], h.store, h.counter⟩)
theorem alike_quant : Blind3 quantMatrixExtension :=
  .bindEq (.ignoreErr (alike_lift (blind_extensionID _))) fun _ => .bindEq (alike_loadMatrix _) fun _ => .bindEq (alike_loadMatrix _) fun _ =>
    .bindEq (alike_loadMatrix _) fun _ => .bindEq (alike_loadMatrix _) fun _ => alike_lift blind_nextStartCode
theorem alike_body (i : Nat) : Blind3 (extensionBody i) := by
  unfold extensionBody
  exact .ite (.bindEq (alike_lift (blind_peek _)) fun _ => .ite (.bindEq (alike_lift blind_display) fun _ => .pure rfl)
      (alike_lift blind_scalable))
    (.ite (.bindEq (alike_lift (blind_peek _)) fun _ => .ite alike_quant (.ite .panic (.bindEq (alike_lift blind_temporal) fun _ =>
      .pure rfl))) (.pure rfl))
theorem alike_extensionData (i : Nat) : ∀ f, Blind3 (extensionData i f)
  | 0 => .hang
  | f + 1 => .bindEq (alike_lift (blind_peek _)) fun _ => .ite (.bindEq (by
      rw [extensionDataStep_eq]
      exact .bindEq (.ignoreErr (alike_lift (blind_skip _))) fun _ => alike_body i) fun _ => alike_extensionData i f) (.pure rfl)
theorem alike_extUser (i : Nat) : ∀ f, Blind3 (extensionAndUserData i f)
  | 0 => .hang
  | f + 1 => .bindEq (alike_lift (blind_peek _)) fun _ => .ite
      (.ite (.bindEq (alike_extensionData i f) fun _ => alike_extUser i f) (alike_extUser i f))
      (.ite (.bindEq (alike_lift blind_userData) fun _ => alike_extUser i f) (.pure rfl))
theorem alike_groupHeader (f : Nat) : Blind3 (groupHeader f) :=
  .bindEq (alike_lift (blind_peek _)) fun _ => .opt (.bindEq (alike_lift blind_readGOPHeader) fun _ => .bindEq (.modify fun s t h =>
    ⟨h.br, h.sh, h.se, h.ph, h.pce, h.qm, by dsimp only; rw [h.store], rfl⟩) fun _ => alike_extUser 1 f)
theorem alike_moreHead (f : Nat) : Blind3 (moreHead f) :=
  .bindEq (alike_groupHeader f) fun _ => .bindEq alike_pictureHeader fun _ => .bindEq alike_pictureCodingExtension fun _ =>
    alike_extUser 2 f
theorem alike_continueHead (f : Nat) : Blind3 (continueHead f) :=
  .bindEq (alike_extUser 0 f) fun _ => alike_moreHead f
theorem both_isSome {α : Type} {R : α → α → Prop} {x y : Option α} (h : Both R x y) : x.isSome = y.isSome := by cases h <;> rfl
theorem alike_stepHead (f : Nat) : Blind3 (stepHead f) := by
  refine Go.Step.byState (f := fun s => if s.sh.isSome then resumeHead f else startHead f)
    (f' := fun s => if s.sh.isSome then resumeHead f else startHead f) fun s t h => ?_
  rw [both_isSome h.sh]
  exact .ite (.bindEq (alike_lift (blind_peek _)) fun _ => .ite (alike_moreHead f) (.ite (.bindEq (alike_lift (blind_skip _)) fun _ => .throw _)
      (.bindEq alike_sequenceHeader fun _ => .bindEq alike_sequenceExtension fun _ => alike_continueHead f)))
    (.bindEq (alike_lift blind_nextStartCode) fun _ => .bindEq alike_sequenceHeader fun _ => .bindEq (alike_lift (blind_peek _)) fun _ =>
      .bindEq .check fun _ => .bindEq alike_sequenceExtension fun _ => alike_continueHead f)

theorem envAlike_slicesOf {e e' : PicEnv} (h : EnvAlike e e') : slicesOf e = slicesOf e' := by
  funext s
  unfold slicesOf
  rw [envAlike_sliceLoop h]

theorem alike_size {s t : VS} (h : Alike s t) : s.size = t.size := by
  unfold VS.size
  have h1 := h.sh
  have h2 := h.se
  revert h1 h2
  generalize s.sh = a
  generalize t.sh = b
  generalize s.se = c
  generalize t.se = d
  intro h1 h2
  cases h1 with
  | none => rfl
  | some h1 =>
    dsimp only
    cases h2 with
    | none => dsimp only; rw [h1.width, h1.height]
    | some h2 => dsimp only; rw [h1.width, h1.height, h2.width, h2.height]

theorem alike_pictureWith {sh sh' : SequenceHeader} {se se' : SequenceExtension} {ph ph' : PictureHeader}
    {pce pce' : PictureCodingExtension} (h1 : SeqAlike sh sh') (h2 : SeqExtAlike se se') (h3 : PicAlike ph ph')
    (h4 : PicExtAlike pce pce') : Go.Step Alike Eq (pictureWith sh se ph pce) (pictureWith sh' se' ph' pce') := by
  intro s t h
  rw [pictureWith_from, pictureWith_from]
  have hz : MBSame (startMB se pce s) (startMB se' pce' t) := by
    refine ⟨h.br, ?_, rfl, rfl, ?_⟩
    · show DcPred.reset _ = DcPred.reset _; rw [h4.precision]
    · show createFrameBuffer _ _ _ = createFrameBuffer _ _ _
      rw [alike_size h, h2.chroma]
  rw [envAlike_slicesOf (e := ⟨sh, se, ph, pce, s.qm, s.fs.past, s.fs.future⟩) (e' := ⟨sh', se', ph', pce', t.qm, t.fs.past, t.fs.future⟩)
    ⟨h1.height, h2.chroma, h3.kind, h4, h.qm, by show s.fs.past = t.fs.past; rw [h.store], by show s.fs.future = t.fs.future; rw [h.store]⟩]
  have he := blind_slicesOf ⟨sh', se', ph', pce', t.qm, t.fs.past, t.fs.future⟩ _ _ hz
  revert he
  generalize slicesOf ⟨sh', se', ph', pce', t.qm, t.fs.past, t.fs.future⟩ (startMB se pce s) = x
  generalize slicesOf ⟨sh', se', ph', pce', t.qm, t.fs.past, t.fs.future⟩ (startMB se' pce' t) = y
  rintro ⟨k1, k2⟩
  obtain ⟨r, m⟩ := x
  obtain ⟨r', m'⟩ := y
  have hs : Alike { s with br := m.br } { t with br := m'.br } :=
    ⟨k2.br, h.sh, h.se, h.ph, h.pce, h.qm, h.store, h.counter⟩
  cases k1 with
  | ok _ => exact ⟨.ok k2.frame, hs⟩
  | err e => exact ⟨.err e, hs⟩
  | panic => exact ⟨.panic, hs⟩
  | hang => exact ⟨.hang, hs⟩

theorem alike_pictureData : Blind3 pictureData := by
  rw [pictureData_of]
  refine Go.Step.byState fun s t h => ?_
  unfold pictureOf
  have h1 := h.sh
  have h2 := h.se
  have h3 := h.ph
  have h4 := h.pce
  revert h1 h2 h3 h4
  generalize s.sh = a1
  generalize t.sh = b1
  generalize s.se = a2
  generalize t.se = b2
  generalize s.ph = a3
  generalize t.ph = b3
  generalize s.pce = a4
  generalize t.pce = b4
  intro h1 h2 h3 h4
  cases h1 with
  | none => exact .panic
  | some h1 =>
  cases h2 with
  | none => exact .panic
  | some h2 =>
  cases h3 with
  | none => exact .panic
  | some h3 =>
  cases h4 with
  | none => exact .panic
  | some h4 => exact alike_pictureWith h1 h2 h3 h4

theorem alike_pictureStep : Blind3 pictureStep := by
  unfold pictureStep
  refine .getBind fun s t h => ?_
  have h1 := h.ph
  revert h1
  generalize s.ph = a
  generalize t.ph = b
  intro h1
  cases h1 with
  | none => exact .panic
  | some hp =>
    dsimp only
    rw [hp.temporal, hp.kind]
    exact .bindEq (.modify fun s t h => ⟨h.br, h.sh, h.se, h.ph, h.pce, h.qm, by dsimp only; rw [h.store], h.counter⟩) fun _ =>
      .bindEq alike_pictureData fun f => .bindEq (.modify fun s t h => by
        split
        · exact ⟨h.br, h.sh, h.se, h.ph, h.pce, h.qm, by dsimp only; rw [h.store], h.counter⟩
        · exact h) fun _ => .pure rfl

theorem alike_step (fuel : Nat) : Blind3 (step fuel) := by
  rw [step_head]
  exact .bindEq (alike_stepHead fuel) fun _ => alike_pictureStep

/-- the loop of `Next` after a picture -/
def afterPicture (fuel k : Nat) (f : Frame) : Go VS Frame := do
  let s ← Go.get
  match s.ph with
  | none => Go.panic
  | some ph =>
    if ph.temporalReference = s.frameCounter then do
      Go.modify VS.count
      pure f
    else nextLoop fuel k

theorem nextLoop_picture (fuel k : Nat) : nextLoop fuel (k + 1) = step fuel >>= afterPicture fuel k := rfl

mutual
theorem alike_nextLoop (fuel : Nat) : ∀ k, Blind3 (nextLoop fuel k)
  | 0 => .hang
  | k + 1 => by
    rw [nextLoop_picture]
    exact .bindEq (alike_step fuel) fun f => alike_afterPicture fuel k f
theorem alike_afterPicture (fuel : Nat) : ∀ k f, Blind3 (afterPicture fuel k f)
  | k, f => by
    unfold afterPicture
    refine .getBind fun s t h => ?_
    have h1 := h.ph
    rw [h.counter]
    revert h1
    generalize s.ph = a
    generalize t.ph = b
    intro h1
    cases h1 with
    | none => exact .panic
    | some hp =>
      dsimp only
      rw [hp.temporal]
      exact .ite (.bindEq (.modify fun s t h => ⟨h.br, h.sh, h.se, h.ph, h.pce, h.qm, h.store, by
        unfold VS.count; dsimp only; rw [h.counter]⟩) fun _ => .pure rfl) (alike_nextLoop fuel k)
end

theorem alike_next (fuel k : Nat) : Blind3 (VS.next fuel k) := by
  intro s t h
  unfold VS.next
  rw [h.counter, h.store]
  cases t.fs.tryGet t.frameCounter with
  | none => exact alike_nextLoop fuel k s t h
  | some f =>
    exact ⟨.ok rfl, ⟨h.br, h.sh, h.se, h.ph, h.pce, h.qm, h.store, by unfold VS.count; dsimp only; rw [h.counter]⟩⟩

theorem sameRes_eq {α : Type} {x y : Res α} (h : SameRes Eq x y) : x = y := by
  cases h with
  | ok h => rw [h]
  | err e => rfl
  | panic => rfl
  | hang => rfl
theorem blind_of {m : Go BR Unit} (h : PosBlind m) : Blind1 m := fun a b r => by
  obtain ⟨h1, h2⟩ := h a b r
  exact ⟨by rw [h1]; exact sameRes_refl _, h2⟩
theorem of_blind {m : Go BR Unit} (h : Blind1 m) : PosBlind m := fun a b r => ⟨sameRes_eq (h a b r).1, (h a b r).2⟩

end Mpeg.Video
