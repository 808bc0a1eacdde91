/-
Two decoders on the same bits with different frames in their stores: headers, pictures, `Next`.
-/
import Verif.Video.DriftLemmas
set_option linter.all false
namespace Mpeg.Video
open Spec

section
variable {Q : FrameStore → FrameStore → Prop}

theorem twins_lift {α : Type} (m : Go BR α) : Go.Step (Twins Q) Eq (VS.lift m) (VS.lift m) := by
  intro s t h
  unfold VS.lift
  rw [h.br]
  exact ⟨sameRes_refl _, ⟨rfl, h.sh, h.se, h.gop, h.ph, h.pce, h.qm, h.counter, h.store⟩⟩

theorem storeHeader_handle {α : Type} (m : Go BR α) (put : VS → Option α → VS) : storeHeader m put =
    Near.handle (VS.lift m) (fun a => (Go.modify fun s => put s (some a)) >>= fun _ => VS.lift nextStartCode)
      (fun e => (Go.modify fun s => put s none) >>= fun _ => Go.throw e) := by
  funext s
  unfold storeHeader Near.handle
  cases VS.lift m s with | mk r s' => cases r <;> rfl

theorem twins_storeHeader {α : Type} {m : Go BR α} {put : VS → Option α → VS}
    (hp : ∀ s t x, Twins Q s t → Twins Q (put s x) (put t x)) : Go.Step (Twins Q) Eq (storeHeader m put) (storeHeader m put) := by
  rw [storeHeader_handle]
  exact .handle (twins_lift m) (fun a b h => by cases h; exact .bindEq (.modify fun s t h => hp s t _ h) fun _ => twins_lift _)
    fun e => .bindEq (.modify fun s t h => hp s t _ h) fun _ => .throw e

theorem twins_sequenceHeader : Go.Step (Twins Q) Eq sequenceHeader sequenceHeader :=
  .bindEq (twins_lift _) fun _ => .modify fun s t h => ⟨h.br, rfl, h.se, h.gop, h.ph, h.pce, rfl, h.counter, h.store⟩
theorem twins_sequenceExtension : Go.Step (Twins Q) Eq sequenceExtension sequenceExtension :=
  twins_storeHeader fun s t _ h => ⟨h.br, h.sh, rfl, h.gop, h.ph, h.pce, h.qm, h.counter, h.store⟩
theorem twins_pictureHeader : Go.Step (Twins Q) Eq pictureHeader pictureHeader :=
  twins_storeHeader fun s t _ h => ⟨h.br, h.sh, h.se, h.gop, rfl, h.pce, h.qm, h.counter, h.store⟩
theorem twins_pictureCodingExtension : Go.Step (Twins Q) Eq pictureCodingExtension pictureCodingExtension :=
  twins_storeHeader fun s t _ h => ⟨h.br, h.sh, h.se, h.gop, h.ph, rfl, h.qm, h.counter, h.store⟩
theorem twins_loadMatrix (set : QMatrices → Matrix → QMatrices) : Go.Step (Twins Q) Eq (loadMatrix set) (loadMatrix set) :=
  .bindEq (twins_lift _) fun _ => .opt (.bindEq (twins_lift _) fun _ => .modify fun s t h =>
    ⟨h.br, h.sh, h.se, h.gop, h.ph, h.pce, by dsimp only; rw [h.qm], h.counter, h.store⟩)
theorem twins_quant : Go.Step (Twins Q) Eq quantMatrixExtension quantMatrixExtension :=
  .bindEq (.ignoreErr (twins_lift _)) fun _ => .bindEq (twins_loadMatrix _) fun _ => .bindEq (twins_loadMatrix _) fun _ =>
    .bindEq (twins_loadMatrix _) fun _ => .bindEq (twins_loadMatrix _) fun _ => twins_lift _
theorem twins_body (i : Nat) : Go.Step (Twins Q) Eq (extensionBody i) (extensionBody i) := by
  unfold extensionBody
  exact .ite (.bindEq (twins_lift _) fun _ => .ite (.bindEq (twins_lift _) fun _ => .pure rfl) (twins_lift _))
    (.ite (.bindEq (twins_lift _) fun _ => .ite twins_quant (.ite .panic (.bindEq (twins_lift _) fun _ => .pure rfl))) (.pure rfl))
theorem twins_extensionData (i : Nat) : ∀ f, Go.Step (Twins Q) Eq (extensionData i f) (extensionData i f)
  | 0 => .hang
  | f + 1 => .bindEq (twins_lift _) fun _ => .ite (.bindEq (by
      rw [extensionDataStep_eq]
      exact .bindEq (.ignoreErr (twins_lift _)) fun _ => twins_body i) fun _ => twins_extensionData i f) (.pure rfl)
theorem twins_extUser (i : Nat) : ∀ f, Go.Step (Twins Q) Eq (extensionAndUserData i f) (extensionAndUserData i f)
  | 0 => .hang
  | f + 1 => .bindEq (twins_lift _) fun _ => .ite
      (.ite (.bindEq (twins_extensionData i f) fun _ => twins_extUser i f) (twins_extUser i f))
      (.ite (.bindEq (twins_lift _) fun _ => twins_extUser i f) (.pure rfl))
theorem twins_groupHeader (hQ : ∀ a b, Q a b → Q a.markGOP b.markGOP) (f : Nat) :
    Go.Step (Twins Q) Eq (groupHeader f) (groupHeader f) :=
  .bindEq (twins_lift _) fun _ => .opt (.bindEq (twins_lift _) fun _ => .bindEq (.modify fun s t h =>
    ⟨h.br, h.sh, h.se, rfl, h.ph, h.pce, h.qm, rfl, hQ _ _ h.store⟩) fun _ => twins_extUser 1 f)

/-! ### the headers before a picture -/

def moreHead (fuel : Nat) : Go VS Unit := do
  groupHeader fuel
  pictureHeader
  pictureCodingExtension
  extensionAndUserData 2 fuel
def continueHead (fuel : Nat) : Go VS Unit := do
  extensionAndUserData 0 fuel
  moreHead fuel
def resumeHead (fuel : Nat) : Go VS Unit := do
  let v ← VS.lift (BR.peek 32)
  if v = pictureStartCode ∨ v = groupStartCode then moreHead fuel
  else if v = sequenceEndStartCode then do
    VS.lift (BR.skip 32)
    Go.throw .eos
  else do
    sequenceHeader
    sequenceExtension
    continueHead fuel
def startHead (fuel : Nat) : Go VS Unit := do
  VS.lift nextStartCode
  sequenceHeader
  let v ← VS.lift (BR.peek 32)
  Go.check (v == extensionStartCode) .unsupported11172
  sequenceExtension
  continueHead fuel
/-- what `step` reads before the picture data -/
def stepHead (fuel : Nat) : Go VS Unit := fun s => (if s.sh.isSome then resumeHead fuel else startHead fuel) s

theorem moreFrames_head (fuel : Nat) : moreFrames fuel = moreHead fuel >>= fun _ => pictureStep := by
  unfold moreFrames moreHead
  simp only [bind_assoc]
theorem continueFrames_head (fuel : Nat) : continueFrames fuel = continueHead fuel >>= fun _ => pictureStep := by
  unfold continueFrames continueHead
  simp only [bind_assoc, moreFrames_head]
theorem throw_bind {α β : Type} (e : Err) (f : α → Go VS β) : Go.throw e >>= f = Go.throw e := by
  funext s; rfl
theorem ite_bind {α β : Type} {c : Prop} [Decidable c] (m n : Go VS α) (f : α → Go VS β) :
    (if c then m else n) >>= f = if c then m >>= f else n >>= f := by split <;> rfl
theorem resume_head (fuel : Nat) : resume fuel = resumeHead fuel >>= fun _ => pictureStep := by
  unfold resume resumeHead
  simp only [bind_assoc, ite_bind, throw_bind, moreFrames_head, continueFrames_head]
theorem start_head (fuel : Nat) : start fuel = startHead fuel >>= fun _ => pictureStep := by
  unfold start startHead
  simp only [bind_assoc, continueFrames_head]
theorem step_head (fuel : Nat) : step fuel = stepHead fuel >>= fun _ => pictureStep := by
  funext s
  rw [Go.bind_apply]
  unfold step stepHead
  split
  · rw [resume_head, Go.bind_apply]
  · rw [start_head, Go.bind_apply]

theorem twins_moreHead (hQ : ∀ a b, Q a b → Q a.markGOP b.markGOP) (f : Nat) : Go.Step (Twins Q) Eq (moreHead f) (moreHead f) :=
  .bindEq (twins_groupHeader hQ f) fun _ => .bindEq twins_pictureHeader fun _ => .bindEq twins_pictureCodingExtension fun _ =>
    twins_extUser 2 f
theorem twins_continueHead (hQ : ∀ a b, Q a b → Q a.markGOP b.markGOP) (f : Nat) :
    Go.Step (Twins Q) Eq (continueHead f) (continueHead f) :=
  .bindEq (twins_extUser 0 f) fun _ => twins_moreHead hQ f
theorem twins_stepHead (hQ : ∀ a b, Q a b → Q a.markGOP b.markGOP) (f : Nat) :
    Go.Step (Twins Q) Eq (stepHead f) (stepHead f) := by
  refine Go.Step.byState (f := fun s => if s.sh.isSome then resumeHead f else startHead f)
    (f' := fun s => if s.sh.isSome then resumeHead f else startHead f) fun s t h => ?_
  rw [h.sh]
  exact .ite (.bindEq (twins_lift _) fun _ => .ite (twins_moreHead hQ f) (.ite (.bindEq (twins_lift _) fun _ => .throw _)
      (.bindEq twins_sequenceHeader fun _ => .bindEq twins_sequenceExtension fun _ => twins_continueHead hQ f)))
    (.bindEq (twins_lift _) fun _ => .bindEq twins_sequenceHeader fun _ => .bindEq (twins_lift _) fun _ => .bindEq .check fun _ =>
      .bindEq twins_sequenceExtension fun _ => twins_continueHead hQ f)
end

/-! ### near frames -/

section
variable {D : Nat → Nat}

theorem both_slot_mark {a b : Option RefFrame} (h : Both (SlotNear D) a b) :
    Both (SlotNear D) (a.map fun r => { r with previousGOP := true }) (b.map fun r => { r with previousGOP := true }) :=
  both_map h fun _ _ h => ⟨h.frame, h.temporal, rfl⟩
theorem store_mark (a b : FrameStore) (h : StoreNear D a b) : StoreNear D a.markGOP b.markGOP :=
  ⟨both_slot_mark h.f0, both_slot_mark h.f1, h.past, h.future⟩
theorem store_setOne {a b : FrameStore} (h : StoreNear D a b) {r q : Option RefFrame} (hr : Both (SlotNear D) r q) (tr : Nat) :
    StoreNear D (a.setOne r tr) (b.setOne q tr) := by
  cases hr with
  | none => exact h
  | some hr =>
    unfold FrameStore.setOne
    dsimp only
    rw [hr.gop, hr.temporal]
    split
    · exact ⟨h.f0, h.f1, .some hr.frame, h.future⟩
    · exact ⟨h.f0, h.f1, h.past, .some hr.frame⟩
theorem store_set {a b : FrameStore} (h : StoreNear D a b) (tr : Nat) : StoreNear D (a.set tr) (b.set tr) :=
  store_setOne (store_setOne h h.f0 tr) h.f1 tr
theorem store_add {a b : FrameStore} (h : StoreNear D a b) {f g : Frame} (hf : FrameNear D f g) (tr : Nat) :
    StoreNear D (a.add f tr) (b.add g tr) := ⟨h.f1, .some ⟨hf, rfl, rfl⟩, h.past, h.future⟩
theorem matches_near {r q : Option RefFrame} (h : Both (SlotNear D) r q) (tr : Nat) :
    Both (FrameNear D) (RefFrame.matches r tr) (RefFrame.matches q tr) := by
  cases h with
  | none => exact .none
  | some h =>
    unfold RefFrame.matches
    dsimp only
    rw [h.gop, h.temporal]
    split
    · exact .some h.frame
    · exact .none
theorem tryGet_near {a b : FrameStore} (h : StoreNear D a b) (tr : Nat) : Both (FrameNear D) (a.tryGet tr) (b.tryGet tr) := by
  unfold FrameStore.tryGet
  have h0 := matches_near h.f0 tr
  revert h0
  generalize RefFrame.matches a.f0 tr = x
  generalize RefFrame.matches b.f0 tr = y
  intro h0
  cases h0 with
  | none => exact matches_near h.f1 tr
  | some h0 => exact .some h0

theorem planeNear_refl (d : Nat) (p : Plane) : PlaneNear d p p := ⟨rfl, fun i _ => ⟨by omega, by omega⟩⟩
theorem frameNear_refl (D : Nat → Nat) (f : Frame) : FrameNear D f f :=
  ⟨rfl, rfl, planeNear_refl _ _, planeNear_refl _ _, planeNear_refl _ _⟩

theorem twins_pictureWith (sh : SequenceHeader) (se : SequenceExtension) (ph : PictureHeader) (pce : PictureCodingExtension) :
    Go.Step (Twins (StoreNear D)) (FrameNear D) (pictureWith sh se ph pce) (pictureWith sh se ph pce) := by
  intro s t h
  rw [pictureWith_from, pictureWith_from]
  have hz : startMB se pce s = startMB se pce t := by
    unfold startMB VS.size
    rw [h.br, h.sh, h.se]
  have he := step_slicesOf (D := D) (e := ⟨sh, se, ph, pce, s.qm, s.fs.past, s.fs.future⟩) (p := t.fs.past) (f := t.fs.future)
    ⟨h.store.past, h.store.future⟩ (startMB se pce s) (startMB se pce t) (by rw [hz]; exact ⟨rfl, rfl, rfl, rfl, frameNear_refl _ _⟩)
  unfold PicEnv.refs at he
  dsimp only at he
  rw [show (⟨sh, se, ph, pce, t.qm, t.fs.past, t.fs.future⟩ : PicEnv) = ⟨sh, se, ph, pce, s.qm, t.fs.past, t.fs.future⟩ by rw [h.qm]]
  revert he
  generalize slicesOf ⟨sh, se, ph, pce, s.qm, s.fs.past, s.fs.future⟩ (startMB se pce s) = x
  generalize slicesOf ⟨sh, se, ph, pce, s.qm, t.fs.past, t.fs.future⟩ (startMB se pce t) = y
  rintro ⟨h1, h2⟩
  obtain ⟨r, m⟩ := x
  obtain ⟨r', m'⟩ := y
  have hs : Twins (StoreNear D) { s with br := m.br } { t with br := m'.br } :=
    ⟨h2.br, h.sh, h.se, h.gop, h.ph, h.pce, h.qm, h.counter, h.store⟩
  cases h1 with
  | ok _ => exact ⟨.ok h2.frame, hs⟩
  | err e => exact ⟨.err e, hs⟩
  | panic => exact ⟨.panic, hs⟩
  | hang => exact ⟨.hang, hs⟩

theorem twins_pictureData : Go.Step (Twins (StoreNear D)) (FrameNear D) pictureData pictureData := by
  rw [pictureData_of]
  refine Go.Step.byState fun s t h => ?_
  unfold pictureOf
  rw [h.sh, h.se, h.ph, h.pce]
  cases t.sh <;> cases t.se <;> cases t.ph <;> cases t.pce <;> first
    | exact .panic
    | exact twins_pictureWith _ _ _ _

theorem twins_pictureStep : Go.Step (Twins (StoreNear D)) (FrameNear D) pictureStep pictureStep := by
  unfold pictureStep
  refine .getBind fun s t h => ?_
  rw [h.ph]
  cases t.ph with
  | none => exact .panic
  | some ph =>
    exact .bindEq (.modify fun s t h => ⟨h.br, h.sh, h.se, h.gop, h.ph, h.pce, h.qm, h.counter, store_set h.store _⟩) fun _ =>
      .bind twins_pictureData fun f g hf => .bindEq (.modify fun s t h => by
        split
        · exact ⟨h.br, h.sh, h.se, h.gop, h.ph, h.pce, h.qm, h.counter, store_add h.store hf _⟩
        · exact h) fun _ => .pure hf

theorem twins_step (fuel : Nat) : Go.Step (Twins (StoreNear D)) (FrameNear D) (step fuel) (step fuel) := by
  rw [step_head]
  exact .bindEq (twins_stepHead store_mark fuel) fun _ => twins_pictureStep

theorem twins_nextLoop (fuel : Nat) : ∀ k, Go.Step (Twins (StoreNear D)) (FrameNear D) (nextLoop fuel k) (nextLoop fuel k)
  | 0 => .hang
  | k + 1 => by
    unfold nextLoop
    refine .bind (twins_step fuel) fun f g hf => .getBind fun s t h => ?_
    rw [h.ph, h.counter]
    cases t.ph with
    | none => exact .panic
    | some ph =>
      exact .ite (.bindEq (.modify fun s t h => ⟨h.br, h.sh, h.se, h.gop, h.ph, h.pce, h.qm, by
        unfold VS.count; dsimp only; rw [h.counter], h.store⟩) fun _ => .pure hf) (twins_nextLoop fuel k)

theorem twins_next (fuel k : Nat) : Go.Step (Twins (StoreNear D)) (FrameNear D) (VS.next fuel k) (VS.next fuel k) := by
  intro s t h
  have hg := tryGet_near h.store s.frameCounter
  unfold VS.next
  rw [← h.counter]
  revert hg
  generalize s.fs.tryGet s.frameCounter = x
  generalize t.fs.tryGet s.frameCounter = y
  intro hg
  cases hg with
  | none => exact twins_nextLoop fuel k s t h
  | some hg =>
    exact ⟨.ok hg, ⟨h.br, h.sh, h.se, h.gop, h.ph, h.pce, h.qm, by unfold VS.count; dsimp only; rw [h.counter], h.store⟩⟩
end

end Mpeg.Video
