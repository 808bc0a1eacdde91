/-
What the decoder does when some start code is missing from its input.
-/
import Verif.Video.Mpeg1Spec
import Verif.Video.NextPanicLemmas
set_option linter.all false
namespace Mpeg.Video
open Spec
open _root_.Mpeg.BR (Took Moves)

variable {C : Nat → Prop}

/-- No code of `C` is in what is left of the input. -/
def Bare (C : Nat → Prop) (br : BR) : Prop := ∀ g ∈ br.bits :: br.later.map (·.1), ∀ v, C v → ¬ Occurs v g

theorem Bare.moves {a b : BR} (h : Bare C a) (m : Moves a b) : Bare C b := by
  intro g hg v hv hO
  obtain ⟨g', hg', j, rfl⟩ := m.segs g hg
  obtain ⟨i, r, hi⟩ := hO
  exact h g' hg' v hv ⟨j + i, r, by rw [← hi, List.drop_drop]⟩

theorem Bare.head {br : BR} (h : Bare C br) {v : Nat} {r : List Bool} (hb : br.bits = bitsOf 32 v ++ r) : ¬ C v := by
  intro hv
  exact h br.bits (by simp) v hv ⟨0, r, by rw [List.drop_zero, hb]⟩

/-- No code of `C` is left, no picture was decoded, and without sequence header codes there is no sequence header. -/
structure Idle (C : Nat → Prop) (s : VS) : Prop where
  bare : Bare C s.br
  f0 : s.fs.f0 = none
  f1 : s.fs.f1 = none
  sh : C 0x1B3 → s.sh = none

theorem Idle.br {s : VS} (h : Idle C s) {br : BR} (m : Moves s.br br) : Idle C { s with br := br } :=
  ⟨h.bare.moves m, h.f0, h.f1, h.sh⟩

theorem idle_lift {α : Type} {m : Go BR α} (hv : BR.Mv m) : Go.Keeps (Idle C) (VS.lift m) := fun s h => h.br (hv s.br)

theorem idle_storeHeader {α : Type} {m : Go BR α} {put : VS → Option α → VS} (hv : BR.Mv m)
    (hp : ∀ s x, Idle C s → Idle C (put s x)) : Go.Keeps (Idle C) (storeHeader m put) := by
  intro s h
  unfold storeHeader
  have h1 := idle_lift hv s h
  generalize VS.lift m s = y at h1
  obtain ⟨r, s'⟩ := y
  cases r with
  | ok a => exact idle_lift mv_nextStartCode _ (hp s' _ h1)
  | err e => exact hp s' _ h1
  | panic => exact h1
  | hang => exact h1

/-- `m` does not succeed. -/
def NeverOk {α : Type} (C : Nat → Prop) (m : Go VS α) : Prop := ∀ s, Idle C s → ∀ a s', m s ≠ (.ok a, s')

theorem storeHeader_never {α : Type} {m : Go BR α} {put : VS → Option α → VS}
    (h : ∀ s, Bare C s → ∀ a s', m s ≠ (.ok a, s')) : NeverOk C (storeHeader m put) := by
  intro s hs a s' hx
  unfold storeHeader VS.lift at hx
  cases hm : m s.br with
  | mk r br =>
    rw [hm] at hx
    cases r with
    | ok b => exact h s.br hs.bare b br hm
    | err e => cases hx
    | panic => cases hx
    | hang => cases hx

theorem readSequenceHeader_never (hC : C 0x1B3) (s : BR) (hs : Bare C s) : ∀ a s', readSequenceHeader s ≠ (.ok a, s') := by
  intro a s' h
  unfold readSequenceHeader at h
  obtain ⟨u, s1, h1, -⟩ := Go.bind_eq_ok h
  exact hs.head (startCode_inv h1).bits hC

theorem readPictureHeader_never (hC : C 0x100) (s : BR) (hs : Bare C s) : ∀ a s', readPictureHeader s ≠ (.ok a, s') := by
  intro a s' h
  unfold readPictureHeader at h
  obtain ⟨u, s1, h1, -⟩ := Go.bind_eq_ok h
  exact hs.head (startCode_inv h1).bits hC

theorem readPictureCodingExtension_never (hC : C 0x1B5) (s : BR) (hs : Bare C s) :
    ∀ a s', readPictureCodingExtension s ≠ (.ok a, s') := by
  intro a s' h
  unfold readPictureCodingExtension at h
  obtain ⟨u, s1, h1, -⟩ := Go.bind_eq_ok h
  exact hs.head (startCode_inv h1).bits hC

theorem readSequenceExtension_never (hC : C 0x1B5) (s : BR) (hs : Bare C s) :
    ∀ a s', readSequenceExtension s ≠ (.ok a, s') := by
  intro a s' h
  unfold readSequenceExtension at h
  obtain ⟨u, s1, h1, -⟩ := Go.bind_eq_ok h
  exact hs.head (startCode_inv h1).bits hC

theorem sequenceHeader_never (hC : C 0x1B3) : NeverOk C sequenceHeader := by
  intro s hs a s' h
  unfold sequenceHeader at h
  obtain ⟨sh, s1, h1, -⟩ := Go.bind_eq_ok h
  unfold VS.lift at h1
  rw [Prod.mk.injEq] at h1
  exact readSequenceHeader_never hC s.br hs.bare sh (readSequenceHeader s.br).2 (by rw [← h1.1])

theorem idle_sequenceHeader : Go.Keeps (Idle C) sequenceHeader := by
  intro s hs
  have h1 := idle_lift (C := C) mv_readSequenceHeader s hs
  by_cases hC : C 0x1B3
  · have hn := sequenceHeader_never hC s hs
    unfold sequenceHeader at hn ⊢
    cases hx : VS.lift readSequenceHeader s with
    | mk r s1 =>
      rw [hx] at h1
      cases r with
      | ok a => rw [Go.bind_ok hx, Go.modify_apply] at hn; exact absurd rfl (hn _ _)
      | err e => rw [Go.bind_err hx]; exact h1
      | panic => rw [Go.bind_panic hx]; exact h1
      | hang => rw [Go.bind_hang hx]; exact h1
  · have : Go.Keeps (Idle C) sequenceHeader := by
      unfold sequenceHeader
      exact .bind (idle_lift mv_readSequenceHeader) fun _ => .modify fun s h => ⟨h.bare, h.f0, h.f1, fun c => absurd c hC⟩
    exact this s hs

theorem idle_sequenceExtension : Go.Keeps (Idle C) sequenceExtension :=
  idle_storeHeader mv_readSequenceExtension fun _ _ h => ⟨h.bare, h.f0, h.f1, h.sh⟩
theorem idle_pictureHeader : Go.Keeps (Idle C) pictureHeader :=
  idle_storeHeader mv_readPictureHeader fun _ _ h => ⟨h.bare, h.f0, h.f1, h.sh⟩
theorem idle_pictureCodingExtension : Go.Keeps (Idle C) pictureCodingExtension :=
  idle_storeHeader mv_readPictureCodingExtension fun _ _ h => ⟨h.bare, h.f0, h.f1, h.sh⟩

theorem idle_loadMatrix (set : QMatrices → Matrix → QMatrices) : Go.Keeps (Idle C) (loadMatrix set) := by
  unfold loadMatrix
  exact .bind (idle_lift BR.mv_read1) fun _ => .opt (.bind (idle_lift mv_readMatrix) fun _ =>
    .modify fun _ h => ⟨h.bare, h.f0, h.f1, h.sh⟩)
theorem idle_quant : Go.Keeps (Idle C) quantMatrixExtension := by
  unfold quantMatrixExtension
  exact .bind (.ignoreErr (idle_lift (mv_extensionID _))) fun _ => .bind (idle_loadMatrix _) fun _ =>
    .bind (idle_loadMatrix _) fun _ => .bind (idle_loadMatrix _) fun _ => .bind (idle_loadMatrix _) fun _ =>
    idle_lift mv_nextStartCode
theorem idle_body (i : Nat) : Go.Keeps (Idle C) (extensionBody i) := by
  unfold extensionBody
  exact .ite (.bind (idle_lift (BR.mv_peek _)) fun _ => .ite (.bind (idle_lift mv_display) fun _ => .pure _)
      (idle_lift mv_scalable))
    (.ite (.bind (idle_lift (BR.mv_peek _)) fun _ => .ite idle_quant (.ite .panic (.bind (idle_lift mv_temporal) fun _ =>
      .pure _))) (.pure _))
theorem idle_extensionData (i : Nat) : ∀ f, Go.Keeps (Idle C) (extensionData i f)
  | 0 => .hang
  | f + 1 => .bind (idle_lift (BR.mv_peek _)) fun _ => .ite (.bind (by
      rw [extensionDataStep_eq]
      exact .bind (.ignoreErr (idle_lift (BR.mv_skip _))) fun _ => idle_body i) fun _ => idle_extensionData i f) (.pure _)
theorem idle_extUser (i : Nat) : ∀ f, Go.Keeps (Idle C) (extensionAndUserData i f)
  | 0 => .hang
  | f + 1 => .bind (idle_lift (BR.mv_peek _)) fun _ => .ite
      (.ite (.bind (idle_extensionData i f) fun _ => idle_extUser i f) (idle_extUser i f))
      (.ite (.bind (idle_lift mv_userData) fun _ => idle_extUser i f) (.pure _))
theorem idle_groupHeader (f : Nat) : Go.Keeps (Idle C) (groupHeader f) := by
  unfold groupHeader
  exact .bind (idle_lift (BR.mv_peek _)) fun _ => .opt (.bind (idle_lift mv_readGOPHeader) fun _ => .bind
    (.modify fun s h => ⟨h.bare, by show s.fs.f0.map _ = none; rw [h.f0]; rfl, by show s.fs.f1.map _ = none; rw [h.f1]; rfl, h.sh⟩)
    fun _ => idle_extUser 1 f)

/-- `m` does not succeed, and keeps the decoder idle. -/
def Dud {α : Type} (C : Nat → Prop) (m : Go VS α) : Prop := NeverOk C m ∧ Go.Keeps (Idle C) m

namespace Dud
variable {α β : Type}
theorem stop {m : Go VS α} {f : α → Go VS β} (hm : Dud C m) : Dud C (m >>= f) := by
  constructor
  · intro s hs b s' h
    obtain ⟨a, s1, h1, -⟩ := Go.bind_eq_ok h
    exact hm.1 s hs a s1 h1
  · intro s hs
    have h1 := hm.2 s hs
    cases hx : m s with
    | mk r s1 =>
      rw [hx] at h1
      cases r with
      | ok a => exact absurd hx (hm.1 s hs a s1)
      | err e => rw [Go.bind_err hx]; exact h1
      | panic => rw [Go.bind_panic hx]; exact h1
      | hang => rw [Go.bind_hang hx]; exact h1
theorem bind {m : Go VS α} {f : α → Go VS β} (hm : Go.Keeps (Idle C) m) (hf : ∀ a, Dud C (f a)) : Dud C (m >>= f) := by
  refine ⟨?_, .bind hm fun a => (hf a).2⟩
  intro s hs b s' h
  obtain ⟨a, s1, h1, h⟩ := Go.bind_eq_ok h
  have := hm s hs
  rw [h1] at this
  exact (hf a).1 s1 this b s' h
theorem ite {c : Prop} [Decidable c] {m n : Go VS α} (hm : Dud C m) (hn : Dud C n) : Dud C (if c then m else n) := by
  split <;> assumption
theorem throw (e : Err) : Dud C (Go.throw e : Go VS α) := ⟨(fun s hs a s' h => by cases h), .throw e⟩
theorem hang : Dud C (Go.hang : Go VS α) := ⟨(fun s hs a s' h => by cases h), .hang⟩
theorem panic : Dud C (Go.panic : Go VS α) := ⟨(fun s hs a s' h => by cases h), .panic⟩
end Dud

theorem slice_never (hC : ∀ v, 0x101 ≤ v → v ≤ 0x1AF → C v) (e : PicEnv) (m : MB) (hm : Bare C m.br) (u : Unit) (m' : MB) :
    slice e m ≠ (.ok u, m') := by
  intro h
  unfold slice at h
  obtain ⟨v, s1, h1, h⟩ := Go.bind_eq_ok h
  obtain ⟨u, s2, h2, -⟩ := Go.bind_eq_ok h
  cases hi : isSlice v with
  | false => rw [hi] at h2; cases h2
  | true =>
    unfold MB.lift at h1
    rw [Prod.mk.injEq] at h1
    have hx : BR.read 32 m.br = (.ok v, (BR.read 32 m.br).2) := by rw [← h1.1]
    have := PS.read_inv_bits hx
    unfold isSlice at hi
    simp only [Bool.and_eq_true, decide_eq_true_eq] at hi
    exact hm.head this.1.bits (hC v hi.1 hi.2)

theorem pictureData_never (hC : ∀ v, 0x101 ≤ v → v ≤ 0x1AF → C v) (s : VS) (hs : Bare C s.br) (f : Frame) (s' : VS) :
    pictureData s ≠ (.ok f, s') := by
  intro h
  unfold pictureData at h
  split at h
  · dsimp only at h
    split at h
    · rename_i m' hx
      obtain ⟨u, m1, h1, -⟩ := Go.bind_eq_ok hx
      have hpos : ∃ n, fuelOf s.br = n + 1 := ⟨fuelOf s.br - 1, by unfold fuelOf; omega⟩
      obtain ⟨n, hn⟩ := hpos
      rw [hn] at h1
      unfold sliceLoop at h1
      obtain ⟨u, m2, h2, -⟩ := Go.bind_eq_ok h1
      exact slice_never hC _ _ (by exact hs) _ _ h2
    · cases h
    · cases h
    · cases h
  · cases h

theorem dud_pictureStep (hC : ∀ v, 0x101 ≤ v → v ≤ 0x1AF → C v) : Dud C pictureStep := by
  have key : ∀ s, Idle C s → (∀ a s', pictureStep s ≠ (.ok a, s')) ∧ Idle C (pictureStep s).2 := by
    intro s hs
    unfold pictureStep
    rw [Go.bind_ok (Go.get_apply s)]
    cases hph : s.ph with
    | none => exact ⟨fun a s' h => (by cases h), hs⟩
    | some ph =>
      dsimp only
      rw [Go.bind_ok (Go.modify_apply ..)]
      have h0 : Idle C { s with fs := s.fs.set ph.temporalReference } :=
        ⟨hs.bare, (set_slots ..).1.trans hs.f0, (set_slots ..).2.trans hs.f1, hs.sh⟩
      have hn := pictureData_never hC _ h0.bare
      have hmv := mv_pictureData { s with fs := s.fs.set ph.temporalReference }
      obtain ⟨br, hd⟩ := pictureData_state { s with fs := s.fs.set ph.temporalReference }
      cases hx : pictureData { s with fs := s.fs.set ph.temporalReference } with
      | mk r s1 =>
        rw [hx] at hd hmv hn
        have h1 : Idle C s1 := by
          dsimp only at hd
          rw [hd] at hmv ⊢
          exact h0.br hmv
        cases r with
        | ok f => exact absurd rfl (hn f s1)
        | err e => rw [Go.bind_err hx]; exact ⟨fun a s' h => (by cases h), h1⟩
        | panic => rw [Go.bind_panic hx]; exact ⟨fun a s' h => (by cases h), h1⟩
        | hang => rw [Go.bind_hang hx]; exact ⟨fun a s' h => (by cases h), h1⟩
  exact ⟨fun s hs => (key s hs).1, fun s hs => (key s hs).2⟩

/-- The codes without which no picture is decoded. -/
def Vital (C : Nat → Prop) : Prop := C 0x1B3 ∨ C 0x1B5 ∨ C 0x100 ∨ ∀ v, 0x101 ≤ v → v ≤ 0x1AF → C v

theorem dud_moreFrames (f : Nat) (h : C 0x1B5 ∨ C 0x100 ∨ ∀ v, 0x101 ≤ v → v ≤ 0x1AF → C v) : Dud C (moreFrames f) := by
  unfold moreFrames
  refine .bind (idle_groupHeader f) fun _ => ?_
  rcases h with h | h | h
  · exact .bind idle_pictureHeader fun _ => .stop
      ⟨storeHeader_never (readPictureCodingExtension_never h), idle_pictureCodingExtension⟩
  · exact .stop ⟨storeHeader_never (readPictureHeader_never h), idle_pictureHeader⟩
  · exact .bind idle_pictureHeader fun _ => .bind idle_pictureCodingExtension fun _ => .bind (idle_extUser 2 f) fun _ =>
      dud_pictureStep h

theorem dud_step (f : Nat) (h : Vital C) : Dud C (step f) := by
  have key : ∀ s, Idle C s → (∀ a s', step f s ≠ (.ok a, s')) ∧ Idle C (step f s).2 := by
    intro s hs
    unfold step
    rcases h with h | h
    · rw [hs.sh h, if_neg (by simp)]
      have : Dud C (start f) := by
        unfold start
        exact .bind (idle_lift mv_nextStartCode) fun _ => .stop ⟨sequenceHeader_never h, idle_sequenceHeader⟩
      exact ⟨this.1 s hs, this.2 s hs⟩
    · have hm := dud_moreFrames f h
      have hc : Dud C (continueFrames f) := by
        unfold continueFrames
        exact .bind (idle_extUser 0 f) fun _ => hm
      have h1 : Dud C (resume f) := by
        unfold resume
        exact .bind (idle_lift (BR.mv_peek _)) fun v => .ite hm (.ite (.bind (idle_lift (BR.mv_skip _)) fun _ => .throw _)
          (.bind idle_sequenceHeader fun _ => .bind idle_sequenceExtension fun _ => hc))
      have h2 : Dud C (start f) := by
        unfold start
        exact .bind (idle_lift mv_nextStartCode) fun _ => .bind idle_sequenceHeader fun _ =>
          .bind (idle_lift (BR.mv_peek _)) fun v => .bind .check fun _ => .bind idle_sequenceExtension fun _ => hc
      split
      · exact ⟨h1.1 s hs, h1.2 s hs⟩
      · exact ⟨h2.1 s hs, h2.2 s hs⟩
  exact ⟨fun s hs => (key s hs).1, fun s hs => (key s hs).2⟩

theorem idle_quiet {s : VS} (h : Idle C s) : s.fs.tryGet s.frameCounter = none := by
  rw [← Quiet, quiet_iff, h.f0, h.f1]
  exact ⟨rfl, rfl⟩

theorem dud_next (f k : Nat) (h : Vital C) : Dud C (VS.next f k) := by
  have hl : Dud C (nextLoop f k) := by
    cases k with
    | zero => exact .hang
    | succ k => unfold nextLoop; exact .stop (dud_step f h)
  have hx : ∀ s, Idle C s → VS.next f k s = nextLoop f k s := by
    intro s hs
    unfold VS.next
    rw [idle_quiet hs]
  constructor
  · intro s hs
    rw [hx s hs]
    exact hl.1 s hs
  · intro s hs
    rw [hx s hs]
    exact hl.2 s hs

/-! ### without extensions there are no panics -/

/-- `m` does not panic. -/
def Calm {α : Type} (C : Nat → Prop) (m : Go VS α) : Prop := ∀ s, Idle C s → (m s).1 ≠ .panic

namespace Calm
variable {α β : Type}
theorem safe {m : Go VS α} (h : Go.Safe m) : Calm C m := fun s _ => (h s).1
theorem bind {m : Go VS α} {f : α → Go VS β} (hm : Calm C m) (hk : Go.Keeps (Idle C) m) (hf : ∀ a, Calm C (f a)) :
    Calm C (m >>= f) := by
  intro s hs h
  cases hx : (m >>= f) s with
  | mk r p =>
    rw [hx] at h
    dsimp only at h
    subst h
    rcases bind_panic_state hx with h1 | ⟨a, s1, h1, h2⟩
    · exact hm s hs (by rw [h1])
    · have := hk s hs
      rw [h1] at this
      exact hf a s1 this (by rw [h2])
theorem stop {m : Go VS α} {f : α → Go VS β} (hm : Calm C m) (hn : NeverOk C m) : Calm C (m >>= f) := by
  intro s hs h
  cases hx : (m >>= f) s with
  | mk r p =>
    rw [hx] at h
    dsimp only at h
    subst h
    rcases bind_panic_state hx with h1 | ⟨a, s1, h1, h2⟩
    · exact hm s hs (by rw [h1])
    · exact hn s hs a s1 h1
theorem pure (a : α) : Calm C (Pure.pure a : Go VS α) := fun s _ h => by cases h
theorem throw (e : Err) : Calm C (Go.throw e : Go VS α) := fun s _ h => by cases h
theorem hang : Calm C (Go.hang : Go VS α) := fun s _ h => by cases h
theorem ite {c : Prop} [Decidable c] {m n : Go VS α} (hm : Calm C m) (hn : Calm C n) : Calm C (if c then m else n) := by
  split <;> assumption
theorem opt {c : Bool} {d : α} {m : Go VS α} (hm : Calm C m) : Calm C (Go.opt c d m) := by
  cases c
  · exact .pure _
  · exact hm
theorem check {c : Bool} {e : Err} : Calm C (Go.check c e : Go VS Unit) := by
  cases c
  · exact .throw _
  · exact .pure _
end Calm

theorem calm_peek {β : Type} {f : Nat → Go VS β} (hf : ∀ v, ¬ C v → Calm C (f v)) : Calm C (VS.lift (BR.peek 32) >>= f) := by
  intro s hs
  cases hx : VS.lift (BR.peek 32) s with
  | mk r s1 =>
    cases r with
    | ok v =>
      rw [Go.bind_ok hx]
      obtain ⟨rfl, -, r, hr⟩ := peek_bits hx
      exact hf v (hs.bare.head hr) s1 hs
    | err e => rw [Go.bind_err hx]; exact fun h => (by cases h)
    | panic => exact absurd (by rw [hx]) (safe_vlift (BR.safe_peek 32) s).1
    | hang => exact absurd (by rw [hx]) (safe_vlift (BR.safe_peek 32) s).2

theorem calm_extUser (hC : C 0x1B5) (i : Nat) : ∀ f, Calm C (extensionAndUserData i f)
  | 0 => .hang
  | f + 1 => by
    unfold extensionAndUserData
    refine calm_peek fun v hv => ?_
    rw [if_neg (show ¬ v = extensionStartCode from fun h => hv (h ▸ hC))]
    exact .ite (.bind (.safe (safe_vlift safe_userData)) (idle_lift mv_userData) fun _ => calm_extUser hC i f) (.pure _)

theorem calm_groupHeader (hC : C 0x1B5) (f : Nat) : Calm C (groupHeader f) := by
  unfold groupHeader
  refine .bind (.safe (safe_vlift (BR.safe_peek _))) (idle_lift (BR.mv_peek _)) fun _ => .opt (.bind
    (.safe (safe_vlift safe_readGOPHeader)) (idle_lift mv_readGOPHeader) fun _ => .bind (fun s _ h => by cases h)
    (.modify fun s h => ⟨h.bare, by show s.fs.f0.map _ = none; rw [h.f0]; rfl, by show s.fs.f1.map _ = none; rw [h.f1]; rfl, h.sh⟩)
    fun _ => calm_extUser hC 1 f)

theorem calm_moreFrames (hC : C 0x1B5) (f : Nat) : Calm C (moreFrames f) := by
  unfold moreFrames
  exact .bind (calm_groupHeader hC f) (idle_groupHeader f) fun _ =>
    .bind (.safe (safe_storeHeader safe_readPictureHeader)) idle_pictureHeader fun _ =>
    .stop (.safe (safe_storeHeader safe_readPictureCodingExtension))
      (storeHeader_never (readPictureCodingExtension_never hC))

theorem calm_step (hC : C 0x1B5) (f : Nat) : Calm C (step f) := by
  have hs : ∀ {β : Type} (g : Unit → Go VS β), Calm C (sequenceExtension >>= g) := fun g =>
    .stop (.safe (safe_storeHeader safe_readSequenceExtension)) (storeHeader_never (readSequenceExtension_never hC))
  have h1 : Calm C (resume f) := by
    unfold resume
    exact .bind (.safe (safe_vlift (BR.safe_peek _))) (idle_lift (BR.mv_peek _)) fun v => .ite (calm_moreFrames hC f)
      (.ite (.bind (.safe (safe_vlift (BR.safe_skip _))) (idle_lift (BR.mv_skip _)) fun _ => .throw _)
        (.bind (.safe safe_sequenceHeader) idle_sequenceHeader fun _ => hs _))
  have h2 : Calm C (start f) := by
    unfold start
    exact .bind (.safe (safe_vlift safe_nextStartCode)) (idle_lift mv_nextStartCode) fun _ =>
      .bind (.safe safe_sequenceHeader) idle_sequenceHeader fun _ =>
      .bind (.safe (safe_vlift (BR.safe_peek _))) (idle_lift (BR.mv_peek _)) fun v => .bind .check .check fun _ => hs _
  intro s hi
  unfold step
  split
  · exact h1 s hi
  · exact h2 s hi

theorem calm_next (hC : C 0x1B5) (f k : Nat) : Calm C (VS.next f k) := by
  intro s hs
  unfold VS.next
  rw [idle_quiet hs]
  show (nextLoop f k s).1 ≠ .panic
  cases k with
  | zero => exact fun h => (by cases h)
  | succ k =>
    unfold nextLoop
    exact Calm.stop (calm_step hC f) (dud_step f (.inr (.inl hC))).1 s hs

end Mpeg.Video
