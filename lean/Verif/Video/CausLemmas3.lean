/-
The end of the input is final, and the outcomes of consecutive calls.
-/
import Verif.Video.CausLemmas2
import Verif.Video.CausSpec
set_option linter.all false
namespace Mpeg
/-- `m` keeps `P`, whatever its result -/
def Go.Keeps {σ α : Type} (P : σ → Prop) (m : Go σ α) : Prop := ∀ s, P s → P (m s).2
namespace Go.Keeps
variable {σ α β : Type} {P : σ → Prop}
theorem pure (a : α) : Go.Keeps P (Pure.pure a : Go σ α) := fun s h => h
theorem throw (e : Err) : Go.Keeps P (Go.throw e : Go σ α) := fun s h => h
theorem panic : Go.Keeps P (Go.panic : Go σ α) := fun s h => h
theorem hang : Go.Keeps P (Go.hang : Go σ α) := fun s h => h
theorem get : Go.Keeps P (Go.get : Go σ σ) := fun s h => h
theorem modify {f : σ → σ} (h : ∀ s, P s → P (f s)) : Go.Keeps P (Go.modify f) := h
theorem bind {m : Go σ α} {f : α → Go σ β} (hm : Go.Keeps P m) (hf : ∀ a, Go.Keeps P (f a)) : Go.Keeps P (m >>= f) := by
  intro s hs
  have h1 := hm s hs
  rw [Go.bind_apply]
  cases h : m s with
  | mk r s' =>
    rw [h] at h1
    cases r with
    | ok a => exact hf a s' h1
    | err e => exact h1
    | panic => exact h1
    | hang => exact h1
theorem opt {c : Bool} {d : α} {m : Go σ α} (hm : Go.Keeps P m) : Go.Keeps P (Go.opt c d m) := by
  cases c
  · exact .pure _
  · exact hm
theorem ite {c : Prop} [Decidable c] {m m' : Go σ α} (hm : Go.Keeps P m) (hm' : Go.Keeps P m') :
    Go.Keeps P (if c then m else m') := by split <;> assumption
theorem check {c : Bool} {e : Err} : Go.Keeps P (Go.check c e : Go σ Unit) := by
  cases c
  · exact .throw _
  · exact .pure _
theorem ignoreErr {m : Go σ α} (hm : Go.Keeps P m) : Go.Keeps P (Go.ignoreErr m) := by
  intro s hs
  have h1 := hm s hs
  unfold Go.ignoreErr
  cases h : m s with
  | mk r s' => rw [h] at h1; cases r <;> exact h1
end Go.Keeps

open HasBR
namespace Video
open Spec

/-- no picture waits to be displayed -/
def Quiet (s : VS) : Prop := s.fs.tryGet s.frameCounter = none

theorem quiet_iff (s : VS) : Quiet s ↔ RefFrame.matches s.fs.f0 s.frameCounter = none ∧
    RefFrame.matches s.fs.f1 s.frameCounter = none := by
  unfold Quiet FrameStore.tryGet
  cases RefFrame.matches s.fs.f0 s.frameCounter <;> simp

theorem quiet_lift {α : Type} (m : Go BR α) : Go.Keeps Quiet (VS.lift m) := fun s h => h
theorem quiet_storeHeader {α : Type} {m : Go BR α} {put : VS → Option α → VS} (hp : ∀ s x, Quiet s → Quiet (put s x)) :
    Go.Keeps Quiet (storeHeader m put) := by
  intro s h
  unfold storeHeader
  have h1 := quiet_lift m s h
  generalize VS.lift m s = y at h1
  obtain ⟨r, s'⟩ := y
  cases r with
  | ok a => exact quiet_lift nextStartCode _ (hp s' _ h1)
  | err e => exact hp s' _ h1
  | panic => exact h1
  | hang => exact h1
theorem quiet_sequenceHeader : Go.Keeps Quiet sequenceHeader := by
  unfold sequenceHeader
  exact .bind (quiet_lift _) fun _ => .modify fun _ h => h
theorem quiet_sequenceExtension : Go.Keeps Quiet sequenceExtension := quiet_storeHeader fun _ _ h => h
theorem quiet_pictureHeader : Go.Keeps Quiet pictureHeader := quiet_storeHeader fun _ _ h => h
theorem quiet_pictureCodingExtension : Go.Keeps Quiet pictureCodingExtension := quiet_storeHeader fun _ _ h => h
theorem quiet_loadMatrix (set : QMatrices → Matrix → QMatrices) : Go.Keeps Quiet (loadMatrix set) := by
  unfold loadMatrix
  exact .bind (quiet_lift _) fun _ => .opt (.bind (quiet_lift _) fun _ => .modify fun _ h => h)
theorem quiet_quant : Go.Keeps Quiet quantMatrixExtension := by
  unfold quantMatrixExtension
  exact .bind (.ignoreErr (quiet_lift _)) fun _ => .bind (quiet_loadMatrix _) fun _ =>
    .bind (quiet_loadMatrix _) fun _ => .bind (quiet_loadMatrix _) fun _ => .bind (quiet_loadMatrix _) fun _ => quiet_lift _
theorem quiet_body (i : Nat) : Go.Keeps Quiet (extensionBody i) := by
  unfold extensionBody
  exact .ite (.bind (quiet_lift _) fun _ => .ite (.bind (quiet_lift _) fun _ => .pure _) (quiet_lift _))
    (.ite (.bind (quiet_lift _) fun _ => .ite quiet_quant (.ite .panic (.bind (quiet_lift _) fun _ => .pure _))) (.pure _))
theorem quiet_extensionData (i : Nat) : ∀ f, Go.Keeps Quiet (extensionData i f)
  | 0 => .hang
  | f + 1 => .bind (quiet_lift _) fun _ => .ite (.bind (by
      rw [extensionDataStep_eq]
      exact .bind (.ignoreErr (quiet_lift _)) fun _ => quiet_body i) fun _ => quiet_extensionData i f) (.pure _)
theorem quiet_extUser (i : Nat) : ∀ f, Go.Keeps Quiet (extensionAndUserData i f)
  | 0 => .hang
  | f + 1 => .bind (quiet_lift _) fun _ => .ite
      (.ite (.bind (quiet_extensionData i f) fun _ => quiet_extUser i f) (quiet_extUser i f))
      (.ite (.bind (quiet_lift _) fun _ => quiet_extUser i f) (.pure _))
theorem matches_marked (r : Option RefFrame) (n : Nat) :
    RefFrame.matches (r.map fun r => { r with previousGOP := true }) n = none := by
  cases r <;> simp [RefFrame.matches]
theorem quiet_groupHeader (f : Nat) : Go.Keeps Quiet (groupHeader f) := by
  unfold groupHeader
  exact .bind (quiet_lift _) fun _ => .opt (.bind (quiet_lift _) fun _ => .bind (.modify fun s _ => by
    rw [quiet_iff]; exact ⟨matches_marked _ _, matches_marked _ _⟩) fun _ => quiet_extUser 1 f)

theorem setOne_slots (fs : FrameStore) (r : Option RefFrame) (tr : Nat) :
    (fs.setOne r tr).f0 = fs.f0 ∧ (fs.setOne r tr).f1 = fs.f1 := by
  unfold FrameStore.setOne
  cases r with
  | none => exact ⟨rfl, rfl⟩
  | some r => dsimp only; split <;> exact ⟨rfl, rfl⟩
theorem set_slots (fs : FrameStore) (tr : Nat) : (fs.set tr).f0 = fs.f0 ∧ (fs.set tr).f1 = fs.f1 := by
  unfold FrameStore.set
  have h1 := setOne_slots fs fs.f0 tr
  have h2 := setOne_slots (fs.setOne fs.f0 tr) fs.f1 tr
  exact ⟨h2.1.trans h1.1, h2.2.trans h1.2⟩

theorem pictureData_rest (s : VS) : (pictureData s).2.fs = s.fs ∧ (pictureData s).2.frameCounter = s.frameCounter ∧
    (pictureData s).2.ph = s.ph := by
  have hd : pictureData s = (match s.sh, s.se, s.ph, s.pce with
    | some sh, some se, some ph, some pce => pictureWith sh se ph pce s
    | _, _, _, _ => (.panic, s)) := rfl
  rw [hd]
  have hw : ∀ sh se ph pce, (pictureWith sh se ph pce s).2.fs = s.fs ∧
      (pictureWith sh se ph pce s).2.frameCounter = s.frameCounter ∧ (pictureWith sh se ph pce s).2.ph = s.ph := by
    intro sh se ph pce
    unfold pictureWith
    split <;> exact ⟨rfl, rfl, rfl⟩
  split
  · exact hw _ _ _ _
  · exact ⟨rfl, rfl, rfl⟩

/-- Whatever the result: either nothing waits, or the picture just decoded is the one to display. -/
def QuietOr {α : Type} (x : Res α × VS) : Prop :=
  Quiet x.2 ∨ ((∃ f, x.1 = .ok f) ∧ ∃ ph, x.2.ph = some ph ∧ ph.temporalReference = x.2.frameCounter)

theorem QuietOr.bind {α β : Type} {m : Go VS α} {f : α → Go VS β} (hm : Go.Keeps Quiet m)
    (hf : ∀ a s, Quiet s → QuietOr (f a s)) {s : VS} (hs : Quiet s) : QuietOr ((m >>= f) s) := by
  have h1 := hm s hs
  rw [Go.bind_apply]
  cases h : m s with
  | mk r s' =>
    rw [h] at h1
    cases r with
    | ok a => exact hf a s' h1
    | err e => exact .inl h1
    | panic => exact .inl h1
    | hang => exact .inl h1

theorem quiet_pictureStep (s : VS) (hs : Quiet s) : QuietOr (pictureStep s) := by
  unfold pictureStep
  rw [Go.bind_ok (Go.get_apply s)]
  cases hph : s.ph with
  | none => exact .inl hs
  | some ph =>
    dsimp only
    rw [Go.bind_ok (Go.modify_apply ..)]
    have hd := pictureData_rest { s with fs := s.fs.set ph.temporalReference }
    have hq : Quiet { s with fs := s.fs.set ph.temporalReference } := by
      rw [quiet_iff] at hs ⊢
      obtain ⟨h1, h2⟩ := set_slots s.fs ph.temporalReference
      simp only [h1, h2]
      exact hs
    have hq1 : Quiet (pictureData { s with fs := s.fs.set ph.temporalReference }).2 := by
      unfold Quiet at hq ⊢
      rw [hd.1, hd.2.1]; exact hq
    cases hx : pictureData { s with fs := s.fs.set ph.temporalReference } with
    | mk r s1 =>
      rw [hx] at hd hq1
      cases r with
      | ok f =>
        rw [Go.bind_ok hx, Go.bind_ok (Go.modify_apply ..), Go.pure_apply]
        split
        · by_cases he : ph.temporalReference = s1.frameCounter
          · refine .inr ⟨⟨f, rfl⟩, ph, ?_, he⟩
            show s1.ph = some ph
            rw [hd.2.2]; exact hph
          · left
            rw [quiet_iff] at hq1 ⊢
            refine ⟨hq1.2, ?_⟩
            show RefFrame.matches (some ⟨f, ph.temporalReference, false⟩) s1.frameCounter = none
            simp [RefFrame.matches, he]
        · exact .inl hq1
      | err e => rw [Go.bind_err hx]; exact .inl hq1
      | panic => rw [Go.bind_panic hx]; exact .inl hq1
      | hang => rw [Go.bind_hang hx]; exact .inl hq1

theorem quiet_moreFrames (f : Nat) (s : VS) (hs : Quiet s) : QuietOr (moreFrames f s) := by
  unfold moreFrames
  exact .bind (quiet_groupHeader f) (fun _ s hs => .bind quiet_pictureHeader (fun _ s hs =>
    .bind quiet_pictureCodingExtension (fun _ s hs => .bind (quiet_extUser 2 f) (fun _ s hs => quiet_pictureStep s hs) hs) hs) hs) hs
theorem quiet_continueFrames (f : Nat) (s : VS) (hs : Quiet s) : QuietOr (continueFrames f s) := by
  unfold continueFrames
  exact .bind (quiet_extUser 0 f) (fun _ s hs => quiet_moreFrames f s hs) hs
theorem quiet_resume (f : Nat) (s : VS) (hs : Quiet s) : QuietOr (resume f s) := by
  unfold resume
  refine .bind (quiet_lift _) (fun v s hs => ?_) hs
  split
  · exact quiet_moreFrames f s hs
  · split
    · exact .inl ((Go.Keeps.bind (quiet_lift _) fun _ => .throw _ : Go.Keeps Quiet (VS.lift (BR.skip 32) >>= fun _ => (Go.throw .eos : Go VS Frame))) s hs)
    · exact .bind quiet_sequenceHeader (fun _ s hs => .bind quiet_sequenceExtension (fun _ s hs =>
        quiet_continueFrames f s hs) hs) hs
theorem quiet_start (f : Nat) (s : VS) (hs : Quiet s) : QuietOr (start f s) := by
  unfold start
  exact .bind (quiet_lift _) (fun _ s hs => .bind quiet_sequenceHeader (fun _ s hs => .bind (quiet_lift _) (fun _ s hs =>
    .bind .check (fun _ s hs => .bind quiet_sequenceExtension (fun _ s hs => quiet_continueFrames f s hs) hs) hs) hs) hs) hs
theorem quiet_step (f : Nat) (s : VS) (hs : Quiet s) : QuietOr (step f s) := by
  unfold step
  split
  · exact quiet_resume f s hs
  · exact quiet_start f s hs

theorem quiet_nextLoop (fuel : Nat) : ∀ (k : Nat) (s s' : VS) (e : Err), Quiet s → nextLoop fuel k s = (.err e, s') → Quiet s'
  | 0, s, s', e, _, h => by cases h
  | k + 1, s, s', e, hs, h => by
    unfold nextLoop at h
    have h1 := quiet_step fuel s hs
    cases hx : step fuel s with
    | mk r s1 =>
      rw [hx] at h1
      cases r with
      | ok f =>
        rw [Go.bind_ok hx, Go.bind_ok (Go.get_apply s1)] at h
        cases hph : s1.ph with
        | none => rw [hph] at h; cases h
        | some ph =>
          rw [hph] at h
          dsimp only at h
          split at h
          · rw [Go.bind_ok (Go.modify_apply ..)] at h; cases h
          · rename_i hne
            refine quiet_nextLoop fuel k s1 s' e ?_ h
            rcases h1 with h1 | ⟨_, ph', h2, h3⟩
            · exact h1
            · rw [hph] at h2; cases h2; exact absurd h3 hne
      | err x =>
        rw [Go.bind_err hx] at h
        cases h
        rcases h1 with h1 | ⟨⟨f, h1⟩, _⟩
        · exact h1
        · cases h1
      | panic => rw [Go.bind_panic hx] at h; cases h
      | hang => rw [Go.bind_hang hx] at h; cases h

theorem quiet_next {fuel k : Nat} {s s' : VS} {e : Err} (h : VS.next fuel k s = (.err e, s')) : Quiet s' := by
  unfold VS.next at h
  cases hw : s.fs.tryGet s.frameCounter with
  | some f => rw [hw] at h; cases h
  | none => rw [hw] at h; exact quiet_nextLoop fuel k s s' e hw h

/-- At the end of the input, when nothing waits, `Next` reports `io.EOF` and stays there. -/
theorem next_atEnd {fuel k : Nat} (hk : 0 < k) {s : VS} (hp : s.br.Plain) (hb : s.br.bits = []) (hq : Quiet s) :
    ∃ s', VS.next fuel k s = (.err .eof, s') ∧ s'.br.Plain ∧ s'.br.bits = [] ∧ Quiet s' := by
  have hfe : ∀ b : BR, b.Plain → b.bits = [] → b.failErr = .eof := by
    intro b h1 h2; unfold BR.failErr; rw [h2]; exact h1.1
  have hstep : ∃ s', step fuel s = (.err .eof, s') ∧ s'.br.Plain ∧ s'.br.bits = [] := by
    unfold step
    split
    · refine ⟨{ s with br := s.br.failTo }, ?_, BR.plain_failTo hp, BR.failTo_bits hp⟩
      unfold resume
      have : VS.lift (BR.peek 32) s = (.err .eof, { s with br := s.br.failTo }) := by
        unfold VS.lift; rw [BR.peek_short (by rw [hb]; decide), hfe _ hp hb]
      rw [Go.bind_err this]
    · obtain ⟨b, hb1, hb2, hb3⟩ : ∃ b, alignIfNeeded s.br = (.ok (), b) ∧ b.Plain ∧ b.bits = [] := by
        unfold alignIfNeeded
        split
        · exact ⟨_, rfl, hp, hb⟩
        · exact ⟨_, rfl, hp, by show s.br.bits.drop _ = []; rw [hb]; exact List.drop_nil⟩
      refine ⟨{ s with br := b.failTo }, ?_, BR.plain_failTo hb2, BR.failTo_bits hb2⟩
      unfold start
      have : nextStartCode s.br = (.err .eof, b.failTo) := by
        unfold nextStartCode
        rw [Go.bind_ok hb1]
        unfold nextStartCodeScan nextStartCodeLoop
        have := BR.peek_short (s := b) (k := 24) (by rw [hb3]; decide)
        rw [hfe _ hb2 hb3] at this
        exact Go.bind_err this
      have : VS.lift nextStartCode s = (.err .eof, { s with br := b.failTo }) := by unfold VS.lift; rw [this]
      rw [Go.bind_err this]
  obtain ⟨s', h1, h2, h3⟩ := hstep
  have hn : VS.next fuel k s = (.err .eof, s') := by
    unfold VS.next
    rw [show s.fs.tryGet s.frameCounter = none from hq]
    obtain ⟨k, rfl⟩ : ∃ j, k = j + 1 := ⟨k - 1, by omega⟩
    show nextLoop fuel (k + 1) s = _
    unfold nextLoop
    rw [Go.bind_err h1]
  exact ⟨s', hn, h2, h3, quiet_next hn⟩

theorem outcomes_atEnd {fuel k : Nat} (hk : 0 < k) : ∀ (n : Nat) (s : VS), s.br.Plain → s.br.bits = [] → Quiet s →
    outcomes fuel k n s = List.replicate n (.err .eof)
  | 0, _, _, _, _ => rfl
  | n + 1, s, hp, hb, hq => by
    obtain ⟨s', h1, h2, h3, h4⟩ := next_atEnd (fuel := fuel) hk hp hb hq
    unfold outcomes
    rw [h1]
    show _ :: outcomes fuel k n s' = _
    rw [outcomes_atEnd hk n s' h2 h3 h4]; rfl

theorem next_end {fuel k : Nat} {s s' : VS} {e : Err} (hp : s.br.Plain) (h : VS.next fuel k s = (.err e, s')) (he : IsEnd e) :
    s'.br.Plain ∧ s'.br.bits = [] ∧ Quiet s' := by
  have h1 := caus_next fuel k s [] hp
  rw [h] at h1
  obtain ⟨h1, h2⟩ := h1
  rcases h2 with h2 | h2
  · exact ⟨h1, h2.2, quiet_next h⟩
  · exact absurd he h2.1

theorem outcomes_trunc {fuel k : Nat} (hk : 0 < k) (t : List Bool) : ∀ (n : Nat) (s : VS), s.br.Plain →
    outcomes fuel k n s = outcomes fuel k n { s with br := s.br.ext t } ∨
    ∃ P e m, IsEnd e ∧ (∀ e', .err e' ∈ P → ¬ IsEnd e') ∧ outcomes fuel k n s = P ++ .err e :: List.replicate m (.err .eof) ∧
      P <+: outcomes fuel k n { s with br := s.br.ext t }
  | 0, _, _ => .inl rfl
  | n + 1, s, hp => by
    have h := caus_next fuel k s t hp
    unfold outcomes
    cases hx : VS.next fuel k s with
    | mk r s' =>
      rw [hx] at h
      obtain ⟨h1, h2⟩ := h
      cases r with
      | ok f =>
        rcases h2 with h2 | ⟨⟨⟩, _⟩
        change VS.next fuel k { s with br := s.br.ext t } = (.ok f, { s' with br := s'.br.ext t }) at h2
        rw [h2]
        rcases outcomes_trunc (fuel := fuel) hk t n s' h1 with h3 | ⟨P, e, m, h3, h4, h5, h6⟩
        · exact .inl (by simp only [h3])
        · refine .inr ⟨.ok f :: P, e, m, h3, ?_, by simp only [h5, List.cons_append], ?_⟩
          · intro e' h7
            rw [List.mem_cons] at h7
            rcases h7 with h7 | h7
            · cases h7
            · exact h4 e' h7
          · exact List.cons_prefix_cons.mpr ⟨rfl, h6⟩
      | err x =>
        rcases h2 with h2 | ⟨h2, h2'⟩
        · refine .inr ⟨[], x, n, h2.1, by simp, ?_, List.nil_prefix⟩
          show .err x :: outcomes fuel k n s' = _
          rw [outcomes_atEnd hk n s' h1 h2.2 (quiet_next hx)]; rfl
        · change VS.next fuel k { s with br := s.br.ext t } = (.err x, { s' with br := s'.br.ext t }) at h2'
          rw [h2']
          rcases outcomes_trunc (fuel := fuel) hk t n s' h1 with h3 | ⟨P, e, m, h3, h4, h5, h6⟩
          · exact .inl (by simp only [h3])
          · refine .inr ⟨.err x :: P, e, m, h3, ?_, by simp only [h5, List.cons_append], ?_⟩
            · intro e' h7
              rw [List.mem_cons] at h7
              rcases h7 with h7 | h7
              · cases h7; exact h2
              · exact h4 e' h7
            · exact List.cons_prefix_cons.mpr ⟨rfl, h6⟩
      | panic =>
        left
        change (VS.next fuel k { s with br := s.br.ext t }).1 = .panic at h2
        generalize VS.next fuel k { s with br := s.br.ext t } = y at h2
        obtain ⟨y1, y2⟩ := y
        simp only at h2
        subst h2
        rfl
      | hang =>
        left
        change (VS.next fuel k { s with br := s.br.ext t }).1 = .hang at h2
        generalize VS.next fuel k { s with br := s.br.ext t } = y at h2
        obtain ⟨y1, y2⟩ := y
        simp only at h2
        subst h2
        rfl

end Video
end Mpeg
