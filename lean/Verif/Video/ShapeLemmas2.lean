/-
The frames of the frame store and the pictures that `Next` returns.
-/
import Verif.Video.ShapeLemmas
set_option linter.all false
namespace Mpeg.Video
open Spec

/-- a predicate on the frame store alone -/
def OnStore (P : FrameStore → Prop) (s : VS) : Prop := P s.fs

section
variable {P : FrameStore → Prop}
theorem fst_lift {α : Type} (m : Go BR α) : Go.Keeps (OnStore P) (VS.lift m) := fun s h => h
theorem fst_storeHeader {α : Type} {m : Go BR α} {put : VS → Option α → VS} (hp : ∀ s x, (put s x).fs = s.fs) :
    Go.Keeps (OnStore P) (storeHeader m put) := by
  intro s h
  unfold storeHeader
  have h1 := fst_lift (P := P) m s h
  generalize VS.lift m s = y at h1
  obtain ⟨r, s'⟩ := y
  have h2 : ∀ x, OnStore P (put s' x) := by intro x; unfold OnStore; rw [hp]; exact h1
  cases r with
  | ok a => exact fst_lift nextStartCode _ (h2 _)
  | err e => exact h2 _
  | panic => exact h1
  | hang => exact h1
theorem fst_sequenceHeader : Go.Keeps (OnStore P) sequenceHeader := by
  unfold sequenceHeader
  exact .bind (fst_lift _) fun _ => .modify fun _ h => h
theorem fst_sequenceExtension : Go.Keeps (OnStore P) sequenceExtension := fst_storeHeader fun _ _ => rfl
theorem fst_pictureHeader : Go.Keeps (OnStore P) pictureHeader := fst_storeHeader fun _ _ => rfl
theorem fst_pictureCodingExtension : Go.Keeps (OnStore P) pictureCodingExtension := fst_storeHeader fun _ _ => rfl
theorem fst_loadMatrix (set : QMatrices → Matrix → QMatrices) : Go.Keeps (OnStore P) (loadMatrix set) := by
  unfold loadMatrix
  exact .bind (fst_lift _) fun _ => .opt (.bind (fst_lift _) fun _ => .modify fun _ h => h)
theorem fst_quant : Go.Keeps (OnStore P) quantMatrixExtension := by
  unfold quantMatrixExtension
  exact .bind (.ignoreErr (fst_lift _)) fun _ => .bind (fst_loadMatrix _) fun _ =>
    .bind (fst_loadMatrix _) fun _ => .bind (fst_loadMatrix _) fun _ => .bind (fst_loadMatrix _) fun _ => fst_lift _
theorem fst_body (i : Nat) : Go.Keeps (OnStore P) (extensionBody i) := by
  unfold extensionBody
  exact .ite (.bind (fst_lift _) fun _ => .ite (.bind (fst_lift _) fun _ => .pure _) (fst_lift _))
    (.ite (.bind (fst_lift _) fun _ => .ite fst_quant (.ite .panic (.bind (fst_lift _) fun _ => .pure _))) (.pure _))
theorem fst_extensionData (i : Nat) : ∀ f, Go.Keeps (OnStore P) (extensionData i f)
  | 0 => .hang
  | f + 1 => .bind (fst_lift _) fun _ => .ite (.bind (by
      rw [extensionDataStep_eq]
      exact .bind (.ignoreErr (fst_lift _)) fun _ => fst_body i) fun _ => fst_extensionData i f) (.pure _)
theorem fst_extUser (i : Nat) : ∀ f, Go.Keeps (OnStore P) (extensionAndUserData i f)
  | 0 => .hang
  | f + 1 => .bind (fst_lift _) fun _ => .ite
      (.ite (.bind (fst_extensionData i f) fun _ => fst_extUser i f) (fst_extUser i f))
      (.ite (.bind (fst_lift _) fun _ => fst_extUser i f) (.pure _))
theorem fst_groupHeader (hg : ∀ fs, P fs → P fs.markGOP) (f : Nat) : Go.Keeps (OnStore P) (groupHeader f) := by
  unfold groupHeader
  exact .bind (fst_lift _) fun _ => .opt (.bind (fst_lift _) fun _ => .bind (.modify fun s h => hg _ h) fun _ => fst_extUser 1 f)
end

/-- all frames of the frame store -/
def AllFrames (P : Frame → Prop) (fs : FrameStore) : Prop :=
  (∀ r, fs.f0 = some r → P r.frame) ∧ (∀ r, fs.f1 = some r → P r.frame) ∧ (∀ f, fs.past = some f → P f) ∧
    ∀ f, fs.future = some f → P f

theorem AllFrames.mark {P : Frame → Prop} {fs : FrameStore} (h : AllFrames P fs) : AllFrames P fs.markGOP := by
  obtain ⟨h0, h1, h2, h3⟩ := h
  refine ⟨?_, ?_, h2, h3⟩
  · intro r hr
    rw [FrameStore.markGOP, Option.map_eq_some_iff] at hr
    obtain ⟨q, hq, rfl⟩ := hr
    exact h0 q hq
  · intro r hr
    rw [FrameStore.markGOP, Option.map_eq_some_iff] at hr
    obtain ⟨q, hq, rfl⟩ := hr
    exact h1 q hq

theorem AllFrames.setOne {P : Frame → Prop} {fs : FrameStore} (h : AllFrames P fs) {r : Option RefFrame}
    (hr : ∀ q, r = some q → P q.frame) (tr : Nat) : AllFrames P (fs.setOne r tr) := by
  obtain ⟨h0, h1, h2, h3⟩ := h
  unfold FrameStore.setOne
  cases r with
  | none => exact ⟨h0, h1, h2, h3⟩
  | some q =>
    dsimp only
    split
    · exact ⟨h0, h1, fun f hf => by cases hf; exact hr _ rfl, h3⟩
    · exact ⟨h0, h1, h2, fun f hf => by cases hf; exact hr _ rfl⟩

theorem AllFrames.set {P : Frame → Prop} {fs : FrameStore} (h : AllFrames P fs) (tr : Nat) : AllFrames P (fs.set tr) := by
  unfold FrameStore.set
  exact (h.setOne h.1 tr).setOne h.2.1 tr

theorem AllFrames.add {P : Frame → Prop} {fs : FrameStore} (h : AllFrames P fs) {f : Frame} (hf : P f) (tr : Nat) :
    AllFrames P (fs.add f tr) :=
  ⟨h.2.1, fun r hr => by cases hr; exact hf, h.2.2.1, h.2.2.2⟩

theorem AllFrames.tryGet {P : Frame → Prop} {fs : FrameStore} (h : AllFrames P fs) {n : Nat} {f : Frame}
    (hf : fs.tryGet n = some f) : P f := by
  have hm : ∀ r : Option RefFrame, (∀ q, r = some q → P q.frame) → ∀ f, RefFrame.matches r n = some f → P f := by
    intro r hr f h
    cases r with
    | none => cases h
    | some q =>
      unfold RefFrame.matches at h
      dsimp only at h
      split at h
      · cases h; exact hr _ rfl
      · cases h
  unfold FrameStore.tryGet at hf
  cases h0 : RefFrame.matches fs.f0 n with
  | some g => rw [h0] at hf; cases hf; exact hm _ h.1 _ h0
  | none => rw [h0] at hf; exact hm _ h.2.1 _ hf

/-! ### pictures -/

/-- The shape of the pictures: the frame fits a buffer for some size in one of the formats that can be decoded. -/
def Shaped (f : Frame) : Prop := ∃ w h cf, cf ≠ 2 ∧ cf ≠ 3 ∧ (createFrameBuffer w h cf).Fits f

theorem buffer_fits (w h cf : Nat) : (createFrameBuffer w h cf).Fits (createFrameBuffer w h cf) :=
  ⟨rfl, rfl, rfl, rfl, rfl, fun _ => Nat.zero_le _, fun _ => Nat.zero_le _, fun _ => Nat.zero_le _⟩

theorem keep_fits {e : PicEnv} {g : Frame} (hp : ∀ s, e.past = some s → s.Bytes) : FrameKeep e g.Fits where
  pcopy := fun row f f' a n _ hf h => pframeCopy_fits hp hf h
  bcopy := fun row d f f' a n _ hf h => bframeCopy_fits n a hf h
  block := fun _ row addr d b i il f f' hf h => finishBlock_fits hf h

theorem sliceLoop_reserved {e : PicEnv} (hc : e.se.chromaFormat = 0) (ht : e.ph.pictureCodingType = iFrame) (g : Frame) (fuel : Nat) :
    Keeps (OnFrame (· = g)) (sliceLoop e fuel) := by
  refine fr_sliceLoop ⟨?_, ?_, ?_⟩ fuel
  · intro _ _ _ _ _ h; rw [ht] at h; cases h
  · intro _ _ _ _ _ _ h; rw [ht] at h; cases h
  · intro h; rw [hc] at h; exact absurd rfl h

/-- A picture just decoded fits the buffer for the headers in force, and the chroma format is none that panics;
in the reserved format an intra picture is the empty buffer. -/
def Fresh (f : Frame) (s : VS) : Prop :=
  ∃ sh se, s.sh = some sh ∧ s.se = some se ∧ se.chromaFormat ≠ 2 ∧ se.chromaFormat ≠ 3 ∧
    (createFrameBuffer s.size.1.toNat s.size.2.toNat se.chromaFormat).Fits f ∧
    (se.chromaFormat = 0 → ∀ ph, s.ph = some ph → ph.pictureCodingType = iFrame →
      f = createFrameBuffer s.size.1.toNat s.size.2.toNat se.chromaFormat)

theorem pictureData_fresh {s s' : VS} {f : Frame} (hs : AllFrames Frame.Bytes s.fs) (h : pictureData s = (.ok f, s')) :
    Fresh f s' ∧ s'.fs = s.fs := by
  unfold pictureData at h
  split at h
  · rename_i sh se ph pce e1 e2 e3 e4
    dsimp only at h
    split at h
    · rename_i m' h1
      rw [Prod.mk.injEq] at h
      obtain ⟨h2, rfl⟩ := h
      obtain ⟨_, s1, h3, h4⟩ := Go.bind_eq_ok h1
      generalize hg : createFrameBuffer s.size.1.toNat s.size.2.toNat se.chromaFormat = g at h3
      have hgf : g.Fits g := by rw [← hg]; exact buffer_fits _ _ _
      generalize hm0 : (⟨s.br, DcPred.reset pce.intraDCPrecision, MVD.init, 0, g⟩ : MB) = m0 at h3
      have hm1 : m0.frame = g := by rw [← hm0]
      have hk := fr_sliceLoop (keep_fits (e := ⟨sh, se, ph, pce, s.qm, s.fs.past, s.fs.future⟩) (g := g)
        hs.2.2.1) (fuelOf s.br) m0 (by unfold OnFrame; rw [hm1]; exact hgf)
      rw [h3] at hk
      have hm : m'.frame = s1.frame := by
        unfold MB.lift at h4
        rw [Prod.mk.injEq] at h4
        rw [← h4.2]
      have h5 : f = s1.frame := by rw [← hm]; exact (Res.ok.inj h2).symm
      refine ⟨⟨sh, se, e1, e2, ?_, ?_, ?_, ?_⟩, rfl⟩
      · intro hc; exact never_sliceLoop (.inl hc) _ _ _ _ h3
      · intro hc; exact never_sliceLoop (.inr hc) _ _ _ _ h3
      · rw [h5]
        show (createFrameBuffer s.size.1.toNat s.size.2.toNat se.chromaFormat).Fits _
        rw [hg]; exact hk
      · intro hc ph' hph ht
        have hph : s.ph = some ph' := hph
        rw [e3] at hph
        obtain rfl := Option.some.inj hph
        have hk := sliceLoop_reserved (e := ⟨sh, se, ph, pce, s.qm, s.fs.past, s.fs.future⟩) hc ht g (fuelOf s.br) m0 hm1
        rw [h3] at hk
        show f = createFrameBuffer s.size.1.toNat s.size.2.toNat se.chromaFormat
        rw [h5, hg]; exact hk
    all_goals cases h
  · cases h

theorem Fresh.shaped {f : Frame} {s : VS} (h : Fresh f s) : Shaped f := by
  obtain ⟨sh, se, _, _, h1, h2, h3, _⟩ := h
  exact ⟨_, _, _, h1, h2, h3⟩

theorem Shaped.bytes {f : Frame} (h : Shaped f) : f.Bytes := by
  obtain ⟨_, _, _, _, _, _, _, _, _, _, h⟩ := h
  exact h

theorem AllFrames.imp {P Q : Frame → Prop} {fs : FrameStore} (h : AllFrames P fs) (hi : ∀ f, P f → Q f) : AllFrames Q fs :=
  ⟨fun r hr => hi _ (h.1 r hr), fun r hr => hi _ (h.2.1 r hr), fun f hf => hi _ (h.2.2.1 f hf), fun f hf => hi _ (h.2.2.2 f hf)⟩

/-- frames in the store are shaped, before and after; a picture just decoded fits the headers -/
def Shapes {α : Type} (x : Res α × VS) (F : α → VS → Prop) : Prop :=
  OnStore (AllFrames Shaped) x.2 ∧ ∀ a, x.1 = .ok a → F a x.2

theorem Shapes.bind {α β : Type} {m : Go VS α} {f : α → Go VS β} {F : β → VS → Prop} (hm : Go.Keeps (OnStore (AllFrames Shaped)) m)
    (hf : ∀ a s, OnStore (AllFrames Shaped) s → Shapes (f a s) F) {s : VS} (hs : OnStore (AllFrames Shaped) s) :
    Shapes ((m >>= f) s) F := by
  have h1 := hm s hs
  rw [Go.bind_apply]
  cases h : m s with
  | mk r s' =>
    rw [h] at h1
    cases r with
    | ok a => exact hf a s' h1
    | err e => exact ⟨h1, fun a h => by cases h⟩
    | panic => exact ⟨h1, fun a h => by cases h⟩
    | hang => exact ⟨h1, fun a h => by cases h⟩

theorem shapes_pictureStep (s : VS) (hs : OnStore (AllFrames Shaped) s) : Shapes (pictureStep s) Fresh := by
  unfold pictureStep
  rw [Go.bind_ok (Go.get_apply s)]
  cases hph : s.ph with
  | none => exact ⟨hs, fun a h => by cases h⟩
  | some ph =>
    dsimp only
    rw [Go.bind_ok (Go.modify_apply ..)]
    have hs1 : AllFrames Shaped (s.fs.set ph.temporalReference) := AllFrames.set hs _
    have hd := pictureData_rest { s with fs := s.fs.set ph.temporalReference }
    have hq1 : OnStore (AllFrames Shaped) (pictureData { s with fs := s.fs.set ph.temporalReference }).2 := by
      unfold OnStore
      rw [hd.1]; exact hs1
    cases hx : pictureData { s with fs := s.fs.set ph.temporalReference } with
    | mk r s1 =>
      rw [hx] at hd hq1
      cases r with
      | ok f =>
        obtain ⟨h1, h2⟩ := pictureData_fresh (hs1.imp fun _ h => h.bytes) hx
        rw [Go.bind_ok hx, Go.bind_ok (Go.modify_apply ..), Go.pure_apply]
        split
        · exact ⟨AllFrames.add hq1 h1.shaped _, fun a h => by cases h; exact h1⟩
        · exact ⟨hq1, fun a h => by cases h; exact h1⟩
      | err e => rw [Go.bind_err hx]; exact ⟨hq1, fun a h => by cases h⟩
      | panic => rw [Go.bind_panic hx]; exact ⟨hq1, fun a h => by cases h⟩
      | hang => rw [Go.bind_hang hx]; exact ⟨hq1, fun a h => by cases h⟩

theorem shapes_moreFrames (f : Nat) (s : VS) (hs : OnStore (AllFrames Shaped) s) : Shapes (moreFrames f s) Fresh := by
  unfold moreFrames
  exact .bind (fst_groupHeader (fun _ h => h.mark) f) (fun _ s hs => .bind fst_pictureHeader (fun _ s hs =>
    .bind fst_pictureCodingExtension (fun _ s hs => .bind (fst_extUser 2 f) (fun _ s hs => shapes_pictureStep s hs) hs) hs) hs) hs
theorem shapes_continueFrames (f : Nat) (s : VS) (hs : OnStore (AllFrames Shaped) s) : Shapes (continueFrames f s) Fresh := by
  unfold continueFrames
  exact .bind (fst_extUser 0 f) (fun _ s hs => shapes_moreFrames f s hs) hs
theorem shapes_resume (f : Nat) (s : VS) (hs : OnStore (AllFrames Shaped) s) : Shapes (resume f s) Fresh := by
  unfold resume
  refine .bind (fst_lift _) (fun v s hs => ?_) hs
  split
  · exact shapes_moreFrames f s hs
  · split
    · exact .bind (fst_lift _) (fun _ s hs => ⟨hs, fun a h => by cases h⟩) hs
    · exact .bind fst_sequenceHeader (fun _ s hs => .bind fst_sequenceExtension (fun _ s hs =>
        shapes_continueFrames f s hs) hs) hs
theorem shapes_start (f : Nat) (s : VS) (hs : OnStore (AllFrames Shaped) s) : Shapes (start f s) Fresh := by
  unfold start
  exact .bind (fst_lift _) (fun _ s hs => .bind fst_sequenceHeader (fun _ s hs => .bind (fst_lift _) (fun _ s hs =>
    .bind .check (fun _ s hs => .bind fst_sequenceExtension (fun _ s hs => shapes_continueFrames f s hs) hs) hs) hs) hs) hs
theorem shapes_step (f : Nat) (s : VS) (hs : OnStore (AllFrames Shaped) s) : Shapes (step f s) Fresh := by
  unfold step
  split
  · exact shapes_resume f s hs
  · exact shapes_start f s hs

theorem shapes_nextLoop (fuel : Nat) : ∀ (k : Nat) (s : VS), OnStore (AllFrames Shaped) s → Shapes (nextLoop fuel k s) Fresh
  | 0, s, hs => ⟨hs, fun a h => by cases h⟩
  | k + 1, s, hs => by
    unfold nextLoop
    have h1 := shapes_step fuel s hs
    cases hx : step fuel s with
    | mk r s1 =>
      rw [hx] at h1
      cases r with
      | ok f =>
        rw [Go.bind_ok hx, Go.bind_ok (Go.get_apply s1)]
        cases hph : s1.ph with
        | none => exact ⟨h1.1, fun a h => by cases h⟩
        | some ph =>
          dsimp only
          split
          · rw [Go.bind_ok (Go.modify_apply ..)]
            exact ⟨h1.1, fun a h => by cases h; exact h1.2 f rfl⟩
          · exact shapes_nextLoop fuel k s1 h1.1
      | err x => rw [Go.bind_err hx]; exact ⟨h1.1, fun a h => by cases h⟩
      | panic => rw [Go.bind_panic hx]; exact ⟨h1.1, fun a h => by cases h⟩
      | hang => rw [Go.bind_hang hx]; exact ⟨h1.1, fun a h => by cases h⟩

theorem shapes_next (fuel k : Nat) (s : VS) (hs : OnStore (AllFrames Shaped) s) :
    Shapes (VS.next fuel k s) fun f s' => Shaped f ∧ (s'.br ≠ s.br → Fresh f s') := by
  unfold VS.next
  cases hw : s.fs.tryGet s.frameCounter with
  | some f => exact ⟨hs, fun a h => by cases h; exact ⟨AllFrames.tryGet hs hw, fun h => absurd rfl h⟩⟩
  | none =>
    have h := shapes_nextLoop fuel k s hs
    exact ⟨h.1, fun a h1 => ⟨(h.2 a h1).shaped, fun _ => h.2 a h1⟩⟩

theorem used_shaped {s : VS} (h : Used s) : OnStore (AllFrames Shaped) s := by
  induction h with
  | new br => exact ⟨fun r h => (by cases h), fun r h => (by cases h), fun r h => (by cases h), fun r h => (by cases h)⟩
  | next fuel k _ hn ih => have := (shapes_next fuel k _ ih).1; rw [hn] at this; exact this
  | reader br _ ih => exact ih

/-- the number of chroma samples of a macroblock line in the buffers of the source -/
theorem fits_wellFormed {w h cf : Nat} {f : Frame} (hc : cf ≠ 2) (hf : (createFrameBuffer w h cf).Fits f) :
    WellFormed w h (if cf = 1 then 8 else 16) f := by
  obtain ⟨h1, h2, h3, h4, h5, h6, h7, h8⟩ := hf
  by_cases h1' : cf = 1
  · subst h1'
    rw [if_pos rfl]
    have e1 : mbCount w * 16 / 2 = 8 * mbCount w := by omega
    have e2 : mbCount h * 16 / 2 = 8 * mbCount h := by omega
    refine ⟨h1.trans (Nat.mul_comm ..), h2.trans e1, h3.trans ?_, h4.trans ?_, h5.trans ?_, fun i _ => h6 i, fun i _ => h7 i, fun i _ => h8 i⟩
    · show mbCount w * 16 * (mbCount h * 16) = _; rw [Nat.mul_comm _ 16, Nat.mul_comm _ 16]
    · show mbCount w * 16 / 2 * (mbCount h * 16 / 2) = _; rw [e1, e2]
    · show mbCount w * 16 / 2 * (mbCount h * 16 / 2) = _; rw [e1, e2]
  · rw [if_neg h1']
    simp only [createFrameBuffer, h1', hc, or_self, if_false, Plane.zero] at h1 h2 h3 h4 h5
    have e : ∀ n, (n + 15) / 16 * 16 = 16 * mbCount n := fun n => Nat.mul_comm ..
    simp only [e] at h1 h2 h3 h4 h5
    exact ⟨h1, h2, h3, h4, h5, fun i _ => h6 i, fun i _ => h7 i, fun i _ => h8 i⟩

end Mpeg.Video
