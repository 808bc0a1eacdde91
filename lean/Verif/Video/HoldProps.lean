/-
How many pictures the decoder keeps.
-/
import Verif.Video.HeapProps
namespace Mpeg.Video
open Mpeg.Video.Spec

/-! ### the frame store -/

/-- Nothing is stored yet. -/
def HStore.Void (fs : HStore) : Prop := fs.f0 = none ∧ fs.f1 = none ∧ fs.past = none ∧ fs.future = none

/-- One of `past` and `future` is nil or one of the two stored pictures. -/
def HStore.Few (fs : HStore) : Prop :=
  fs.Void ∨ ∃ r, fs.f1 = some r ∧
    ((∀ a, fs.past = some a → a = r.frame ∨ ∃ q, fs.f0 = some q ∧ a = q.frame) ∨
     (∀ a, fs.future = some a → a = r.frame ∨ ∃ q, fs.f0 = some q ∧ a = q.frame))

/-- One of them is the picture that was stored last. -/
def HStore.Tight (fs : HStore) : Prop :=
  fs.Void ∨ ∃ r, fs.f1 = some r ∧ (fs.past = some r.frame ∨ fs.future = some r.frame)

theorem HStore.Tight.few {fs : HStore} : fs.Tight → fs.Few
  | .inl h => .inl h
  | .inr ⟨r, h, h'⟩ => .inr ⟨r, h, h'.imp (fun e a ha => by rw [e] at ha; cases ha; exact .inl rfl)
      (fun e a ha => by rw [e] at ha; cases ha; exact .inl rfl)⟩

theorem few_mark {fs : HStore} (h : fs.Few) : fs.markGOP.Few := by
  rcases h with ⟨h0, h1, h2, h3⟩ | ⟨r, h1, h⟩
  · exact .inl ⟨by simp [HStore.markGOP, h0], by simp [HStore.markGOP, h1], h2, h3⟩
  · refine .inr ⟨{ r with previousGOP := true }, by simp [HStore.markGOP, h1], ?_⟩
    refine h.imp (fun h a ha => ?_) (fun h a ha => ?_) <;>
    · rcases h a ha with e | ⟨q, hq, e⟩
      · exact .inl e
      · exact .inr ⟨{ q with previousGOP := true }, by simp [HStore.markGOP, hq], e⟩

theorem tight_set {fs : HStore} (h : fs.Few) (tr : Nat) : (fs.set tr).Tight := by
  rcases h with ⟨h0, h1, h2, h3⟩ | ⟨r, h1, h⟩
  · left; simp [HStore.set, HStore.setOne, h0, h1, h2, h3, HStore.Void]
  · right
    refine ⟨r, ?_, ?_⟩
    · have e : ∀ (g : HStore) (q : Option HRef), (g.setOne q tr).f1 = g.f1 := by
        intro g q; unfold HStore.setOne; split
        · rfl
        · split <;> rfl
      unfold HStore.set
      rw [e, e, h1]
    · unfold HStore.set
      rw [h1]
      generalize HStore.setOne fs fs.f0 tr = g
      unfold HStore.setOne
      dsimp only
      split
      · exact .inl rfl
      · exact .inr rfl

theorem few_add {fs : HStore} (h : fs.Tight) (f tr : Nat) : (fs.add f tr).Few := by
  right
  refine ⟨⟨f, tr, false⟩, rfl, ?_⟩
  rcases h with ⟨h0, h1, h2, h3⟩ | ⟨r, h1, h⟩
  · left; intro a ha
    have ha : fs.past = some a := ha
    rw [h2] at ha; cases ha
  · refine h.imp (fun e a ha => ?_) (fun e a ha => ?_)
    · have ha : fs.past = some a := ha
      rw [e] at ha; cases ha
      exact .inr ⟨r, h1, rfl⟩
    · have ha : fs.future = some a := ha
      rw [e] at ha; cases ha
      exact .inr ⟨r, h1, rfl⟩

/-! ### the decoder -/

def OnH (P : HStore → Prop) (h : HVS) : Prop := P h.fs

theorem few_lift {α : Type} {P : HStore → Prop} (m : Go VS α) : Go.Keeps (OnH P) (HVS.lift m) := fun _ h => h

theorem pictureData_fs (h : HVS) : (hPictureData h).2.fs = h.fs := by
  have hall : ∀ (a : Option SequenceHeader) (b : Option SequenceExtension) (c : Option PictureHeader) (d : Option PictureCodingExtension)
      (X : SequenceHeader → SequenceExtension → PictureHeader → PictureCodingExtension → Res Nat × HVS),
      (∀ a b c d, (X a b c d).2.fs = h.fs) →
        (match a, b, c, d with
          | some a, some b, some c, some d => X a b c d
          | _, _, _, _ => (.panic, h)).2.fs = h.fs := by
    intro a b c d X hX
    cases a <;> cases b <;> cases c <;> cases d <;> first
      | exact hX _ _ _ _
      | rfl
  refine hall h.sh h.se h.ph h.pce _ ?_
  intro sh se ph pce
  dsimp only
  split <;> rfl

theorem few_group (fuel : Nat) : Go.Keeps (OnH HStore.Few) (hGroupHeader fuel) := by
  unfold hGroupHeader
  refine .bind (few_lift _) fun v => ?_
  have : Go.Keeps (OnH HStore.Few) (do
    let g ← HVS.lift (VS.lift readGOPHeader)
    Go.modify fun h : HVS => { h with gop := some g, fs := h.fs.markGOP, frameCounter := 0 }
    HVS.lift (extensionAndUserData 1 fuel)) :=
    .bind (few_lift _) fun g => .bind (.modify fun h hh => few_mark hh) fun _ => few_lift _
  cases (v == groupStartCode)
  · exact .pure _
  · exact this

theorem few_pictureStep : Go.Keeps (OnH HStore.Few) hPictureStep := by
  intro h hf
  unfold hPictureStep
  rw [Go.bind_ok (Go.get_apply h)]
  cases hph : h.ph with
  | none => exact hf
  | some ph =>
    dsimp only
    rw [Go.bind_ok (Go.modify_apply ..), Go.bind_apply]
    have ht := tight_set hf ph.temporalReference
    have hd := pictureData_fs { h with fs := h.fs.set ph.temporalReference }
    cases hy : hPictureData { h with fs := h.fs.set ph.temporalReference } with
    | mk r h1 =>
      rw [hy] at hd
      have hd : h1.fs = h.fs.set ph.temporalReference := hd
      have h1t : h1.fs.Tight := hd ▸ ht
      cases r with
      | err e => exact h1t.few
      | panic => exact h1t.few
      | hang => exact h1t.few
      | ok b =>
        dsimp only
        rw [Go.bind_ok (Go.modify_apply ..), Go.pure_apply]
        dsimp only
        split
        · exact few_add h1t _ _
        · exact h1t.few

theorem few_more (fuel : Nat) : Go.Keeps (OnH HStore.Few) (hMoreFrames fuel) :=
  .bind (few_group fuel) fun _ => .bind (few_lift _) fun _ => .bind (few_lift _) fun _ => .bind (few_lift _) fun _ => few_pictureStep
theorem few_continue (fuel : Nat) : Go.Keeps (OnH HStore.Few) (hContinueFrames fuel) :=
  .bind (few_lift _) fun _ => few_more fuel
theorem few_resume (fuel : Nat) : Go.Keeps (OnH HStore.Few) (hResume fuel) := by
  unfold hResume
  refine .bind (few_lift _) fun v => ?_
  split
  · exact few_more fuel
  · split
    · exact .bind (few_lift _) fun _ => .throw _
    · exact .bind (few_lift _) fun _ => .bind (few_lift _) fun _ => few_continue fuel
theorem few_start (fuel : Nat) : Go.Keeps (OnH HStore.Few) (hStart fuel) := by
  unfold hStart
  refine .bind (few_lift _) fun _ => .bind (few_lift _) fun _ => .bind (few_lift _) fun v => .bind ?_ fun _ =>
    .bind (few_lift _) fun _ => few_continue fuel
  unfold Go.check
  split
  · exact .pure _
  · exact .throw _
theorem few_step (fuel : Nat) : Go.Keeps (OnH HStore.Few) (hStep fuel) := by
  intro h hf
  unfold hStep
  split
  · exact few_resume fuel h hf
  · exact few_start fuel h hf

theorem few_nextLoop (fuel : Nat) : ∀ k, Go.Keeps (OnH HStore.Few) (hNextLoop fuel k)
  | 0 => .hang
  | k + 1 => by
    unfold hNextLoop
    refine .bind (few_step fuel) fun f => .bind .get fun h => ?_
    split
    · exact .panic
    · split
      · exact .bind (.modify fun h hh => hh) fun _ => .pure _
      · exact few_nextLoop fuel k

theorem few_next (fuel k : Nat) : Go.Keeps (OnH HStore.Few) (HVS.next fuel k) := by
  intro h hf
  unfold HVS.next
  split
  · exact hf
  · exact few_nextLoop fuel k h hf

theorem used_few {h : HVS} (hu : HUsed h) : h.fs.Few := by
  induction hu with
  | new br => exact .inl ⟨rfl, rfl, rfl, rfl⟩
  | next fuel k _ hx ih => have := few_next fuel k _ ih; rw [hx] at this; exact this
  | draw a f _ _ ih => exact ih

/-- **C120** However many pictures have been decoded and returned, with errors and groups of pictures in any order, the
decoder keeps pointers to at most three of them. -/
theorem C120_pictures {h : HVS} (hu : HUsed h) : ∃ l : List Nat, l.length ≤ 3 ∧ ∀ a, Held h a → a ∈ l := by
  rcases used_few hu with ⟨h0, h1, h2, h3⟩ | ⟨r, h1, hf⟩
  · refine ⟨[], by simp, ?_⟩
    rintro a (⟨q, hq | hq, _⟩ | hq | hq)
    · rw [h0] at hq; cases hq
    · rw [h1] at hq; cases hq
    · rw [h2] at hq; cases hq
    · rw [h3] at hq; cases hq
  · rcases hf with hf | hf
    · refine ⟨r.frame :: (h.fs.f0.map (·.frame)).toList ++ h.fs.future.toList, ?_, ?_⟩
      · cases h.fs.f0 <;> cases h.fs.future <;> simp
      · rintro a (⟨q, hq | hq, rfl⟩ | hq | hq)
        · simp [hq]
        · rw [h1] at hq; cases hq; simp
        · rcases hf a hq with rfl | ⟨q, hq', rfl⟩
          · simp
          · simp [hq']
        · simp [hq]
    · refine ⟨r.frame :: (h.fs.f0.map (·.frame)).toList ++ h.fs.past.toList, ?_, ?_⟩
      · cases h.fs.f0 <;> cases h.fs.past <;> simp
      · rintro a (⟨q, hq | hq, rfl⟩ | hq | hq)
        · simp [hq]
        · rw [h1] at hq; cases hq; simp
        · simp [hq]
        · rcases hf a hq with rfl | ⟨q, hq', rfl⟩
          · simp
          · simp [hq']

namespace ExStream

def pic (tr : Nat) : List Bool :=
  byte (encPic ⟨tr, .p 0 7, 0, []⟩) ++ (byte (encPicExt picE) ++
    byte ((sl 0 mbP).head ((cx 16 1).env picP) ++ [true, false, false, true, true, true]))

/-- the stream `between`, followed by two predicted pictures -/
def five : List Bool := between.take (between.length - 32) ++ (pic 3 ++ (pic 4 ++ bitsOf 32 0x1B7))

end ExStream
open ExStream

/-- three is reached: after five pictures the decoder has the last two reference pictures, and still the one that the B
picture was predicted from -/
theorem C120_three : addresses 5 five = ([some 0, some 2, some 1, some 3, some 4], [some 3, some 4, some 3, some 1]) := by
  decide +kernel

end Mpeg.Video
