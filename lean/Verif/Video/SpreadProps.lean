/-
C134: how far errors in reference pictures can move.
-/
import Verif.Video.SpreadLemmas2
import Verif.Video.DriftProps
set_option linter.all false
namespace Mpeg.Video
open Spec

theorem planeAgree_refl (G : Nat → Prop) (p : Plane) : PlaneAgree G p p := ⟨rfl, fun _ _ _ => rfl⟩
theorem frameAgree_refl {Y C : Nat} (G : Nat → Nat → Prop) {f : Frame} (hY : f.yStride = Y) (hC : f.cStride = C) : FrameAgree Y C G f f :=
  ⟨⟨hY, hY⟩, ⟨hC, hC⟩, planeAgree_refl _ _, planeAgree_refl _ _, planeAgree_refl _ _⟩

/-- The frame in which a decoder in state `s` would build its next picture. -/
def Spec.newFrame (s : VS) (se : SequenceExtension) : Frame := createFrameBuffer s.size.1.toNat s.size.2.toNat se.chromaFormat

/-- **C134**, one picture: two decoders that are the same except for the frames they hold, about to decode the data of a picture
with legal f_codes.  Their past frames have lines as long as those of the new picture and agree, in component `c`, in the samples
`G 0 c`; their future frames in the samples `G 1 c`.  Whatever the bits: both do the same, and the two pictures agree in every
sample from which all samples of the past frame within reach of the forward vectors are in `G 0 c`, and all samples of the future
frame within reach of the backward vectors are in `G 1 c`. -/
theorem C134_picture {Q : FrameStore → FrameStore → Prop} {s t : VS} (h : Twins Q s t) {se : SequenceExtension}
    {pce : PictureCodingExtension} (hse : s.se = some se) (hpce : s.pce = some pce)
    (hfc : ∀ r x, r < 2 → x < 2 → 1 ≤ pce.fCode r x ∧ pce.fCode r x ≤ 15) {Y C : Nat} (hY : (newFrame s se).yStride = Y)
    (hC : (newFrame s se).cStride = C) {G : Nat → Nat → Nat → Prop} (hp : Both (FrameAgree Y C (G 0)) s.fs.past t.fs.past)
    (hf : Both (FrameAgree Y C (G 1)) s.fs.future t.fs.future) :
    SameRes (FrameAgree Y C fun c k => farInside (reach (pce.fCode 0 0) (pce.fCode 0 1) (lineOf Y C c)) (G 0 c) k ∧
        farInside (reach (pce.fCode 1 0) (pce.fCode 1 1) (lineOf Y C c)) (G 1 c) k) (pictureData s).1 (pictureData t).1 ∧
      Twins Q (pictureData s).2 (pictureData t).2 := by
  have key : ∀ F, F = FrameAgree Y C (spread pce.fCode Y C G) →
      SameRes F (pictureData s).1 (pictureData t).1 ∧ Twins Q (pictureData s).2 (pictureData t).2 := by
    rintro F rfl
    by_cases hx : ∃ sh ph, s.sh = some sh ∧ s.ph = some ph
    · obtain ⟨sh, ph, h1, h2⟩ := hx
      refine twins_picture_rel (I := VecInv ⟨sh, se, ph, pce, s.qm, s.fs.past, s.fs.future⟩) h ?_
      intro sh' se' ph' pce' h1' h2' h3' h4'
      rw [h1] at h1'; rw [hse] at h2'; rw [h2] at h3'; rw [hpce] at h4'
      cases h1'; cases h2'; cases h3'; cases h4'
      exact ⟨respects_agree (e := ⟨sh, se, ph, pce, s.qm, s.fs.past, s.fs.future⟩) hfc hp hf, frameAgree_refl _ hY hC⟩
    · refine twins_picture_rel (I := fun _ => True) h ?_
      intro sh' se' ph' pce' h1' h2' h3' h4'
      exact absurd ⟨sh', ph', h1', h3'⟩ hx
  exact key _ rfl

/-- **C134**, P pictures: the future frames may be anything. -/
theorem C134_p {Q : FrameStore → FrameStore → Prop} {s t : VS} (h : Twins Q s t) {ph : PictureHeader} {se : SequenceExtension}
    {pce : PictureCodingExtension} (hph : s.ph = some ph) (hP : ph.pictureCodingType = 2) (hse : s.se = some se) (hpce : s.pce = some pce)
    (hfc : ∀ r x, r < 2 → x < 2 → 1 ≤ pce.fCode r x ∧ pce.fCode r x ≤ 15) {Y C : Nat} (hY : (newFrame s se).yStride = Y)
    (hC : (newFrame s se).cStride = C) {G : Nat → Nat → Prop} (hp : Both (FrameAgree Y C G) s.fs.past t.fs.past) :
    SameRes (FrameAgree Y C fun c => farInside (reach (pce.fCode 0 0) (pce.fCode 0 1) (lineOf Y C c)) (G c))
      (pictureData s).1 (pictureData t).1 := by
  -- without future frames the data are decoded to the same
  have hs : Twins (fun _ _ => True) s { s with fs := { s.fs with future := none } } := ⟨rfl, rfl, rfl, rfl, rfl, rfl, rfl, rfl, trivial⟩
  have ht : Twins (fun _ _ => True) t { t with fs := { t.fs with future := none } } := ⟨rfl, rfl, rfl, rfl, rfl, rfl, rfl, rfl, trivial⟩
  rw [(C133_picture hs hph (.inr ⟨hP, rfl⟩)).1, (C133_picture ht (h.ph ▸ hph) (.inr ⟨hP, rfl⟩)).1]
  have := (C134_picture (Q := fun _ _ => True) (s := { s with fs := { s.fs with future := none } })
    (t := { t with fs := { t.fs with future := none } }) (G := fun r c k => if r = 0 then G c k else True)
    ⟨h.br, h.sh, h.se, h.gop, h.ph, h.pce, h.qm, h.counter, trivial⟩ hse hpce hfc hY hC hp .none).1
  revert this
  generalize (pictureData { s with fs := { s.fs with future := none } }).1 = x
  generalize (pictureData { t with fs := { t.fs with future := none } }).1 = y
  intro hx
  cases hx with
  | ok h =>
    have hm : ∀ {c : Nat} {p q : Plane}, PlaneAgree (fun k => farInside (reach (pce.fCode 0 0) (pce.fCode 0 1) (lineOf Y C c))
          (fun k => if 0 = 0 then G c k else True) k ∧
        farInside (reach (pce.fCode 1 0) (pce.fCode 1 1) (lineOf Y C c)) (fun k => if 1 = 0 then G c k else True) k) p q →
        PlaneAgree (farInside (reach (pce.fCode 0 0) (pce.fCode 0 1) (lineOf Y C c)) (G c)) p q :=
      fun h => ⟨h.len, fun i hi hG => h.same i hi ⟨hG, fun _ _ => trivial⟩⟩
    exact .ok ⟨h.yStride, h.cStride, hm h.y, hm h.cb, hm h.cr⟩
  | err e => exact .err e
  | panic => exact .panic
  | hang => exact .hang

/-! ### sequences of pictures -/

/-- Slots of the frame store that hold frames which agree in `G` and are otherwise the same. -/
structure Spec.SlotAgree (Y C : Nat) (G : Nat → Nat → Prop) (r q : RefFrame) : Prop where
  frame : FrameAgree Y C G r.frame q.frame
  temporal : r.temporalReference = q.temporalReference
  gop : r.previousGOP = q.previousGOP

/-- Stores with frames that agree in `G`. -/
structure Spec.StoreAgree (Y C : Nat) (G : Nat → Nat → Prop) (a b : FrameStore) : Prop where
  f0 : Both (SlotAgree Y C G) a.f0 b.f0
  f1 : Both (SlotAgree Y C G) a.f1 b.f1
  past : Both (FrameAgree Y C G) a.past b.past
  future : Both (FrameAgree Y C G) a.future b.future

/-- The headers in force have f_codes between 1 and `F` and announce pictures with lines of `Y` luma and `C` chroma samples. -/
def Spec.Moderate (F Y C : Nat) (u : VS) : Prop :=
  (∀ pce, u.pce = some pce → ∀ r x, r < 2 → x < 2 → 1 ≤ pce.fCode r x ∧ pce.fCode r x ≤ F) ∧
  ∀ se, u.se = some se → (newFrame u se).yStride = Y ∧ (newFrame u se).cStride = C

theorem frameAgree_mono {Y C : Nat} {G H : Nat → Nat → Prop} (hG : ∀ c k, H c k → G c k) {f g : Frame} (h : FrameAgree Y C G f g) :
    FrameAgree Y C H f g :=
  have hp : ∀ {c p q}, PlaneAgree (G c) p q → PlaneAgree (H c) p q := fun h => ⟨h.len, fun i hi hh => h.same i hi (hG _ _ hh)⟩
  ⟨h.yStride, h.cStride, hp h.y, hp h.cb, hp h.cr⟩
theorem both_mono {α : Type} {R Q : α → α → Prop} (hR : ∀ a b, R a b → Q a b) {x y : Option α} (h : Both R x y) : Both Q x y := by
  cases h with
  | none => exact .none
  | some h => exact .some (hR _ _ h)
theorem storeAgree_mono {Y C : Nat} {G H : Nat → Nat → Prop} (hG : ∀ c k, H c k → G c k) {a b : FrameStore} (h : StoreAgree Y C G a b) :
    StoreAgree Y C H a b :=
  have hs : ∀ r q, SlotAgree Y C G r q → SlotAgree Y C H r q := fun _ _ h => ⟨frameAgree_mono hG h.frame, h.temporal, h.gop⟩
  ⟨both_mono hs h.f0, both_mono hs h.f1, both_mono (fun _ _ => frameAgree_mono hG) h.past, both_mono (fun _ _ => frameAgree_mono hG) h.future⟩

theorem sameRes_mono {α : Type} {R Q : α → α → Prop} (hR : ∀ a b, R a b → Q a b) {x y : Res α} (h : SameRes R x y) : SameRes Q x y := by
  cases h with
  | ok h => exact .ok (hR _ _ h)
  | err e => exact .err e
  | panic => exact .panic
  | hang => exact .hang
theorem pairwise2_mono {α : Type} {R Q : α → α → Prop} (hR : ∀ a b, R a b → Q a b) {x y : List α} (h : Pairwise2 R x y) :
    Pairwise2 Q x y := by
  induction h with
  | nil => exact .nil
  | cons h _ ih => exact .cons (hR _ _ h) ih

section
variable {Y C : Nat} {G : Nat → Nat → Prop}
theorem agree_mark (a b : FrameStore) (h : StoreAgree Y C G a b) : StoreAgree Y C G a.markGOP b.markGOP :=
  ⟨both_map h.f0 fun _ _ h => ⟨h.frame, h.temporal, rfl⟩, both_map h.f1 fun _ _ h => ⟨h.frame, h.temporal, rfl⟩, h.past, h.future⟩
theorem agree_setOne {a b : FrameStore} (h : StoreAgree Y C G a b) {r q : Option RefFrame} (hr : Both (SlotAgree Y C G) r q) (tr : Nat) :
    StoreAgree Y C G (a.setOne r tr) (b.setOne q tr) := by
  cases hr with
  | none => exact h
  | some hr =>
    unfold FrameStore.setOne
    dsimp only
    rw [hr.gop, hr.temporal]
    split
    · exact ⟨h.f0, h.f1, .some hr.frame, h.future⟩
    · exact ⟨h.f0, h.f1, h.past, .some hr.frame⟩
theorem agree_set {a b : FrameStore} (h : StoreAgree Y C G a b) (tr : Nat) : StoreAgree Y C G (a.set tr) (b.set tr) :=
  agree_setOne (agree_setOne h h.f0 tr) h.f1 tr
theorem matches_agree {r q : Option RefFrame} (h : Both (SlotAgree Y C G) r q) (tr : Nat) :
    Both (FrameAgree Y C G) (RefFrame.matches r tr) (RefFrame.matches q tr) := by
  cases h with
  | none => exact .none
  | some h =>
    unfold RefFrame.matches
    dsimp only
    rw [h.gop, h.temporal]
    split
    · exact .some h.frame
    · exact .none
theorem tryGet_agree {a b : FrameStore} (h : StoreAgree Y C G a b) (tr : Nat) : Both (FrameAgree Y C G) (a.tryGet tr) (b.tryGet tr) := by
  unfold FrameStore.tryGet
  have h0 := matches_agree h.f0 tr
  revert h0
  generalize RefFrame.matches a.f0 tr = x
  generalize RefFrame.matches b.f0 tr = y
  intro h0
  cases h0 with
  | none => exact matches_agree h.f1 tr
  | some h0 => exact .some h0
end

theorem pictureData_keeps (u : VS) : (pictureData u).2 = { u with br := (pictureData u).2.br } := by
  rw [pictureData_of]
  dsimp only
  unfold pictureOf
  obtain ⟨br, sh, se, gop, ph, pce, qm, fs, c⟩ := u
  cases sh with
  | none => rfl
  | some sh =>
  cases se with
  | none => rfl
  | some se =>
  cases ph with
  | none => rfl
  | some ph =>
  cases pce with
  | none => rfl
  | some pce =>
    dsimp only
    rw [pictureWith_from]
    generalize slicesOf _ _ = x
    obtain ⟨r, m⟩ := x
    cases r <;> rfl

theorem reach_mono {a b c d line : Nat} (h1 : a ≤ c) (h2 : b ≤ d) : reach a b line ≤ reach c d line := by
  have hm : ∀ {a b : Nat}, a ≤ b → mvScale a ≤ mvScale b := fun h => Nat.pow_le_pow_right (by decide) (by omega)
  have := hm h1
  have := hm h2
  unfold reach
  have : (8 * mvScale b + 7) * line ≤ (8 * mvScale d + 7) * line := Nat.mul_le_mul_right _ (by omega)
  omega

/-- what of the samples `G` is still sure after one picture -/
def shrink (F Y C : Nat) (G : Nat → Nat → Prop) (c : Nat) : Nat → Prop := farInside (reach F F (lineOf Y C c)) (G c)
theorem shrink_sub {F Y C : Nat} {G : Nat → Nat → Prop} {c k : Nat} (h : shrink F Y C G c k) : G c k := h k ⟨by omega, by omega⟩

theorem agree_pictureStep {F Y C : Nat} (hF : F ≤ 15) {G : Nat → Nat → Prop} {s t : VS} (h : Twins (StoreAgree Y C G) s t)
    (hm : Moderate F Y C (pictureStep s).2) : SameRes (FrameAgree Y C (shrink F Y C G)) (pictureStep s).1 (pictureStep t).1 ∧
      Twins (StoreAgree Y C (shrink F Y C G)) (pictureStep s).2 (pictureStep t).2 := by
  have hweak : ∀ {s t}, Twins (StoreAgree Y C G) s t → Twins (StoreAgree Y C (shrink F Y C G)) s t := fun h =>
    ⟨h.br, h.sh, h.se, h.gop, h.ph, h.pce, h.qm, h.counter, storeAgree_mono (fun _ _ => shrink_sub) h.store⟩
  unfold pictureStep at hm ⊢
  rw [Go.bind_ok (Go.get_apply s)] at hm ⊢
  rw [Go.bind_ok (Go.get_apply t)]
  rw [← h.ph]
  cases hph : s.ph with
  | none => exact ⟨.panic, hweak h⟩
  | some ph =>
    rw [hph] at hm
    dsimp only at hm ⊢
    rw [Go.bind_ok (Go.modify_apply ..)] at hm ⊢
    rw [Go.bind_ok (Go.modify_apply ..)]
    have h' : Twins (StoreAgree Y C G) { s with fs := s.fs.set ph.temporalReference } { t with fs := t.fs.set ph.temporalReference } :=
      ⟨h.br, h.sh, h.se, h.gop, h.ph, h.pce, h.qm, h.counter, agree_set h.store _⟩
    generalize ({ s with fs := s.fs.set ph.temporalReference } : VS) = u at *
    generalize ({ t with fs := t.fs.set ph.temporalReference } : VS) = u' at *
    have hu := pictureData_keeps u
    rcases hx : pictureData u with ⟨r, v⟩
    rcases hy : pictureData u' with ⟨r', v'⟩
    rw [hx] at hu
    dsimp only at hu
    have hmod : Moderate F Y C u := by
      have hmv : Moderate F Y C v := by
        cases r with
        | ok f =>
          rw [Go.bind_ok hx, Go.bind_ok (Go.modify_apply ..)] at hm
          have hm : Moderate F Y C (if ph.pictureCodingType = iFrame ∨ ph.pictureCodingType = pFrame then
            { v with fs := v.fs.add f ph.temporalReference } else v) := hm
          split at hm <;> exact hm
        | err x => rw [Go.bind_err hx] at hm; exact hm
        | panic => rw [Go.bind_panic hx] at hm; exact hm
        | hang => rw [Go.bind_hang hx] at hm; exact hm
      rw [hu] at hmv
      exact hmv
    have hd : SameRes (FrameAgree Y C (shrink F Y C G)) r r' ∧ Twins (StoreAgree Y C G) v v' := by
      cases hse : u.se with
      | none =>
        have := twins_picture_rel (F := FrameAgree Y C (shrink F Y C G)) (I := fun _ => True) h' (by
          intro _ _ _ _ _ h2 _ _; rw [hse] at h2; cases h2)
        rw [hx, hy] at this
        exact this
      | some se =>
      cases hpce : u.pce with
      | none =>
        have := twins_picture_rel (F := FrameAgree Y C (shrink F Y C G)) (I := fun _ => True) h' (by
          intro _ _ _ _ _ _ _ h2; rw [hpce] at h2; cases h2)
        rw [hx, hy] at this
        exact this
      | some pce =>
        have hb := hmod.1 pce hpce
        obtain ⟨hY, hC⟩ := hmod.2 se hse
        have := C134_picture h' hse hpce (fun r x hr hx => ⟨(hb r x hr hx).1, Nat.le_trans (hb r x hr hx).2 hF⟩) hY hC
          (G := fun _ => G) h'.store.past h'.store.future
        rw [hx, hy] at this
        refine ⟨?_, this.2⟩
        have h1 := this.1
        cases h1 with
        | ok h1 =>
          refine .ok (frameAgree_mono (fun c k hk => ?_) h1)
          have hr : ∀ r, r < 2 → farInside (reach (pce.fCode r 0) (pce.fCode r 1) (lineOf Y C c)) (G c) k := by
            intro r hr j hj
            apply hk j
            have := reach_mono (line := lineOf Y C c) (hb r 0 hr (by decide)).2 (hb r 1 hr (by decide)).2
            unfold NNear at hj ⊢
            omega
          exact ⟨hr 0 (by decide), hr 1 (by decide)⟩
        | err e => exact .err e
        | panic => exact .panic
        | hang => exact .hang
    obtain ⟨h1, h2⟩ := hd
    cases h1 with
    | err e => rw [Go.bind_err hx, Go.bind_err hy]; exact ⟨.err e, hweak h2⟩
    | panic => rw [Go.bind_panic hx, Go.bind_panic hy]; exact ⟨.panic, hweak h2⟩
    | hang => rw [Go.bind_hang hx, Go.bind_hang hy]; exact ⟨.hang, hweak h2⟩
    | ok h1 =>
      rw [Go.bind_ok hx, Go.bind_ok hy, Go.bind_ok (Go.modify_apply ..), Go.bind_ok (Go.modify_apply ..)]
      refine ⟨.ok h1, ?_⟩
      show Twins _ (if _ then _ else _) (if _ then _ else _)
      have h3 := hweak h2
      split
      · exact ⟨h3.br, h3.sh, h3.se, h3.gop, h3.ph, h3.pce, h3.qm, h3.counter, h3.store.f1, .some ⟨h1, rfl, rfl⟩, h3.store.past, h3.store.future⟩
      · exact h3

theorem agree_step {F Y C : Nat} (hF : F ≤ 15) {G : Nat → Nat → Prop} (fuel : Nat) {s t : VS} (h : Twins (StoreAgree Y C G) s t)
    (hm : Moderate F Y C (step fuel s).2) : SameRes (FrameAgree Y C (shrink F Y C G)) (step fuel s).1 (step fuel t).1 ∧
      Twins (StoreAgree Y C (shrink F Y C G)) (step fuel s).2 (step fuel t).2 := by
  have hweak : ∀ {s t}, Twins (StoreAgree Y C G) s t → Twins (StoreAgree Y C (shrink F Y C G)) s t := fun h =>
    ⟨h.br, h.sh, h.se, h.gop, h.ph, h.pce, h.qm, h.counter, storeAgree_mono (fun _ _ => shrink_sub) h.store⟩
  rw [step_head] at hm ⊢
  have hh := twins_stepHead (Q := StoreAgree Y C G) agree_mark fuel s t h
  rcases hx : stepHead fuel s with ⟨r, u⟩
  rcases hy : stepHead fuel t with ⟨r', u'⟩
  rw [hx, hy] at hh
  obtain ⟨h1, h2⟩ := hh
  cases h1 with
  | err e => rw [Go.bind_err hx, Go.bind_err hy]; exact ⟨.err e, hweak h2⟩
  | panic => rw [Go.bind_panic hx, Go.bind_panic hy]; exact ⟨.panic, hweak h2⟩
  | hang => rw [Go.bind_hang hx, Go.bind_hang hy]; exact ⟨.hang, hweak h2⟩
  | ok _ =>
    rw [Go.bind_ok hx] at hm ⊢
    rw [Go.bind_ok hy]
    exact agree_pictureStep hF h2 hm

theorem nextLoop_one (fuel : Nat) (s : VS) : (nextLoop fuel 1 s).2 = (step fuel s).2 ∨ (nextLoop fuel 1 s).2 = (step fuel s).2.count := by
  unfold nextLoop
  rcases hx : step fuel s with ⟨r, u⟩
  cases r with
  | err e => rw [Go.bind_err hx]; exact .inl rfl
  | panic => rw [Go.bind_panic hx]; exact .inl rfl
  | hang => rw [Go.bind_hang hx]; exact .inl rfl
  | ok f =>
    rw [Go.bind_ok hx, Go.bind_ok (Go.get_apply u)]
    cases hu : u.ph with
    | none => exact .inl rfl
    | some ph =>
      dsimp only
      split
      · exact .inr rfl
      · exact .inl rfl

theorem agree_next {F Y C : Nat} (hF : F ≤ 15) {G : Nat → Nat → Prop} (fuel : Nat) {s t : VS} (h : Twins (StoreAgree Y C G) s t)
    (hm : Moderate F Y C (VS.next fuel 1 s).2) : SameRes (FrameAgree Y C (shrink F Y C G)) (VS.next fuel 1 s).1 (VS.next fuel 1 t).1 ∧
      Twins (StoreAgree Y C (shrink F Y C G)) (VS.next fuel 1 s).2 (VS.next fuel 1 t).2 := by
  have hweak : ∀ {s t}, Twins (StoreAgree Y C G) s t → Twins (StoreAgree Y C (shrink F Y C G)) s t := fun h =>
    ⟨h.br, h.sh, h.se, h.gop, h.ph, h.pce, h.qm, h.counter, storeAgree_mono (fun _ _ => shrink_sub) h.store⟩
  have hg := tryGet_agree h.store s.frameCounter
  unfold VS.next at hm ⊢
  rw [← h.counter]
  revert hg hm
  generalize s.fs.tryGet s.frameCounter = x
  generalize t.fs.tryGet s.frameCounter = y
  intro hm hg
  cases hg with
  | some hg =>
    refine ⟨.ok (frameAgree_mono (fun _ _ => shrink_sub) hg), ?_⟩
    have h3 := hweak h
    exact ⟨h3.br, h3.sh, h3.se, h3.gop, h3.ph, h3.pce, h3.qm, by unfold VS.count; dsimp only; rw [h3.counter], h3.store⟩
  | none =>
    dsimp only at hm ⊢
    have hm' : Moderate F Y C (step fuel s).2 := by
      rcases nextLoop_one fuel s with h | h <;> rw [h] at hm <;> exact hm
    obtain ⟨h1, h2⟩ := agree_step hF fuel h hm'
    unfold nextLoop
    rcases hx : step fuel s with ⟨r, u⟩
    rcases hy : step fuel t with ⟨r', u'⟩
    rw [hx, hy] at h1 h2
    cases h1 with
    | err e => rw [Go.bind_err hx, Go.bind_err hy]; exact ⟨.err e, h2⟩
    | panic => rw [Go.bind_panic hx, Go.bind_panic hy]; exact ⟨.panic, h2⟩
    | hang => rw [Go.bind_hang hx, Go.bind_hang hy]; exact ⟨.hang, h2⟩
    | ok hf =>
      rw [Go.bind_ok hx, Go.bind_ok hy]
      refine Go.Step.getBind (fun s t h => ?_) u u' h2
      rw [h.ph, h.counter]
      cases t.ph with
      | none => exact .panic
      | some ph =>
        exact .ite (.bindEq (.modify fun s t h => ⟨h.br, h.sh, h.se, h.gop, h.ph, h.pce, h.qm, by
          unfold VS.count; dsimp only; rw [h.counter], h.store⟩) fun _ => .pure hf) .hang

/-- The number of calls of `Next`. -/
def Spec.calls : List Action → Nat
  | [] => 0
  | .next :: l => calls l + 1
  | .reader _ :: l => calls l

/-- **C134**: two decoders that are the same except that the frames which they hold agree in the samples of the set `G c` (component
`c`).  Whatever the input and whatever an application does with them, as long as the headers that are read have f_codes of at most
`F` and do not change the length of the lines: all calls of `Next` have the same outcome in both, and after `n` calls the frames
returned and the frames held agree in every sample from which all samples within the distance `n * reach` are in `G c`.  (A call
decodes one picture here: if it is not the one to be returned, the model's call ends without a result and the next call goes on.) -/
theorem C134 {F Y C : Nat} (hF : F ≤ 15) (fuel : Nat) : ∀ (l : List Action) {G : Nat → Nat → Prop} {s t : VS}, Twins (StoreAgree Y C G) s t →
    (∀ l', l' <+: l → Moderate F Y C (perform fuel 1 l' s).2) →
    Pairwise2 (SameRes (FrameAgree Y C fun c => farInside (calls l * reach F F (lineOf Y C c)) (G c)))
      (perform fuel 1 l s).1 (perform fuel 1 l t).1 ∧
    Twins (StoreAgree Y C fun c => farInside (calls l * reach F F (lineOf Y C c)) (G c)) (perform fuel 1 l s).2 (perform fuel 1 l t).2
  | [], G, s, t, h, _ => by
    refine ⟨.nil, ⟨h.br, h.sh, h.se, h.gop, h.ph, h.pce, h.qm, h.counter, storeAgree_mono (fun c k hk => hk k ⟨by omega, by omega⟩) h.store⟩⟩
  | .next :: l, G, s, t, h, hm => by
    obtain ⟨h1, h2⟩ := agree_next hF fuel h (hm [.next] ⟨l, rfl⟩)
    obtain ⟨h3, h4⟩ := C134 hF fuel l h2 fun l' ⟨x, hx⟩ => hm (.next :: l') ⟨x, by rw [← hx]; rfl⟩
    have hsub : ∀ c k, farInside (calls (.next :: l) * reach F F (lineOf Y C c)) (G c) k →
        farInside (calls l * reach F F (lineOf Y C c)) (shrink F Y C G c) k := by
      intro c k hk j hj i hi
      apply hk
      unfold NNear at hi hj ⊢
      have : calls (.next :: l) * reach F F (lineOf Y C c) = calls l * reach F F (lineOf Y C c) + reach F F (lineOf Y C c) :=
        Nat.succ_mul _ _
      omega
    exact ⟨.cons (sameRes_mono (fun _ _ => frameAgree_mono fun c k hk => hsub c k hk k ⟨by omega, by omega⟩) h1)
        (pairwise2_mono (fun _ _ => sameRes_mono fun _ _ => frameAgree_mono hsub) h3),
      ⟨h4.br, h4.sh, h4.se, h4.gop, h4.ph, h4.pce, h4.qm, h4.counter, storeAgree_mono hsub h4.store⟩⟩
  | .reader m :: l, G, s, t, h, hm => C134 hF fuel l (twins_lift m s t h).2 fun l' ⟨x, hx⟩ => hm (.reader m :: l') ⟨x, by rw [← hx]; rfl⟩

/-- **C134**, lines: if the frames held agree below line `R`, then after `n` calls they agree `n * (8 f + 8)` lines below it, where
`f = 2 ^ (F - 1)` and vectors are not longer than the lines: damage at the top of the reference pictures moves down by at most
`8 f + 8` lines from picture to picture. -/
theorem C134_lines {F Y C : Nat} (hF : F ≤ 15) (fuel : Nat) (l : List Action) {s t : VS} {R : Nat}
    (h : Twins (StoreAgree Y C fun c j => R * lineOf Y C c ≤ j) s t) (hm : ∀ l', l' <+: l → Moderate F Y C (perform fuel 1 l' s).2)
    (hY : 8 * mvScale F ≤ Y) (hC : 8 * mvScale F ≤ C) :
    Pairwise2 (SameRes (FrameAgree Y C fun c j => (R + calls l * (8 * mvScale F + 8)) * lineOf Y C c ≤ j))
      (perform fuel 1 l s).1 (perform fuel 1 l t).1 := by
  have hsub : ∀ c k, (R + calls l * (8 * mvScale F + 8)) * lineOf Y C c ≤ k →
      farInside (calls l * reach F F (lineOf Y C c)) (fun j => R * lineOf Y C c ≤ j) k := by
    intro c k hk j hj
    have hl : 8 * mvScale F ≤ lineOf Y C c := by unfold lineOf; split <;> assumption
    generalize lineOf Y C c = S at *
    have h1 : reach F F S ≤ (8 * mvScale F + 8) * S := by
      unfold reach
      have : (8 * mvScale F + 8) * S = (8 * mvScale F + 7) * S + S := Nat.succ_mul _ _
      omega
    have h2 : calls l * reach F F S ≤ calls l * ((8 * mvScale F + 8) * S) := Nat.mul_le_mul_left _ h1
    have h3 : (R + calls l * (8 * mvScale F + 8)) * S = R * S + calls l * ((8 * mvScale F + 8) * S) := by
      rw [Nat.add_mul, Nat.mul_assoc]
    unfold NNear at hj
    omega
  exact pairwise2_mono (fun _ _ => sameRes_mono fun _ _ => frameAgree_mono hsub) (C134 hF fuel l h hm).1

namespace ExSpread
open ExStream ExDrift

/-- an intra coded macroblock with the DC differences 0 -/
def intra : List Bool :=
  [true, true] ++ (List.replicate 4 [true, false, false, true, false]).flatten ++ (List.replicate 2 [false, false, true, false]).flatten
def row (n : Nat) (mb : List Bool) : List Bool := byte (bitsOf 32 (0x100 + n) ++ bitsOf 5 3 ++ [false] ++ mb)
/-- a forward predicted macroblock with the vector (0, -8) -/
def up8 : List Bool := [true] ++ [false, false, true] ++ [true] ++ [false, false, false, false, false, false, true, true, false, false, true]

/-- 16 x 48 samples: an I picture, a P picture whose second row of macroblocks is predicted from 8 lines above -/
def stream : List Bool :=
  byte (encSeq (seqH 48)) ++ (byte (encSeqExt (seqE 1)) ++ (byte (encGOP gopH) ++ (byte (encPic ⟨0, .other 1, 0, []⟩) ++
    (byte (encPicExt picE) ++ (row 1 intra ++ (row 2 intra ++ (row 3 intra ++ (byte (encPic ⟨1, .p 0 7, 0, []⟩) ++
    (byte (encPicExt picE) ++ (row 2 up8 ++ bitsOf 32 0x1B7))))))))))

def afterI : VS := (VS.next 1000 1 (VS.new ⟨stream, 0, .eof, []⟩)).2

/-- line 8 of the luma samples made brighter -/
def spoil (f : Frame) : Frame := { f with y := ⟨f.y.len, fun i => if i / 16 = 8 then f.y.data i + 3 else f.y.data i⟩ }
def spoilt (s : VS) : VS :=
  { s with fs := ⟨s.fs.f0.map fun r => { r with frame := spoil r.frame }, s.fs.f1.map fun r => { r with frame := spoil r.frame },
      s.fs.past.map spoil, s.fs.future.map spoil⟩ }

theorem spoil_agree {f : Frame} (h : f.yStride = 16 ∧ f.cStride = 8) : FrameAgree 16 8 (fun c j => 9 * lineOf 16 8 c ≤ j) f (spoil f) :=
  ⟨⟨h.1, h.1⟩, ⟨h.2, h.2⟩, ⟨rfl, fun i _ hi => by
    have hi : 9 * 16 ≤ i := hi
    show _ = if i / 16 = 8 then _ else _
    rw [if_neg (by omega)]⟩, planeAgree_refl _ _, planeAgree_refl _ _⟩

/-- all frames of the store have lines of 16 luma and 8 chroma samples -/
def lines (s : VS) : Bool :=
  let ok := fun f : Frame => f.yStride == 16 && f.cStride == 8
  s.fs.f0.all (fun r => ok r.frame) && s.fs.f1.all (fun r => ok r.frame) && s.fs.past.all ok && s.fs.future.all ok

theorem both_self_of {α : Type} {R : α → α → Prop} {g : α → α} {p : α → Bool} (h : ∀ a, p a = true → R a (g a)) : ∀ {o : Option α},
    o.all p = true → Both R o (o.map g)
  | none, _ => .none
  | some a, ha => .some (h a ha)

theorem spoilt_twins {s : VS} (h : lines s = true) : Twins (StoreAgree 16 8 fun c j => 9 * lineOf 16 8 c ≤ j) s (spoilt s) := by
  unfold lines at h
  simp only [Bool.and_eq_true] at h
  have hok : ∀ f : Frame, (f.yStride == 16 && f.cStride == 8) = true → FrameAgree 16 8 (fun c j => 9 * lineOf 16 8 c ≤ j) f (spoil f) := by
    intro f hf
    simp only [Bool.and_eq_true, beq_iff_eq] at hf
    exact spoil_agree hf
  exact ⟨rfl, rfl, rfl, rfl, rfl, rfl, rfl, rfl, ⟨both_self_of (fun r hr => ⟨hok _ hr, rfl, rfl⟩) h.1.1.1,
    both_self_of (fun r hr => ⟨hok _ hr, rfl, rfl⟩) h.1.1.2, both_self_of hok h.1.2, both_self_of hok h.2⟩⟩

def mild (u : VS) : Bool :=
  (u.pce.all fun p => p.f00 == 1 && p.f01 == 1 && p.f10 == 1 && p.f11 == 1) &&
  u.se.all fun se => (newFrame u se).yStride == 16 && (newFrame u se).cStride == 8
theorem mild_moderate {u : VS} (h : mild u = true) : Moderate 1 16 8 u := by
  unfold mild at h
  simp only [Bool.and_eq_true] at h
  refine ⟨fun pce hp => ?_, fun se hs => ?_⟩
  · have h1 := h.1
    rw [hp] at h1
    simp only [Option.all_some, Bool.and_eq_true, beq_iff_eq] at h1
    intro r x hr hx
    unfold PictureCodingExtension.fCode
    rcases (show r = 0 ∨ r = 1 by omega) with rfl | rfl <;> rcases (show x = 0 ∨ x = 1 by omega) with rfl | rfl <;> simp [h1]
  · have h2 := h.2
    rw [hs] at h2
    simp only [Option.all_some, Bool.and_eq_true, beq_iff_eq] at h2
    exact h2

/-- the P pictures agree from line 25 = 9 + 16 on -/
example : Pairwise2 (SameRes (FrameAgree 16 8 fun c j => 25 * lineOf 16 8 c ≤ j)) (perform 1000 1 [.next] afterI).1
    (perform 1000 1 [.next] (spoilt afterI)).1 := by
  refine C134_lines (F := 1) (R := 9) (by decide) 1000 [.next] (spoilt_twins (by decide +kernel)) ?_ (by decide) (by decide)
  intro l' hl
  refine mild_moderate ?_
  rcases l' with _ | ⟨a, _ | ⟨b, l''⟩⟩
  · decide +kernel
  · obtain ⟨x, hx⟩ := hl
    cases hx
    decide +kernel
  · obtain ⟨x, hx⟩ := hl
    simp at hx

/-- the pictures are there, and the difference has moved down by 8 lines: it is in line 16 now, and in no other line of the row -/
example : ((perform 1000 1 [.next] afterI).1.map fun r => match r with
      | .ok f => (List.range 16).map fun k => f.y.data (256 + 16 * k)
      | _ => []) = [[128, 128, 128, 128, 128, 128, 128, 128, 128, 128, 128, 128, 128, 128, 128, 128]] ∧
    ((perform 1000 1 [.next] (spoilt afterI)).1.map fun r => match r with
      | .ok f => (List.range 16).map fun k => f.y.data (256 + 16 * k)
      | _ => []) = [[131, 128, 128, 128, 128, 128, 128, 128, 128, 128, 128, 128, 128, 128, 128, 128]] := by decide +kernel

end ExSpread

end Mpeg.Video
