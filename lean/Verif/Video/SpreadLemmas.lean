/-
Two decoders on the same bits, any relation between their frames that single blocks and copies respect.
-/
import Verif.Video.DriftLemmas3
import Verif.Video.SpreadSpec
import Verif.Video.MbLemmas2
set_option linter.all false
namespace Mpeg.Video
open Spec

theorem step_keep {σ α : Type} {R : σ → σ → Prop} {I : σ → Prop} {Q : α → α → Prop} {m m' : Go σ α} (h : Go.Step R Q m m')
    (hk : Keeps I m) : Go.Step (fun s t => R s t ∧ I s) Q m m' :=
  fun s t hr => ⟨(h s t hr.1).1, (h s t hr.1).2, hk s hr.2⟩
/-- the relation may be used where the computation starts -/
theorem step_from {σ α : Type} {R : σ → σ → Prop} {Q : α → α → Prop} {m m' : Go σ α}
    (h : ∀ s t, R s t → Go.Step R Q m m') : Go.Step R Q m m' := fun s t hr => h s t hr s t hr

/-- the same state of the slice, frames related by `F`; the vectors satisfy `I` -/
structure MbRel (F : Frame → Frame → Prop) (s t : MB) : Prop where
  br : s.br = t.br
  dcp : s.dcp = t.dcp
  mvd : s.mvd = t.mvd
  qsc : s.qsc = t.qsc
  frame : F s.frame t.frame

/-- what a relation between frames has to satisfy -/
structure Respects (F : Frame → Frame → Prop) (I : MVD → Prop) (e : PicEnv) (p f : Option Frame) : Prop where
  shape : ∀ g g', F g g' → g.y.len = g'.y.len ∧ g.cb.len = g'.cb.len ∧ g.cr.len = g'.cr.len ∧ g.yStride = g'.yStride ∧
    g.cStride = g'.cStride
  finish : ∀ d, I d → ∀ b i addr row il g g', F g g' →
    Both F (finishBlock e d b i addr row il g) (finishBlock (e.refs p f) d b i addr row il g')
  copy : ∀ row col n g g', F g g' → Both F (pframeCopy row col n g e.past) (pframeCopy row col n g' p)
  vectors : ∀ m, Keeps (OnMvd I) (mbVectors e m)
  init : ∀ a b, I ⟨fun _ _ _ => 0, fun _ _ _ => 0, a, b⟩

section
variable {F : Frame → Frame → Prop} {I : MVD → Prop} {e : PicEnv} {p f : Option Frame}

theorem rel_mlift {α : Type} (m : Go BR α) : Go.Step (MbRel F) Eq (MB.lift m) (MB.lift m) := by
  intro s t h
  unfold MB.lift
  rw [h.br]
  exact ⟨sameRes_refl _, ⟨rfl, h.dcp, h.mvd, h.qsc, h.frame⟩⟩
theorem rel_setFrame {g g' : Frame} (h : F g g') :
    Go.Step (MbRel F) Eq (Go.modify fun s : MB => { s with frame := g }) (Go.modify fun s : MB => { s with frame := g' }) :=
  .modify fun s t hr => ⟨hr.br, hr.dcp, hr.mvd, hr.qsc, h⟩
theorem rel_motionVectorPart (info : MvInfo) (r s t : Nat) :
    Go.Step (MbRel F) Eq (motionVectorPart e info r s t) (motionVectorPart e info r s t) :=
  .bindEq (rel_mlift _) fun _ => .ite .panic (.modify fun s t hr => by rw [hr.mvd]; exact ⟨hr.br, hr.dcp, rfl, hr.qsc, hr.frame⟩)
theorem rel_motionVector (info : MvInfo) (r s : Nat) :
    Go.Step (MbRel F) Eq (motionVector e info r s) (motionVector e info r s) :=
  .bindEq (rel_motionVectorPart _ _ _ _) fun _ => rel_motionVectorPart _ _ _ _
theorem rel_motionVectors (s : Nat) (m : Mode) : Go.Step (MbRel F) Eq (motionVectors e s m) (motionVectors e s m) := by
  unfold motionVectors
  refine .bindEq (m := orPanic (mvInfo e.pce.framePredFrameDCT m)) (.orPanic ?_) fun info => .ite
    (.bindEq (.opt (rel_mlift _)) fun _ => rel_motionVector _ _ _)
    (.bindEq (rel_mlift _) fun _ => .bindEq (rel_motionVector _ _ _) fun _ => .bindEq (rel_mlift _) fun _ => rel_motionVector _ _ _)
  cases mvInfo e.pce.framePredFrameDCT m with
  | none => exact .none
  | some i => exact .some rfl
theorem rel_mbVectors (m : Mode) : Go.Step (MbRel F) Eq (mbVectors e m) (mbVectors e m) := by
  unfold mbVectors
  exact .bindEq (.opt (.bindEq (rel_mlift _) fun _ => .modify fun s t hr => ⟨hr.br, hr.dcp, hr.mvd, rfl, hr.frame⟩)) fun _ =>
    .bindEq (.opt (rel_motionVectors _ _)) fun _ => .bindEq (.opt (rel_motionVectors _ _)) fun _ =>
    .bindEq (.modify fun s t hr => ⟨hr.br, hr.dcp, by dsimp only; rw [hr.mvd], hr.qsc, hr.frame⟩) fun _ => .opt (rel_mlift _)
theorem rel_mbBlock (intra coded : Bool) (i : Nat) (b : Block) :
    Go.Step (MbRel F) Eq (mbBlock e intra coded i b) (mbBlock e intra coded i b) := by
  intro s t hr
  unfold mbBlock
  split
  · rw [hr.br, hr.dcp, hr.qsc]
    cases readBlock b t.dcp e.pce.intraVLCFormat (colorChannel i) intra t.br with
    | mk r u => cases r with
      | ok c => exact ⟨.ok rfl, ⟨rfl, rfl, hr.mvd, rfl, hr.frame⟩⟩
      | err x => exact ⟨.err x, ⟨rfl, rfl, hr.mvd, rfl, hr.frame⟩⟩
      | panic => exact ⟨.panic, ⟨rfl, rfl, hr.mvd, rfl, hr.frame⟩⟩
      | hang => exact ⟨.hang, ⟨rfl, rfl, hr.mvd, rfl, hr.frame⟩⟩
  · exact ⟨.ok rfl, hr⟩

/-- the states in step, with the condition on the vectors -/
abbrev MbRelI (F : Frame → Frame → Prop) (I : MVD → Prop) (s t : MB) : Prop := MbRel F s t ∧ OnMvd I s

theorem relI_mlift {α : Type} (m : Go BR α) : Go.Step (MbRelI F I) Eq (MB.lift m) (MB.lift m) := step_keep (rel_mlift m) (keeps_lift m)

theorem bcopyBlocks_rel (h : Respects F I e p f) {d : MVD} (hd : I d) (addr row : Nat) : ∀ (k : Nat) {g g' : Frame}, F g g' →
    Both F (bcopyBlocks e d addr row k g) (bcopyBlocks (e.refs p f) d addr row k g')
  | 0, _, _, h => .some h
  | k + 1, g, g', hg => by
    have hm := h.finish d hd Block.zero (5 - k) addr row false g g' hg
    cases hx : finishBlock e d Block.zero (5 - k) addr row false g with
    | none =>
      cases hy : finishBlock (e.refs p f) d Block.zero (5 - k) addr row false g' with
      | none => rw [bcopyBlocks_none hx, bcopyBlocks_none hy]; exact .none
      | some b => rw [hx, hy] at hm; cases hm
    | some a =>
      cases hy : finishBlock (e.refs p f) d Block.zero (5 - k) addr row false g' with
      | none => rw [hx, hy] at hm; cases hm
      | some b =>
        rw [hx, hy] at hm
        rw [bcopyBlocks_step hx, bcopyBlocks_step hy]
        cases hm with
        | some hm => exact bcopyBlocks_rel h hd addr row k hm
theorem bframe_rel (h : Respects F I e p f) {d : MVD} (hd : I d) (row : Nat) : ∀ (n addr : Nat) {g g' : Frame}, F g g' →
    Both F (bframeCopy e d row addr n g) (bframeCopy (e.refs p f) d row addr n g')
  | 0, _, _, _, h => .some h
  | n + 1, addr, g, g', hg => by
    have hm := bcopyBlocks_rel h hd addr row 6 hg
    cases hx : bcopyBlocks e d addr row 6 g with
    | none =>
      cases hy : bcopyBlocks (e.refs p f) d addr row 6 g' with
      | none => rw [bframeCopy_none hx, bframeCopy_none hy]; exact .none
      | some b => rw [hx, hy] at hm; cases hm
    | some a =>
      cases hy : bcopyBlocks (e.refs p f) d addr row 6 g' with
      | none => rw [hx, hy] at hm; cases hm
      | some b =>
        rw [hx, hy] at hm
        rw [bframeCopy_step hx, bframeCopy_step hy]
        cases hm with
        | some hm => exact bframe_rel h hd row n (addr + 1) hm

theorem rel_copySkipped (h : Respects F I e p f) (row : Nat) (addr : Option Nat) (incr : Nat) :
    Go.Step (MbRelI F I) Eq (copySkipped e row addr incr) (copySkipped (e.refs p f) row addr incr) := by
  rintro s t ⟨hr, hi⟩
  suffices hs : SameRes Eq (copySkipped e row addr incr s).1 (copySkipped (e.refs p f) row addr incr t).1 ∧
      MbRel F (copySkipped e row addr incr s).2 (copySkipped (e.refs p f) row addr incr t).2 from
    ⟨hs.1, hs.2, keeps_copySkipped e row addr incr s hi⟩
  unfold copySkipped
  cases addr with
  | none => exact ⟨.ok rfl, hr⟩
  | some a =>
    by_cases h1 : 1 < incr
    · simp only [if_pos h1]
      have hpc : (e.refs p f).ph = e.ph := rfl
      rw [hpc]
      by_cases h2 : e.ph.pictureCodingType = pFrame
      · simp only [if_pos h2]
        exact Go.Step.bind (.orPanic (h.copy row (a + 1) (incr - 1) _ _ hr.frame)) (fun _ _ h => rel_setFrame h) s t hr
      · simp only [if_neg h2]
        by_cases h3 : e.ph.pictureCodingType = bFrame
        · simp only [if_pos h3]
          refine Go.Step.bind (.orPanic ?_) (fun _ _ h => rel_setFrame h) s t hr
          rw [← hr.mvd]
          exact bframe_rel h hi row (incr - 1) (a + 1) hr.frame
        · simp only [if_neg h3]
          exact ⟨.ok rfl, hr⟩
    · simp only [if_neg h1]
      exact ⟨.ok rfl, hr⟩

theorem rel_mbBlocks (h : Respects F I e p f) (intra dct : Bool) (coded : Nat → Bool) (addr row : Nat) : ∀ (k i : Nat) (b : Block),
    Go.Step (MbRelI F I) Eq (mbBlocks e intra dct coded addr row k i b) (mbBlocks (e.refs p f) intra dct coded addr row k i b)
  | 0, _, _ => .pure rfl
  | k + 1, i, b => .bindEq (m' := mbBlock e intra (coded i) i b) (step_keep (rel_mbBlock _ _ _ _) (keeps_mbBlock _ _ _ _ _)) fun b' =>
      .getBind fun s t hr =>
        .bind (.orPanic (by rw [← hr.1.mvd]; exact h.finish s.mvd hr.2 b' i addr row dct _ _ hr.1.frame)) fun _ _ hf =>
          .bindEq (step_keep (rel_setFrame hf) (keeps_modify fun _ h => h)) fun _ => rel_mbBlocks h intra dct coded addr row k (i + 1) b'
theorem rel_mbFinish (h : Respects F I e p f) (row a : Nat) (m : Mode) (cbp : Nat) :
    Go.Step (MbRelI F I) Eq (mbFinish e row a m cbp) (mbFinish (e.refs p f) row a m cbp) :=
  .bindEq (rel_mbBlocks h _ _ _ _ _ _ _ _) fun _ => .pure rfl
theorem rel_mbPattern (h : Respects F I e p f) (row a : Nat) (m : Mode) :
    Go.Step (MbRelI F I) Eq (mbPattern e row a m) (mbPattern (e.refs p f) row a m) := by
  unfold mbPattern
  refine .ite ?_ (rel_mbFinish h _ _ _ _)
  rw [mbCoded_handle, mbCoded_handle]
  exact .handle (relI_mlift _) (fun a b he => by cases he; exact rel_mbFinish h _ _ _ _) fun _ => .pure rfl
theorem rel_macroblock (h : Respects F I e p f) (row : Nat) (addr : Option Nat) :
    Go.Step (MbRelI F I) Eq (macroblock e row addr) (macroblock (e.refs p f) row addr) :=
  .bindEq (relI_mlift _) fun incr => .bindEq (rel_copySkipped h row addr incr) fun _ =>
    .bindEq (m' := skipResets e incr) (.modify fun s t hr =>
      ⟨⟨hr.1.br, by dsimp only; rw [hr.1.dcp], by dsimp only; rw [hr.1.mvd], hr.1.qsc, hr.1.frame⟩, by
        show I (if e.ph.pictureCodingType = pFrame ∧ 1 < incr then s.mvd.reset else s.mvd)
        split
        · exact h.init _ _
        · exact hr.2⟩) fun _ =>
    .bindEq (m' := MB.lift (macroblockMode e)) (relI_mlift _) fun m =>
    .bindEq (m' := modeResets e m.type) (.modify fun s t hr =>
      ⟨⟨hr.1.br, by dsimp only; rw [hr.1.dcp], by dsimp only; rw [hr.1.mvd], hr.1.qsc, hr.1.frame⟩, by
        show I (ite _ s.mvd.reset s.mvd)
        split
        · exact h.init _ _
        · exact hr.2⟩) fun _ =>
    .bindEq (m' := mbVectors e m) (step_keep (rel_mbVectors m) (h.vectors m)) fun _ => rel_mbPattern h _ _ _
theorem rel_mbLoop (h : Respects F I e p f) (row : Nat) : ∀ k addr,
    Go.Step (MbRelI F I) Eq (mbLoop e row k addr) (mbLoop (e.refs p f) row k addr)
  | 0, _ => .hang
  | k + 1, addr => .bindEq (rel_macroblock h row addr) fun _ => .bindEq (relI_mlift _) fun _ =>
      .ite (.pure rfl) (rel_mbLoop h row k _)
theorem rel_mbLoopAll (h : Respects F I e p f) (row : Nat) :
    Go.Step (MbRelI F I) Eq (mbLoopAll e row) (mbLoopAll (e.refs p f) row) := by
  intro s t hr
  unfold mbLoopAll
  rw [hr.1.br]
  exact rel_mbLoop h row _ none s t hr
theorem rel_slice (h : Respects F I e p f) : Go.Step (MbRelI F I) Eq (slice e) (slice (e.refs p f)) := by
  unfold slice
  refine .bindEq (relI_mlift _) fun code => .bindEq .check fun _ => .getBind fun s t hr => ?_
  obtain ⟨h1, h2, h3, h4, h5⟩ := h.shape _ _ hr.1.frame
  rw [h1, h2, h3, h4, h5]
  exact .ite .panic (.bindEq (relI_mlift _) fun _ => .bindEq (.modify fun s t hr => ⟨⟨hr.1.br, rfl, rfl, rfl, hr.1.frame⟩, h.init _ _⟩) fun _ =>
    .bindEq (rel_mbLoopAll h _) fun _ => relI_mlift _)
theorem rel_sliceLoop (h : Respects F I e p f) : ∀ k, Go.Step (MbRelI F I) Eq (sliceLoop e k) (sliceLoop (e.refs p f) k)
  | 0 => .hang
  | k + 1 => .bindEq (rel_slice h) fun _ => .bindEq (relI_mlift _) fun _ => .ite (rel_sliceLoop h k) (.pure rfl)
theorem rel_slicesOf (h : Respects F I e p f) : Go.Step (MbRelI F I) Eq (slicesOf e) (slicesOf (e.refs p f)) := by
  intro s t hr
  unfold slicesOf
  rw [hr.1.br]
  exact Go.Step.bindEq (rel_sliceLoop h _) (fun _ => relI_mlift _) s t hr
end

/-- a picture, for any relation between frames that blocks and copies respect -/
theorem twins_picture_rel {F : Frame → Frame → Prop} {I : MVD → Prop} {Q : FrameStore → FrameStore → Prop} {s t : VS} (h : Twins Q s t)
    (hR : ∀ sh se ph pce, s.sh = some sh → s.se = some se → s.ph = some ph → s.pce = some pce →
      Respects F I ⟨sh, se, ph, pce, s.qm, s.fs.past, s.fs.future⟩ t.fs.past t.fs.future ∧ F (startMB se pce s).frame (startMB se pce s).frame) :
    SameRes F (pictureData s).1 (pictureData t).1 ∧ Twins Q (pictureData s).2 (pictureData t).2 := by
  rw [pictureData_of]
  dsimp only
  unfold pictureOf
  rw [← h.sh, ← h.se, ← h.ph, ← h.pce]
  cases h1 : s.sh with
  | none => exact ⟨.panic, h⟩
  | some sh =>
  cases h2 : s.se with
  | none => exact ⟨.panic, h⟩
  | some se =>
  cases h3 : s.ph with
  | none => exact ⟨.panic, h⟩
  | some ph =>
  cases h4 : s.pce with
  | none => exact ⟨.panic, h⟩
  | some pce =>
    dsimp only
    obtain ⟨hr, hF⟩ := hR sh se ph pce h1 h2 h3 h4
    rw [pictureWith_from, pictureWith_from]
    have hz : startMB se pce s = startMB se pce t := by
      unfold startMB VS.size
      rw [h.br, h.sh, h.se]
    have he := rel_slicesOf hr (startMB se pce s) (startMB se pce t) ⟨by rw [← hz]; exact ⟨rfl, rfl, rfl, rfl, hF⟩, hr.init _ _⟩
    unfold PicEnv.refs at he
    dsimp only at he
    rw [show (⟨sh, se, ph, pce, t.qm, t.fs.past, t.fs.future⟩ : PicEnv) = ⟨sh, se, ph, pce, s.qm, t.fs.past, t.fs.future⟩ by rw [h.qm]]
    revert he
    generalize slicesOf ⟨sh, se, ph, pce, s.qm, s.fs.past, s.fs.future⟩ (startMB se pce s) = x
    generalize slicesOf ⟨sh, se, ph, pce, s.qm, t.fs.past, t.fs.future⟩ (startMB se pce t) = y
    rintro ⟨h5, h6, _⟩
    obtain ⟨r, m⟩ := x
    obtain ⟨r', m'⟩ := y
    have hs : Twins Q { s with br := m.br } { t with br := m'.br } :=
      ⟨h6.br, h.sh, h.se, h.gop, h.ph, h.pce, h.qm, h.counter, h.store⟩
    cases h5 with
    | ok _ => exact ⟨.ok h6.frame, hs⟩
    | err e => exact ⟨.err e, hs⟩
    | panic => exact ⟨.panic, hs⟩
    | hang => exact ⟨.hang, hs⟩

end Mpeg.Video
