/-
Which reference frames a picture looks at: an I picture at none, a P picture at the past one only.
-/
import Verif.Video.DriftLemmas2
import Verif.Video.FieldLemmas2
set_option linter.all false
namespace Mpeg.Video
open Spec

section
variable {e : PicEnv} {p f : Option Frame}

/-- the new reference frames are, as far as a picture of this type looks at them, the old ones -/
def Blind (e : PicEnv) (p : Option Frame) : Prop :=
  e.ph.pictureCodingType = 1 ∨ e.ph.pictureCodingType = 2 ∧ p = e.past

/-- the same state, without backward prediction and, in an I picture, without forward prediction -/
def AheadMb (e : PicEnv) (s t : MB) : Prop :=
  s = t ∧ s.mvd.bwd = false ∧ (e.ph.pictureCodingType = 1 → s.mvd.fwd = false)

theorem ahead_mlift {α : Type} (m : Go BR α) : Go.Step (AheadMb e) Eq (MB.lift m) (MB.lift m) := by
  rintro s t ⟨rfl, h⟩
  exact ⟨sameRes_refl _, rfl, h⟩

theorem finish_blind (hb : Blind e p) {d : MVD} (h1 : d.bwd = false) (h2 : e.ph.pictureCodingType = 1 → d.fwd = false) (b : Block)
    (i addr row : Nat) (il : Bool) (g : Frame) : finishBlock e d b i addr row il g = finishBlock (e.refs p f) d b i addr row il g := by
  have hf : d.fwdRef e.past = d.fwdRef p := by
    rcases hb with h | ⟨_, rfl⟩
    · unfold MVD.fwdRef; rw [h2 h]; rfl
    · rfl
  have hbw : d.bwdRef e.future = d.bwdRef f := by unfold MVD.bwdRef; rw [h1]; rfl
  unfold finishBlock
  rw [hf, hbw]
  rfl

theorem ahead_copySkipped (hb : Blind e p) (row : Nat) (addr : Option Nat) (incr : Nat) :
    Go.Step (AheadMb e) Eq (copySkipped e row addr incr) (copySkipped (e.refs p f) row addr incr) := by
  rintro s t ⟨rfl, hr⟩
  have hm : copySkipped e row addr incr s = copySkipped (e.refs p f) row addr incr s := by
    unfold copySkipped
    rcases hb with h | ⟨h, rfl⟩
    · have h' : (e.refs p f).ph.pictureCodingType = 1 := h
      rw [h, h']
      rfl
    · have h' : (e.refs e.past f).ph.pictureCodingType = 2 := h
      rw [h, h']
      rfl
  rw [← hm]
  refine ⟨sameRes_refl _, rfl, ?_⟩
  have hk : (copySkipped e row addr incr s).2.mvd = s.mvd := by
    unfold copySkipped
    cases addr with
    | none => rfl
    | some a =>
      dsimp only
      split
      · split
        · cases pframeCopy row (a + 1) (incr - 1) s.frame e.past <;> rfl
        · split
          · cases bframeCopy e s.mvd row (a + 1) (incr - 1) s.frame <;> rfl
          · rfl
      · rfl
  rw [hk]
  exact hr

theorem ahead_motionVectorPart (info : MvInfo) (r s t : Nat) :
    Go.Step (AheadMb e) Eq (motionVectorPart e info r s t) (motionVectorPart e info r s t) :=
  .bindEq (ahead_mlift _) fun _ => .ite .panic (.modify fun s t hr => by obtain ⟨rfl, h⟩ := hr; exact ⟨rfl, h⟩)
theorem ahead_motionVector (info : MvInfo) (r s : Nat) : Go.Step (AheadMb e) Eq (motionVector e info r s) (motionVector e info r s) :=
  .bindEq (ahead_motionVectorPart _ _ _ _) fun _ => ahead_motionVectorPart _ _ _ _
theorem ahead_motionVectors (s : Nat) (m : Mode) : Go.Step (AheadMb e) Eq (motionVectors e s m) (motionVectors e s m) := by
  unfold motionVectors
  refine .bindEq (m := orPanic (mvInfo e.pce.framePredFrameDCT m)) (.orPanic ?_) fun info => .ite
    (.bindEq (.opt (ahead_mlift _)) fun _ => ahead_motionVector _ _ _)
    (.bindEq (ahead_mlift _) fun _ => .bindEq (ahead_motionVector _ _ _) fun _ => .bindEq (ahead_mlift _) fun _ => ahead_motionVector _ _ _)
  cases mvInfo e.pce.framePredFrameDCT m with
  | none => exact .none
  | some i => exact .some rfl

/-- the types of macroblocks of I and P pictures -/
def Fits (e : PicEnv) (m : Mode) : Prop :=
  (e.ph.pictureCodingType = 1 → m.type.intra = true) ∧ (e.ph.pictureCodingType = 2 → m.type.backward = false)

theorem formed_ahead (hb : Blind e p) {m : Mode} (h : Fits e m) (d : MVD) :
    (d.setFormed m.type e.ph.pictureCodingType).bwd = false ∧
      (e.ph.pictureCodingType = 1 → (d.setFormed m.type e.ph.pictureCodingType).fwd = false) := by
  unfold MVD.setFormed
  rcases hb with h1 | ⟨h1, _⟩
  · rw [h.1 h1]; exact ⟨rfl, fun _ => rfl⟩
  · have hbk := h.2 h1
    rw [h1, hbk]
    cases m.type.intra <;> cases m.type.forward <;> simp [pFrame]

theorem ahead_mbVectors (hb : Blind e p) {m : Mode} (h : Fits e m) : Go.Step (AheadMb e) Eq (mbVectors e m) (mbVectors e m) := by
  unfold mbVectors
  exact .bindEq (.opt (.bindEq (ahead_mlift _) fun _ => .modify fun s t hr => by obtain ⟨rfl, h⟩ := hr; exact ⟨rfl, h⟩)) fun _ =>
    .bindEq (.opt (ahead_motionVectors _ _)) fun _ => .bindEq (.opt (ahead_motionVectors _ _)) fun _ =>
    .bindEq (.modify fun s t hr => by obtain ⟨rfl, _⟩ := hr; exact ⟨rfl, formed_ahead hb h s.mvd⟩) fun _ => .opt (ahead_mlift _)

theorem type_intra' {s s' : BR} {t : MacroblockType} (h : mbType 1 s = (.ok t, s')) : t.intra = true := by
  obtain ⟨l, hl, -⟩ := (reads_mbType 1).bwd s t s' h
  have hl : (l, t) ∈ isoTypeI := hl
  have : ∀ p ∈ isoTypeI, p.2.intra = true := by decide
  exact this _ hl
theorem type_pred {s s' : BR} {t : MacroblockType} (h : mbType 2 s = (.ok t, s')) : t.backward = false := by
  obtain ⟨l, hl, -⟩ := (reads_mbType 2).bwd s t s' h
  have hl : (l, t) ∈ isoTypeP := hl
  have : ∀ p ∈ isoTypeP, p.2.backward = false := by decide
  exact this _ hl

theorem mode_fits {s s' : BR} {m : Mode} (hm : macroblockMode e s = (.ok m, s')) : Fits e m := by
  unfold macroblockMode at hm
  obtain ⟨t, s1, h1, hm⟩ := Go.bind_eq_ok hm
  obtain ⟨x, s2, _, hm⟩ := Go.bind_eq_ok hm
  obtain ⟨y, s3, _, hm⟩ := Go.bind_eq_ok hm
  obtain ⟨z, s4, _, hm⟩ := Go.bind_eq_ok hm
  cases hm
  exact ⟨fun h => type_intra' (by rw [h] at h1; exact h1), fun h => type_pred (by rw [h] at h1; exact h1)⟩

theorem ahead_mode : Go.Step (AheadMb e) (fun a b => a = b ∧ Fits e a) (MB.lift (macroblockMode e)) (MB.lift (macroblockMode e)) := by
  rintro s t ⟨rfl, h⟩
  refine ⟨?_, rfl, h⟩
  unfold MB.lift
  rcases hm : macroblockMode e s.br with ⟨r, u⟩
  cases r with
  | ok m => exact .ok ⟨rfl, mode_fits hm⟩
  | err x => exact .err x
  | panic => exact .panic
  | hang => exact .hang

theorem ahead_mbBlock (intra coded : Bool) (i : Nat) (b : Block) :
    Go.Step (AheadMb e) Eq (mbBlock e intra coded i b) (mbBlock e intra coded i b) := by
  rintro s t ⟨rfl, h⟩
  refine ⟨sameRes_refl _, rfl, ?_⟩
  have hk : (mbBlock e intra coded i b s).2.mvd = s.mvd := by
    unfold mbBlock
    split
    · cases readBlock b s.dcp e.pce.intraVLCFormat (colorChannel i) intra s.br with | mk r u => cases r <;> rfl
    · rfl
  rw [hk]
  exact h

theorem ahead_mbBlocks (hb : Blind e p) (intra dct : Bool) (coded : Nat → Bool) (addr row : Nat) : ∀ (k i : Nat) (b : Block),
    Go.Step (AheadMb e) Eq (mbBlocks e intra dct coded addr row k i b) (mbBlocks (e.refs p f) intra dct coded addr row k i b)
  | 0, _, _ => .pure rfl
  | k + 1, i, b => .bindEq (m' := mbBlock e intra (coded i) i b) (ahead_mbBlock _ _ _ _) fun b' => .getBind fun s t hr =>
      .bindEq (.orPanic (by
        obtain ⟨rfl, h1, h2⟩ := hr
        rw [← finish_blind hb h1 h2]
        cases finishBlock e s.mvd b' i addr row dct s.frame with
        | none => exact .none
        | some g => exact .some rfl)) fun _ =>
        .bindEq (.modify fun s t hr => by obtain ⟨rfl, h⟩ := hr; exact ⟨rfl, h⟩) fun _ => ahead_mbBlocks hb intra dct coded addr row k (i + 1) b'
theorem ahead_mbFinish (hb : Blind e p) (row a : Nat) (m : Mode) (cbp : Nat) :
    Go.Step (AheadMb e) Eq (mbFinish e row a m cbp) (mbFinish (e.refs p f) row a m cbp) :=
  .bindEq (ahead_mbBlocks hb _ _ _ _ _ _ _ _) fun _ => .pure rfl
theorem ahead_mbPattern (hb : Blind e p) (row a : Nat) (m : Mode) :
    Go.Step (AheadMb e) Eq (mbPattern e row a m) (mbPattern (e.refs p f) row a m) := by
  unfold mbPattern
  refine .ite ?_ (ahead_mbFinish hb _ _ _ _)
  rw [mbCoded_handle, mbCoded_handle]
  exact .handle (ahead_mlift _) (fun a b h => by cases h; exact ahead_mbFinish hb _ _ _ _) fun _ => .pure rfl

theorem ahead_reset {c : Prop} [Decidable c] {c' : Prop} [Decidable c'] (x : DcPred) :
    Go.Step (AheadMb e) Eq (Go.modify fun s : MB => { s with dcp := if c then x else s.dcp, mvd := if c' then s.mvd.reset else s.mvd })
      (Go.modify fun s : MB => { s with dcp := if c then x else s.dcp, mvd := if c' then s.mvd.reset else s.mvd }) :=
  .modify fun s t hr => by
    obtain ⟨rfl, h⟩ := hr
    refine ⟨rfl, ?_⟩
    dsimp only
    split
    · exact h
    · exact h

theorem ahead_macroblock (hb : Blind e p) (row : Nat) (addr : Option Nat) :
    Go.Step (AheadMb e) Eq (macroblock e row addr) (macroblock (e.refs p f) row addr) :=
  .bindEq (ahead_mlift _) fun incr => .bindEq (ahead_copySkipped hb row addr incr) fun _ =>
    .bindEq (m' := skipResets e incr) (ahead_reset _) fun _ =>
    .bind (m' := MB.lift (macroblockMode e)) ahead_mode fun m m' h => by
      obtain ⟨rfl, hm⟩ := h
      exact .bindEq (m' := modeResets e m.type) (ahead_reset _) fun _ =>
        .bindEq (m' := mbVectors e m) (ahead_mbVectors hb hm) fun _ => ahead_mbPattern hb _ _ _

theorem ahead_mbLoop (hb : Blind e p) (row : Nat) : ∀ k addr,
    Go.Step (AheadMb e) Eq (mbLoop e row k addr) (mbLoop (e.refs p f) row k addr)
  | 0, _ => .hang
  | k + 1, addr => .bindEq (ahead_macroblock hb row addr) fun _ => .bindEq (ahead_mlift _) fun _ =>
      .ite (.pure rfl) (ahead_mbLoop hb row k _)
theorem ahead_mbLoopAll (hb : Blind e p) (row : Nat) : Go.Step (AheadMb e) Eq (mbLoopAll e row) (mbLoopAll (e.refs p f) row) := by
  intro s t hr
  unfold mbLoopAll
  rw [hr.1]
  exact ahead_mbLoop hb row _ none t t ⟨rfl, by rw [← hr.1]; exact hr.2⟩
theorem ahead_slice (hb : Blind e p) : Go.Step (AheadMb e) Eq (slice e) (slice (e.refs p f)) := by
  unfold slice
  refine .bindEq (ahead_mlift _) fun code => .bindEq .check fun _ => .getBind fun s t hr => ?_
  rw [hr.1]
  exact .ite .panic (.bindEq (ahead_mlift _) fun _ => .bindEq (.modify fun s t hr => by
      obtain ⟨rfl, _⟩ := hr; exact ⟨rfl, rfl, fun _ => rfl⟩) fun _ => .bindEq (ahead_mbLoopAll hb _) fun _ => ahead_mlift _)
theorem ahead_sliceLoop (hb : Blind e p) : ∀ k, Go.Step (AheadMb e) Eq (sliceLoop e k) (sliceLoop (e.refs p f) k)
  | 0 => .hang
  | k + 1 => .bindEq (ahead_slice hb) fun _ => .bindEq (ahead_mlift _) fun _ => .ite (ahead_sliceLoop hb k) (.pure rfl)

/-- the slices of a picture do not depend on frames it does not look at -/
theorem slices_blind (hb : Blind e p) {s : MB} (h : s.mvd = MVD.init) : slicesOf e s = slicesOf (e.refs p f) s := by
  have hs : Go.Step (AheadMb e) Eq (slicesOf e) (slicesOf (e.refs p f)) := by
    intro s t hr
    unfold slicesOf
    rw [hr.1]
    exact Go.Step.bindEq (ahead_sliceLoop hb _) (fun _ => ahead_mlift _) t t ⟨rfl, by rw [← hr.1]; exact hr.2⟩
  obtain ⟨h1, h2, _⟩ := hs s s ⟨rfl, by rw [h]; exact ⟨rfl, fun _ => rfl⟩⟩
  exact Prod.ext (sameRes_eq h1) h2
end

/-- The same for `picture_data`: two decoders that are the same except for frames which the picture does not look at. -/
theorem pictureData_blind {Q : FrameStore → FrameStore → Prop} {s t : VS} (h : Twins Q s t) {ph : PictureHeader} (hp : s.ph = some ph)
    (hk : ph.pictureCodingType = 1 ∨ ph.pictureCodingType = 2 ∧ s.fs.past = t.fs.past) :
    (pictureData s).1 = (pictureData t).1 ∧ Twins Q (pictureData s).2 (pictureData t).2 := by
  rw [pictureData_of]
  dsimp only
  unfold pictureOf
  rw [← h.sh, ← h.se, ← h.ph, ← h.pce, hp]
  cases s.sh with
  | none => exact ⟨rfl, h⟩
  | some sh =>
  cases s.se with
  | none => exact ⟨rfl, h⟩
  | some se =>
  cases s.pce with
  | none => exact ⟨rfl, h⟩
  | some pce =>
  dsimp only
  rw [pictureWith_from, pictureWith_from]
  have hz : startMB se pce s = startMB se pce t := by
    unfold startMB VS.size
    rw [h.br, h.sh, h.se]
  have hb : Blind ⟨sh, se, ph, pce, s.qm, s.fs.past, s.fs.future⟩ t.fs.past := hk.imp id fun h => ⟨h.1, h.2.symm⟩
  rw [slices_blind (f := t.fs.future) hb (s := startMB se pce s) rfl, hz, ← h.qm]
  unfold PicEnv.refs
  dsimp only
  generalize slicesOf ⟨sh, se, ph, pce, s.qm, t.fs.past, t.fs.future⟩ (startMB se pce t) = x
  obtain ⟨r, m⟩ := x
  have hs : Twins Q { s with br := m.br } { t with br := m.br } :=
    ⟨rfl, h.sh, h.se, h.gop, h.ph, h.pce, h.qm, h.counter, h.store⟩
  cases r <;> exact ⟨rfl, hs⟩

end Mpeg.Video
