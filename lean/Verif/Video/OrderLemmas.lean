/-
What a step of the decoder does to the frame store and the frame counter.
-/
import Verif.Video.MbLemmas2
import Verif.Video.HeaderTotal
import Verif.Video.OrderSpec
namespace Mpeg.Video
open Spec

/-! ### the part of `step` before MORE_FRAMES -/

/-- `step` up to `MORE_FRAMES` -/
def resumeTo (fuel : Nat) : Go VS Unit := do
  let v ← VS.lift (BR.peek 32)
  if v = pictureStartCode ∨ v = groupStartCode then pure ()
  else if v = sequenceEndStartCode then do
    VS.lift (BR.skip 32)
    Go.throw .eos
  else do
    sequenceHeader
    sequenceExtension
    extensionAndUserData 0 fuel
def startTo (fuel : Nat) : Go VS Unit := do
  VS.lift nextStartCode
  sequenceHeader
  let v ← VS.lift (BR.peek 32)
  Go.check (v == extensionStartCode) .unsupported11172
  sequenceExtension
  extensionAndUserData 0 fuel
def toPicture (fuel : Nat) : Go VS Unit := fun s => if s.sh.isSome then resumeTo fuel s else startTo fuel s

theorem step_toPicture {fuel : Nat} {s s' : VS} {f : Frame} (h : step fuel s = (.ok f, s')) :
    ∃ s1, toPicture fuel s = (.ok (), s1) ∧ moreFrames fuel s1 = (.ok f, s') := by
  unfold step at h
  unfold toPicture
  split at h
  · rename_i hs
    rw [if_pos hs]
    unfold resume at h
    obtain ⟨v, s1, h1, h⟩ := Go.bind_eq_ok h
    unfold resumeTo
    rw [Go.bind_ok h1]
    split at h
    · rename_i hv
      rw [if_pos hv]
      exact ⟨s1, rfl, h⟩
    · rename_i hv
      rw [if_neg hv]
      split at h
      · obtain ⟨u, s2, _, h⟩ := Go.bind_eq_ok h
        cases h
      · rename_i hv2
        rw [if_neg hv2]
        obtain ⟨u, s2, h2, h⟩ := Go.bind_eq_ok h
        obtain ⟨u, s3, h3, h⟩ := Go.bind_eq_ok h
        unfold continueFrames at h
        obtain ⟨u, s4, h4, h⟩ := Go.bind_eq_ok h
        exact ⟨s4, by rw [Go.bind_ok h2, Go.bind_ok h3, h4], h⟩
  · rename_i hs
    rw [if_neg hs]
    unfold start at h
    obtain ⟨u, s1, h1, h⟩ := Go.bind_eq_ok h
    obtain ⟨u, s2, h2, h⟩ := Go.bind_eq_ok h
    obtain ⟨v, s3, h3, h⟩ := Go.bind_eq_ok h
    obtain ⟨u, s4, h4, h⟩ := Go.bind_eq_ok h
    obtain ⟨u, s5, h5, h⟩ := Go.bind_eq_ok h
    unfold continueFrames at h
    obtain ⟨u, s6, h6, h⟩ := Go.bind_eq_ok h
    exact ⟨s6, by unfold startTo; rw [Go.bind_ok h1, Go.bind_ok h2, Go.bind_ok h3, Go.bind_ok h4, Go.bind_ok h5, h6], h⟩

/-! ### what the headers leave alone -/

/-- A predicate on frame store, frame counter and picture header. -/
def OnFs (P : FrameStore → Nat → Option PictureHeader → Prop) (s : VS) : Prop := P s.fs s.frameCounter s.ph

variable {P : FrameStore → Nat → Option PictureHeader → Prop}

theorem keeps_vlift {α : Type} (m : Go BR α) : Keeps (OnFs P) (VS.lift m) := fun _ h => h
theorem keeps_ignoreErr {m : Go VS Unit} (h : Keeps (OnFs P) m) : Keeps (OnFs P) (Go.ignoreErr m) := by
  intro s hs
  have := h s hs
  unfold Go.ignoreErr
  rcases hm : m s with ⟨r, s'⟩
  rw [hm] at this
  cases r <;> exact this

theorem keeps_sequenceHeader : Keeps (OnFs P) sequenceHeader := by
  unfold sequenceHeader
  refine keeps_bind (keeps_vlift _) fun sh => keeps_modify ?_
  exact fun _ h => h

theorem keeps_storeHeader {α : Type} {read : Go BR α} {put : VS → Option α → VS}
    (hp : ∀ s a, OnFs P s → OnFs P (put s a)) : Keeps (OnFs P) (storeHeader read put) := by
  intro s hs
  have h := keeps_vlift (P := P) read s hs
  unfold storeHeader
  rcases hr : VS.lift read s with ⟨r, s'⟩
  rw [hr] at h
  cases r with
  | ok a => exact keeps_vlift (P := P) nextStartCode _ (hp _ _ h)
  | err x => exact hp _ _ h
  | panic => exact h
  | hang => exact h

theorem keeps_sequenceExtension : Keeps (OnFs P) sequenceExtension := keeps_storeHeader fun _ _ h => h
theorem keeps_pictureCodingExtension : Keeps (OnFs P) pictureCodingExtension := keeps_storeHeader fun _ _ h => h

theorem keeps_loadMatrix (set : QMatrices → Matrix → QMatrices) : Keeps (OnFs P) (loadMatrix set) := by
  unfold loadMatrix
  refine keeps_bind (keeps_vlift _) fun b => keeps_opt (keeps_bind (keeps_vlift _) fun m => keeps_modify ?_)
  exact fun _ h => h

theorem keeps_quantMatrix : Keeps (OnFs P) quantMatrixExtension := by
  unfold quantMatrixExtension
  exact keeps_bind (keeps_ignoreErr (keeps_vlift _)) fun _ => keeps_bind (keeps_loadMatrix _) fun _ =>
    keeps_bind (keeps_loadMatrix _) fun _ => keeps_bind (keeps_loadMatrix _) fun _ =>
    keeps_bind (keeps_loadMatrix _) fun _ => keeps_vlift _

theorem keeps_extStep (i : Nat) : Keeps (OnFs P) (extensionDataStep i) := by
  unfold extensionDataStep
  refine keeps_bind (keeps_ignoreErr (keeps_vlift _)) fun _ => keeps_ite ?_ (keeps_ite ?_ (keeps_pure _))
  · refine keeps_bind (keeps_vlift _) fun id => keeps_ite ?_ (keeps_vlift _)
    exact keeps_bind (keeps_vlift _) fun _ => keeps_pure _
  · refine keeps_bind (keeps_vlift _) fun id => keeps_ite keeps_quantMatrix (keeps_ite keeps_panic ?_)
    exact keeps_bind (keeps_vlift _) fun _ => keeps_pure _

theorem keeps_extensionData (i : Nat) : ∀ fuel, Keeps (OnFs P) (extensionData i fuel)
  | 0 => keeps_hang
  | fuel + 1 => by
    unfold extensionData
    exact keeps_bind (keeps_vlift _) fun v => keeps_ite
      (keeps_bind (keeps_extStep i) fun _ => keeps_extensionData i fuel) (keeps_pure _)

theorem keeps_extUser (i : Nat) : ∀ fuel, Keeps (OnFs P) (extensionAndUserData i fuel)
  | 0 => keeps_hang
  | fuel + 1 => by
    unfold extensionAndUserData
    refine keeps_bind (keeps_vlift _) fun v => keeps_ite (keeps_ite ?_ (keeps_extUser i fuel)) (keeps_ite ?_ (keeps_pure _))
    · exact keeps_bind (keeps_extensionData i fuel) fun _ => keeps_extUser i fuel
    · exact keeps_bind (keeps_vlift _) fun _ => keeps_extUser i fuel

theorem keeps_toPicture (fuel : Nat) : Keeps (OnFs P) (toPicture fuel) := by
  intro s hs
  unfold toPicture
  split
  · refine (show Keeps (OnFs P) (resumeTo fuel) from ?_) s hs
    unfold resumeTo
    refine keeps_bind (keeps_vlift _) fun v => keeps_ite (keeps_pure _) (keeps_ite ?_ ?_)
    · exact keeps_bind (keeps_vlift _) fun _ => keeps_throw _
    · exact keeps_bind keeps_sequenceHeader fun _ => keeps_bind keeps_sequenceExtension fun _ => keeps_extUser 0 fuel
  · refine (show Keeps (OnFs P) (startTo fuel) from ?_) s hs
    unfold startTo
    exact keeps_bind (keeps_vlift _) fun _ => keeps_bind keeps_sequenceHeader fun _ => keeps_bind (keeps_vlift _) fun _ =>
      keeps_bind (keeps_check _ _) fun _ => keeps_bind keeps_sequenceExtension fun _ => keeps_extUser 0 fuel

theorem keeps_pictureData : Keeps (OnFs P) pictureData := by
  intro s hs
  unfold pictureData
  split
  · dsimp only
    split <;> exact hs
  · exact hs

/-! ### a step -/

theorem pictureHeader_ok {s s' : VS} {u : Unit} (h : pictureHeader s = (.ok u, s')) :
    s'.fs = s.fs ∧ s'.frameCounter = s.frameCounter ∧ ∃ ph, s'.ph = some ph ∧ ph.temporalReference < 1024 := by
  unfold pictureHeader storeHeader at h
  rcases hr : VS.lift readPictureHeader s with ⟨r, s1⟩
  rw [hr] at h
  cases r with
  | err x => cases h
  | panic => cases h
  | hang => cases h
  | ok ph =>
    have e2 : { s with br := (readPictureHeader s.br).2 } = s1 := congrArg Prod.snd hr
    have e1 : (readPictureHeader s.br).1 = .ok ph := congrArg Prod.fst hr
    have e3 : (VS.lift nextStartCode { s1 with ph := some ph }).2 = s' := congrArg Prod.snd h
    subst e2
    refine ⟨by rw [← e3]; rfl, by rw [← e3]; rfl, ph, by rw [← e3]; rfl, ?_⟩
    have e4 : readPictureHeader s.br = (.ok ph, (readPictureHeader s.br).2) := Prod.ext e1 rfl
    generalize (readPictureHeader s.br).2 = t at e4
    unfold readPictureHeader at e4
    obtain ⟨u, t1, _, e4⟩ := Go.bind_eq_ok e4
    obtain ⟨tr, t2, q, e4⟩ := Go.bind_eq_ok e4
    have hlt : tr < 1024 := by
      obtain ⟨l, hl, _, hv⟩ := BR.read_inv q
      have := natOfBits_lt l
      simp_all
    obtain ⟨a1, t3, _, e4⟩ := Go.bind_eq_ok e4
    obtain ⟨a2, t4, _, e4⟩ := Go.bind_eq_ok e4
    obtain ⟨a3, t5, _, e4⟩ := Go.bind_eq_ok e4
    obtain ⟨a4, t6, _, e4⟩ := Go.bind_eq_ok e4
    obtain ⟨a5, t7, _, e4⟩ := Go.bind_eq_ok e4
    obtain ⟨a6, t8, _, e4⟩ := Go.bind_eq_ok e4
    obtain ⟨a7, t9, _, e4⟩ := Go.bind_eq_ok e4
    obtain ⟨a8, t10, _, e4⟩ := Go.bind_eq_ok e4
    cases e4
    exact hlt

/-- The store after a group of pictures header, if there is one. -/
def FrameStore.entered (fs : FrameStore) (g : Bool) : FrameStore := if g then fs.markGOP else fs

theorem groupHeader_ok {fuel : Nat} {s s' : VS} {u : Unit} (h : groupHeader fuel s = (.ok u, s')) :
    s'.fs = s.fs.entered (s.br.bits.take 32 == bitsOf 32 groupStartCode) ∧
    s'.frameCounter = if s.br.bits.take 32 == bitsOf 32 groupStartCode then 0 else s.frameCounter := by
  unfold groupHeader at h
  obtain ⟨v, s1, h1, h⟩ := Go.bind_eq_ok h
  obtain ⟨hs1, hl, hv⟩ := vpeek_inv h1
  subst s1
  have hlen : (s.br.bits.take 32).length = 32 := by simp; omega
  have hg : (s.br.bits.take 32 == bitsOf 32 groupStartCode) = (v == groupStartCode) := by
    rw [hv]
    by_cases hc : s.br.bits.take 32 = bitsOf 32 groupStartCode
    · rw [hc, beq_self_eq_true, natOfBits_bitsOf_of_lt (by decide), beq_self_eq_true]
    · have : natOfBits (s.br.bits.take 32) ≠ groupStartCode := by
        intro he
        exact hc (by rw [← he, bitsOf_natOfBits' hlen])
      rw [beq_false_of_ne hc, beq_false_of_ne this]
  rw [hg]
  cases hvg : v == groupStartCode with
  | false =>
    rw [hvg] at h
    cases h
    exact ⟨rfl, rfl⟩
  | true =>
    rw [hvg, Go.opt_true] at h
    obtain ⟨g, s2, h2, h⟩ := Go.bind_eq_ok h
    obtain ⟨u2, s3, h3, h⟩ := Go.bind_eq_ok h
    have e2 : { s with br := (readGOPHeader s.br).2 } = s2 := congrArg Prod.snd h2
    subst e2
    cases h3
    have := keeps_extUser (P := fun fs c _ => fs = s.fs.markGOP ∧ c = 0) 1 fuel
      { s with br := (readGOPHeader s.br).2, gop := some g, fs := s.fs.markGOP, frameCounter := 0 } ⟨rfl, rfl⟩
    rw [h] at this
    exact this

/-- The store and counter after a step that decodes a picture with temporal reference `tr`. -/
theorem step_effect {fuel : Nat} {s s' : VS} {f : Frame} (h : step fuel s = (.ok f, s')) :
    ∃ s1 ph, toPicture fuel s = (.ok (), s1) ∧ s'.ph = some ph ∧ ph.temporalReference < 1024 ∧
      s'.frameCounter = (if s1.br.bits.take 32 == bitsOf 32 groupStartCode then 0 else s.frameCounter) ∧
      s'.fs = (if ph.pictureCodingType = 1 ∨ ph.pictureCodingType = 2 then
        ((s.fs.entered (s1.br.bits.take 32 == bitsOf 32 groupStartCode)).set ph.temporalReference).add f
          ph.temporalReference
        else (s.fs.entered (s1.br.bits.take 32 == bitsOf 32 groupStartCode)).set ph.temporalReference) ∧
      ∃ s2 s3, pictureData s2 = (.ok f, s3) ∧ s2.ph = some ph ∧
        s2.fs = (s.fs.entered (s1.br.bits.take 32 == bitsOf 32 groupStartCode)).set ph.temporalReference := by
  obtain ⟨s1, h1, h⟩ := step_toPicture h
  have k1 := keeps_toPicture (P := fun fs c _ => fs = s.fs ∧ c = s.frameCounter) fuel s (show OnFs _ _ from ⟨rfl, rfl⟩)
  rw [h1] at k1
  obtain ⟨k1, k2⟩ := k1
  dsimp only at k1 k2
  unfold moreFrames at h
  obtain ⟨u, t1, g1, h⟩ := Go.bind_eq_ok h
  obtain ⟨u, t2, g2, h⟩ := Go.bind_eq_ok h
  obtain ⟨u, t3, g3, h⟩ := Go.bind_eq_ok h
  obtain ⟨u, t4, g4, h⟩ := Go.bind_eq_ok h
  obtain ⟨a1, a2⟩ := groupHeader_ok g1
  obtain ⟨b1, b2, ph, b3, b4⟩ := pictureHeader_ok g2
  have k3 := keeps_pictureCodingExtension (P := fun fs c p => fs = t2.fs ∧ c = t2.frameCounter ∧ p = t2.ph) t2
    (show OnFs _ _ from ⟨rfl, rfl, rfl⟩)
  rw [g3] at k3
  have k4 := keeps_extUser (P := fun fs c p => fs = t2.fs ∧ c = t2.frameCounter ∧ p = t2.ph) 2 fuel t3 k3
  rw [g4] at k4
  obtain ⟨c1, c2, c3⟩ := k4
  dsimp only at c1 c2 c3
  unfold pictureStep at h
  rw [Go.bind_ok (Go.get_apply _)] at h
  have hph : t4.ph = some ph := by rw [c3, b3]
  rw [hph] at h
  dsimp only at h
  rw [Go.bind_ok (Go.modify_apply _ _)] at h
  obtain ⟨f', t5, h5, h⟩ := Go.bind_eq_ok h
  rw [Go.bind_ok (Go.modify_apply _ _)] at h
  have hfs : t4.fs = s.fs.entered (s1.br.bits.take 32 == bitsOf 32 groupStartCode) := by rw [c1, b1, a1, k1]
  have k5 := keeps_pictureData (P := fun fs c p => fs = t4.fs.set ph.temporalReference ∧ c = t4.frameCounter ∧ p = t4.ph)
    { t4 with fs := t4.fs.set ph.temporalReference } (show OnFs _ _ from ⟨rfl, rfl, rfl⟩)
  rw [h5] at k5
  obtain ⟨d1, d2, d3⟩ := k5
  dsimp only at d1 d2 d3
  cases h
  refine ⟨s1, ph, h1, ?_, b4, ?_, ?_, _, _, h5, hph, by rw [← hfs]⟩
  · split
    · exact d3.trans hph
    · exact d3.trans hph
  · have : t5.frameCounter = if s1.br.bits.take 32 == bitsOf 32 groupStartCode then 0 else s.frameCounter := by
      rw [d2, c2, b2, a2, k2]
    split
    · exact this
    · exact this
  · split
    · rw [← hfs, ← d1]
    · rw [← hfs, ← d1]

end Mpeg.Video
