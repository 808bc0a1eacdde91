/-
Runs of the decoder; the frame counter does not influence decoding; one group of a reference picture and its B pictures.
-/
import Verif.Video.OrderLemmas
namespace Mpeg.Video
open Spec

/-- `Run fuel s ps s'`: successive steps from `s` decode the pictures `ps` and end in `s'`. -/
inductive Run (fuel : Nat) : VS → List Pict → VS → Prop
  | nil (s : VS) : Run fuel s [] s
  | cons {s s1 s' s'' : VS} {ph : PictureHeader} {p : Pict} {ps : List Pict} (hstep : step fuel s = (.ok p.frame, s'))
      /- a group of pictures header precedes the picture -/
      (ht : toPicture fuel s = (.ok (), s1)) (hg : p.newGop = (s1.br.bits.take 32 == bitsOf 32 groupStartCode))
      (hph : s'.ph = some ph) (hk : p.kind = ph.pictureCodingType) (htr : p.tr = ph.temporalReference)
      (hp : p.past = s'.fs.past) (hf : p.future = s'.fs.future) :
      Run fuel s' ps s'' → Run fuel s (p :: ps) s''

/-- Successive calls of `Next`. -/
def nexts (fuel k : Nat) : Nat → Go VS (List Frame)
  | 0 => pure []
  | n + 1 => do
    let f ← VS.next fuel k
    let l ← nexts fuel k n
    pure (f :: l)

/-! ### effects -/

structure Eff (fuel : Nat) (p : Pict) (s s' : VS) : Prop where
  step : step fuel s = (.ok p.frame, s')
  ph : ∃ ph, s'.ph = some ph ∧ ph.temporalReference = p.tr
  tr : p.tr < 1024
  counter : s'.frameCounter = if p.newGop then 0 else s.frameCounter
  fs : s'.fs = if p.kind = 1 ∨ p.kind = 2 then ((s.fs.entered p.newGop).set p.tr).add p.frame p.tr
    else (s.fs.entered p.newGop).set p.tr
  past : p.past = ((s.fs.entered p.newGop).set p.tr).past
  future : p.future = ((s.fs.entered p.newGop).set p.tr).future

theorem add_refs (fs : FrameStore) (f : Frame) (tr : Nat) : (fs.add f tr).past = fs.past ∧ (fs.add f tr).future = fs.future :=
  ⟨rfl, rfl⟩

theorem Run.inv {fuel : Nat} {s s'' : VS} {p : Pict} {ps : List Pict} (h : Run fuel s (p :: ps) s'') :
    ∃ s', Eff fuel p s s' ∧ Run fuel s' ps s'' := by
  cases h with
  | @cons _ s1 s' _ ph _ _ hstep ht hg hph hk htr hp hf hr =>
    obtain ⟨s1', ph', e1, e2, e3, e4, e5, _⟩ := step_effect hstep
    rw [ht] at e1
    cases e1
    rw [hph] at e2
    cases e2
    rw [← hg, ← htr, ← hk] at e5
    rw [← hg] at e4
    refine ⟨s', ⟨hstep, ⟨ph, hph, htr.symm⟩, by rw [htr]; exact e3, e4, e5, ?_, ?_⟩, hr⟩
    · rw [hp, e5]; split <;> rfl
    · rw [hf, e5]; split <;> rfl

theorem Run.append {fuel : Nat} : ∀ {ps qs : List Pict} {s s' : VS}, Run fuel s (ps ++ qs) s' →
    ∃ m, Run fuel s ps m ∧ Run fuel m qs s'
  | [], _, s, _, h => ⟨s, .nil s, h⟩
  | p :: ps, qs, s, s', h => by
    cases h with
    | cons hstep ht hg hph hk htr hp hf hr =>
      obtain ⟨m, h1, h2⟩ := Run.append hr
      exact ⟨m, .cons hstep ht hg hph hk htr hp hf h1, h2⟩

/-! ### the frame counter -/

/-- Equal up to the frame counter. -/
def Eqv (s t : VS) : Prop := ∃ c, t = { s with frameCounter := c }

theorem Eqv.refl (s : VS) : Eqv s s := ⟨s.frameCounter, rfl⟩
theorem Eqv.trans {s t u : VS} (h1 : Eqv s t) (h2 : Eqv t u) : Eqv s u := by
  obtain ⟨c, rfl⟩ := h1
  obtain ⟨d, rfl⟩ := h2
  exact ⟨d, rfl⟩
theorem eqv_count (s : VS) : Eqv s s.count := ⟨_, rfl⟩

def Sim {α : Type} (m : Go VS α) : Prop := ∀ s t, Eqv s t → (m t).1 = (m s).1 ∧ Eqv (m s).2 (m t).2

theorem sim_pure {α : Type} (a : α) : Sim (pure a : Go VS α) := fun _ _ h => ⟨rfl, h⟩
theorem sim_panic {α : Type} : Sim (Go.panic : Go VS α) := fun _ _ h => ⟨rfl, h⟩
theorem sim_hang {α : Type} : Sim (Go.hang : Go VS α) := fun _ _ h => ⟨rfl, h⟩
theorem sim_throw {α : Type} (e : Err) : Sim (Go.throw e : Go VS α) := fun _ _ h => ⟨rfl, h⟩
theorem sim_modify {f : VS → VS} (h : ∀ s t, Eqv s t → Eqv (f s) (f t)) : Sim (Go.modify f) := fun s t e => ⟨rfl, h s t e⟩
theorem sim_lift {α : Type} (m : Go BR α) : Sim (VS.lift m) := by
  rintro s t ⟨c, rfl⟩
  exact ⟨rfl, c, rfl⟩
theorem sim_bind {α β : Type} {m : Go VS α} {f : α → Go VS β} (h1 : Sim m) (h2 : ∀ a, Sim (f a)) : Sim (m >>= f) := by
  intro s t h
  obtain ⟨a1, a2⟩ := h1 s t h
  rw [Go.bind_apply, Go.bind_apply]
  rcases hm : m s with ⟨r, s'⟩
  rcases hm' : m t with ⟨r', t'⟩
  rw [hm, hm'] at a1 a2
  dsimp only at a1 a2
  subst a1
  cases r' with
  | ok a => exact h2 a _ _ a2
  | err x => exact ⟨rfl, a2⟩
  | panic => exact ⟨rfl, a2⟩
  | hang => exact ⟨rfl, a2⟩
theorem sim_ite {α : Type} {c : Prop} [Decidable c] {m n : Go VS α} (h1 : Sim m) (h2 : Sim n) :
    Sim (if c then m else n) := by
  split <;> assumption
theorem sim_check (c : Bool) (x : Err) : Sim (Go.check c x : Go VS Unit) := by
  unfold Go.check; split
  · exact sim_pure _
  · exact sim_throw _
theorem sim_opt {α : Type} {c : Bool} {d : α} {m : Go VS α} (h : Sim m) : Sim (Go.opt c d m) := by
  unfold Go.opt; split
  · exact h
  · exact sim_pure _
theorem sim_ignoreErr {m : Go VS Unit} (h : Sim m) : Sim (Go.ignoreErr m) := by
  intro s t e
  obtain ⟨a1, a2⟩ := h s t e
  unfold Go.ignoreErr
  rcases hm : m s with ⟨r, s'⟩
  rcases hm' : m t with ⟨r', t'⟩
  rw [hm, hm'] at a1 a2
  dsimp only at a1 a2
  subst a1
  cases r' <;> exact ⟨rfl, a2⟩

theorem sim_storeHeader {α : Type} {read : Go BR α} {put : VS → Option α → VS}
    (hp : ∀ s t a, Eqv s t → Eqv (put s a) (put t a)) : Sim (storeHeader read put) := by
  intro s t e
  obtain ⟨a1, a2⟩ := sim_lift read s t e
  unfold storeHeader
  rcases hm : VS.lift read s with ⟨r, s'⟩
  rcases hm' : VS.lift read t with ⟨r', t'⟩
  rw [hm, hm'] at a1 a2
  dsimp only at a1 a2
  subst a1
  cases r' with
  | ok a => exact sim_lift nextStartCode _ _ (hp _ _ _ a2)
  | err x => exact ⟨rfl, hp _ _ _ a2⟩
  | panic => exact ⟨rfl, a2⟩
  | hang => exact ⟨rfl, a2⟩

theorem sim_sequenceHeader : Sim sequenceHeader := by
  unfold sequenceHeader
  refine sim_bind (sim_lift _) fun sh => sim_modify ?_
  rintro s t ⟨c, rfl⟩
  exact ⟨c, rfl⟩
theorem sim_sequenceExtension : Sim sequenceExtension := sim_storeHeader (by rintro s t a ⟨c, rfl⟩; exact ⟨c, rfl⟩)
theorem sim_pictureHeader : Sim pictureHeader := sim_storeHeader (by rintro s t a ⟨c, rfl⟩; exact ⟨c, rfl⟩)
theorem sim_pictureCodingExtension : Sim pictureCodingExtension :=
  sim_storeHeader (by rintro s t a ⟨c, rfl⟩; exact ⟨c, rfl⟩)
theorem sim_loadMatrix (set : QMatrices → Matrix → QMatrices) : Sim (loadMatrix set) := by
  unfold loadMatrix
  refine sim_bind (sim_lift _) fun b => sim_opt (sim_bind (sim_lift _) fun m => sim_modify ?_)
  rintro s t ⟨c, rfl⟩
  exact ⟨c, rfl⟩
theorem sim_quantMatrix : Sim quantMatrixExtension := by
  unfold quantMatrixExtension
  exact sim_bind (sim_ignoreErr (sim_lift _)) fun _ => sim_bind (sim_loadMatrix _) fun _ =>
    sim_bind (sim_loadMatrix _) fun _ => sim_bind (sim_loadMatrix _) fun _ =>
    sim_bind (sim_loadMatrix _) fun _ => sim_lift _
theorem sim_extStep (i : Nat) : Sim (extensionDataStep i) := by
  unfold extensionDataStep
  refine sim_bind (sim_ignoreErr (sim_lift _)) fun _ => sim_ite ?_ (sim_ite ?_ (sim_pure _))
  · refine sim_bind (sim_lift _) fun id => sim_ite ?_ (sim_lift _)
    exact sim_bind (sim_lift _) fun _ => sim_pure _
  · refine sim_bind (sim_lift _) fun id => sim_ite sim_quantMatrix (sim_ite sim_panic ?_)
    exact sim_bind (sim_lift _) fun _ => sim_pure _
theorem sim_extensionData (i : Nat) : ∀ fuel, Sim (extensionData i fuel)
  | 0 => sim_hang
  | fuel + 1 => by
    unfold extensionData
    exact sim_bind (sim_lift _) fun v => sim_ite
      (sim_bind (sim_extStep i) fun _ => sim_extensionData i fuel) (sim_pure _)
theorem sim_extUser (i : Nat) : ∀ fuel, Sim (extensionAndUserData i fuel)
  | 0 => sim_hang
  | fuel + 1 => by
    unfold extensionAndUserData
    refine sim_bind (sim_lift _) fun v => sim_ite (sim_ite ?_ (sim_extUser i fuel)) (sim_ite ?_ (sim_pure _))
    · exact sim_bind (sim_extensionData i fuel) fun _ => sim_extUser i fuel
    · exact sim_bind (sim_lift _) fun _ => sim_extUser i fuel

theorem sim_groupHeader (fuel : Nat) : Sim (groupHeader fuel) := by
  unfold groupHeader
  refine sim_bind (sim_lift _) fun v => sim_opt (sim_bind (sim_lift _) fun g => sim_bind (sim_modify ?_) fun _ =>
    sim_extUser 1 fuel)
  rintro s t ⟨c, rfl⟩
  exact ⟨0, rfl⟩

theorem sim_pictureData : Sim pictureData := by
  rintro ⟨br, sh, se, gop, ph, pce, qm, fs, fc⟩ t ⟨c, rfl⟩
  cases sh with
  | none => exact ⟨rfl, c, rfl⟩
  | some sh =>
  cases se with
  | none => exact ⟨rfl, c, rfl⟩
  | some se =>
  cases ph with
  | none => exact ⟨rfl, c, rfl⟩
  | some ph =>
  cases pce with
  | none => exact ⟨rfl, c, rfl⟩
  | some pce =>
  unfold pictureData
  dsimp only
  have hsz : VS.size ⟨br, some sh, some se, gop, some ph, some pce, qm, fs, c⟩ =
    VS.size ⟨br, some sh, some se, gop, some ph, some pce, qm, fs, fc⟩ := rfl
  rw [hsz]
  generalize ((do sliceLoop _ _; MB.lift nextStartCode : Go MB Unit) _) = r
  rcases r with ⟨r, m⟩
  cases r <;> exact ⟨rfl, c, rfl⟩

theorem sim_pictureStep : Sim pictureStep := by
  intro s t e
  unfold pictureStep
  rw [Go.bind_ok (Go.get_apply s), Go.bind_ok (Go.get_apply t)]
  have hp : t.ph = s.ph := by obtain ⟨c, rfl⟩ := e; rfl
  rw [hp]
  cases s.ph with
  | none => exact ⟨rfl, e⟩
  | some ph =>
    refine sim_bind (sim_modify ?_) (fun _ => sim_bind sim_pictureData fun f => sim_bind (sim_modify ?_) fun _ =>
      sim_pure _) s t e
    · rintro s t ⟨c, rfl⟩
      exact ⟨c, rfl⟩
    · rintro s t ⟨c, rfl⟩
      refine ⟨c, ?_⟩
      dsimp only
      split <;> rfl

theorem sim_moreFrames (fuel : Nat) : Sim (moreFrames fuel) := by
  unfold moreFrames
  exact sim_bind (sim_groupHeader fuel) fun _ => sim_bind sim_pictureHeader fun _ =>
    sim_bind sim_pictureCodingExtension fun _ => sim_bind (sim_extUser 2 fuel) fun _ => sim_pictureStep

theorem sim_continue (fuel : Nat) : Sim (continueFrames fuel) := by
  unfold continueFrames
  exact sim_bind (sim_extUser 0 fuel) fun _ => sim_moreFrames fuel

theorem sim_step (fuel : Nat) : Sim (step fuel) := by
  intro s t e
  have hs : t.sh = s.sh := by obtain ⟨c, rfl⟩ := e; rfl
  unfold step
  rw [hs]
  split
  · refine (show Sim (resume fuel) from ?_) s t e
    unfold resume
    refine sim_bind (sim_lift _) fun v => sim_ite (sim_moreFrames fuel) (sim_ite ?_ ?_)
    · exact sim_bind (sim_lift _) fun _ => sim_throw _
    · exact sim_bind sim_sequenceHeader fun _ => sim_bind sim_sequenceExtension fun _ => sim_continue fuel
  · refine (show Sim (start fuel) from ?_) s t e
    unfold start
    exact sim_bind (sim_lift _) fun _ => sim_bind sim_sequenceHeader fun _ => sim_bind (sim_lift _) fun _ =>
      sim_bind (sim_check _ _) fun _ => sim_bind sim_sequenceExtension fun _ => sim_continue fuel

theorem sim_toPicture (fuel : Nat) : Sim (toPicture fuel) := by
  intro s t e
  have hs : t.sh = s.sh := by obtain ⟨c, rfl⟩ := e; rfl
  unfold toPicture
  rw [hs]
  split
  · refine (show Sim (resumeTo fuel) from ?_) s t e
    unfold resumeTo
    refine sim_bind (sim_lift _) fun v => sim_ite (sim_pure _) (sim_ite ?_ ?_)
    · exact sim_bind (sim_lift _) fun _ => sim_throw _
    · exact sim_bind sim_sequenceHeader fun _ => sim_bind sim_sequenceExtension fun _ => sim_extUser 0 fuel
  · refine (show Sim (startTo fuel) from ?_) s t e
    unfold startTo
    exact sim_bind (sim_lift _) fun _ => sim_bind sim_sequenceHeader fun _ => sim_bind (sim_lift _) fun _ =>
      sim_bind (sim_check _ _) fun _ => sim_bind sim_sequenceExtension fun _ => sim_extUser 0 fuel

/-- A run does not depend on the counter. -/
theorem Run.eqv {fuel : Nat} : ∀ {ps : List Pict} {s t s' : VS}, Run fuel s ps s' → Eqv s t →
    ∃ t', Run fuel t ps t' ∧ Eqv s' t'
  | [], _, t, _, h, e => by cases h; exact ⟨t, .nil t, e⟩
  | p :: ps, s, t, s', h, e => by
    cases h with
    | @cons _ s1 s2 _ ph _ _ hstep ht hg hph hk htr hp hf hr =>
      obtain ⟨a1, a2⟩ := sim_step fuel s t e
      obtain ⟨b1, b2⟩ := sim_toPicture fuel s t e
      rw [hstep] at a1 a2
      rw [ht] at b1 b2
      obtain ⟨t', r1, r2⟩ := Run.eqv hr a2
      have q2 : (step fuel t).2.ph = s2.ph ∧ (step fuel t).2.fs = s2.fs := by
        obtain ⟨c, hc⟩ := a2; rw [hc]; exact ⟨rfl, rfl⟩
      have q3 : (toPicture fuel t).2.br = s1.br := by obtain ⟨c, hc⟩ := b2; rw [hc]
      have k1 : step fuel t = (.ok p.frame, (step fuel t).2) := Prod.ext a1 rfl
      have k2 : toPicture fuel t = (.ok (), (toPicture fuel t).2) := Prod.ext b1 rfl
      exact ⟨t', .cons k1 k2 (by rw [q3]; exact hg) (by rw [q2.1]; exact hph) hk htr
        (by rw [q2.2]; exact hp) (by rw [q2.2]; exact hf) r1, r2⟩

end Mpeg.Video
