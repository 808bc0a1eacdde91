/-
C141: after an entry point the history of a decoder does not matter, whatever the input.
-/
import Verif.Video.EntrySpec
import Verif.Video.SpreadProps
namespace Mpeg.Video
open Spec

theorem since_mark {n : Nat} (a b : FrameStore) (h : Since n a b) : Since n a.markGOP b.markGOP := by
  have ho : ∀ {r : Option RefFrame}, Old (r.map fun r => { r with previousGOP := true }) := by
    intro r
    cases r <;> simp [Old]
  constructor
  · rcases h.f1 with e | ⟨e, _⟩
    · exact .inl (by simp only [FrameStore.markGOP, e])
    · exact .inr ⟨e, ho, ho⟩
  · rcases h.f0 with e | ⟨e, _⟩
    · exact .inl (by simp only [FrameStore.markGOP, e])
    · exact .inr ⟨e, ho, ho⟩

/-- after a group of pictures header nothing of what is held is new -/
theorem since_any (a b : FrameStore) : Since 0 a.markGOP b.markGOP := by
  have ho : ∀ {r : Option RefFrame}, Old (r.map fun r => { r with previousGOP := true }) := by
    intro r
    cases r <;> simp [Old]
  exact ⟨.inr ⟨rfl, ho, ho⟩, .inr ⟨by decide, ho, ho⟩⟩

theorem old_matches {r : Option RefFrame} (h : Old r) (tr : Nat) : RefFrame.matches r tr = none := by
  cases r with
  | none => rfl
  | some r =>
    have h : r.previousGOP = true := h
    simp [RefFrame.matches, h]

theorem since_tryGet {n : Nat} {a b : FrameStore} (h : Since n a b) (tr : Nat) : a.tryGet tr = b.tryGet tr := by
  have h0 : RefFrame.matches a.f0 tr = RefFrame.matches b.f0 tr := by
    rcases h.f0 with e | ⟨_, e, e'⟩
    · rw [e]
    · rw [old_matches e, old_matches e']
  have h1 : RefFrame.matches a.f1 tr = RefFrame.matches b.f1 tr := by
    rcases h.f1 with e | ⟨_, e, e'⟩
    · rw [e]
    · rw [old_matches e, old_matches e']
  unfold FrameStore.tryGet
  rw [h0, h1]

theorem slots_setOne (fs : FrameStore) (r : Option RefFrame) (tr : Nat) : (fs.setOne r tr).f0 = fs.f0 ∧ (fs.setOne r tr).f1 = fs.f1 := by
  unfold FrameStore.setOne
  split
  · exact ⟨rfl, rfl⟩
  · split <;> exact ⟨rfl, rfl⟩
theorem since_set {n : Nat} {a b : FrameStore} (h : Since n a b) (tr : Nat) : Since n (a.set tr) (b.set tr) := by
  have e : ∀ fs : FrameStore, (fs.set tr).f0 = fs.f0 ∧ (fs.set tr).f1 = fs.f1 := fun fs =>
    ⟨(slots_setOne _ _ tr).1.trans (slots_setOne _ _ tr).1, (slots_setOne _ _ tr).2.trans (slots_setOne _ _ tr).2⟩
  exact ⟨by rw [(e a).2, (e b).2]; exact h.f1, by rw [(e a).1, (e b).1]; exact h.f0⟩

theorem setOne_before {fs : FrameStore} {r : RefFrame} {tr : Nat} (h : shownBefore tr (some r) = true) :
    fs.setOne (some r) tr = { fs with past := some r.frame } := by
  have h : (r.previousGOP || decide (r.temporalReference < tr)) = true := h
  rw [Bool.or_eq_true, decide_eq_true_eq] at h
  unfold FrameStore.setOne
  exact if_pos h
theorem setOne_after {fs : FrameStore} {r : RefFrame} {tr : Nat} (h : shownBefore tr (some r) = false) :
    fs.setOne (some r) tr = { fs with future := some r.frame } := by
  have h : (r.previousGOP || decide (r.temporalReference < tr)) = false := h
  unfold FrameStore.setOne
  refine if_neg fun h' => ?_
  rw [← decide_eq_true_eq (p := r.temporalReference < tr), ← Bool.or_eq_true, h] at h'
  cases h'

/-- the past frame that is selected -/
theorem past_set {a b : FrameStore} {tr : Nat} (h1 : a.f1 = b.f1) (h : shownBefore tr a.f1 = true ∨
    a.f0 = b.f0 ∧ shownBefore tr a.f0 = true) : (a.set tr).past = (b.set tr).past := by
  unfold FrameStore.set
  rw [← h1]
  rcases h with h | ⟨h0, h⟩
  · cases hr : a.f1 with
    | none => rw [hr] at h; cases h
    | some r =>
      rw [hr] at h
      rw [setOne_before h, setOne_before h]
  · rw [← h0]
    cases hr : a.f0 with
    | none => rw [hr] at h; cases h
    | some r =>
      rw [hr] at h
      rw [setOne_before h, setOne_before h]
      cases hq : a.f1 with
      | none => rfl
      | some q =>
        cases hb : shownBefore tr (some q) with
        | true => rw [setOne_before hb, setOne_before hb]
        | false => rw [setOne_after hb, setOne_after hb]

theorem after_not {tr : Nat} {r : Option RefFrame} (h : shownAfter tr r = true) : ∃ q, r = some q ∧ shownBefore tr (some q) = false := by
  cases r with
  | none => cases h
  | some q =>
    refine ⟨q, rfl, ?_⟩
    have h : (!(q.previousGOP || decide (q.temporalReference < tr))) = true := h
    show (q.previousGOP || decide (q.temporalReference < tr)) = false
    cases hx : (q.previousGOP || decide (q.temporalReference < tr)) with
    | true => rw [hx] at h; cases h
    | false => rfl
theorem future_set {a b : FrameStore} {tr : Nat} (h1 : a.f1 = b.f1) (h0 : a.f0 = b.f0)
    (h : shownAfter tr a.f1 = true ∨ shownAfter tr a.f0 = true) : (a.set tr).future = (b.set tr).future := by
  unfold FrameStore.set
  rw [← h1, ← h0]
  rcases h with h | h
  · obtain ⟨q, hq, hb⟩ := after_not h
    rw [hq, setOne_after hb, setOne_after hb]
  · obtain ⟨q, hq, hb⟩ := after_not h
    rw [hq, setOne_after hb, setOne_after hb]
    cases hq : a.f1 with
    | none => rfl
    | some q =>
      cases hb : shownBefore tr (some q) with
      | true => rw [setOne_before hb, setOne_before hb]
      | false => rw [setOne_after hb, setOne_after hb]

/-- the picture data with the same selected frames -/
theorem picture_same {Q : FrameStore → FrameStore → Prop} {s t : VS} (h : Twins Q s t) (hp : s.fs.past = t.fs.past)
    (hf : s.fs.future = t.fs.future) : (pictureData s).1 = (pictureData t).1 ∧ Twins Q (pictureData s).2 (pictureData t).2 := by
  have hb : ∀ {x : Option Frame}, Both Eq x x := by
    intro x
    cases x with
    | none => exact .none
    | some a => exact .some rfl
  have := twins_picture_rel (F := Eq) (I := fun _ => True) h (fun sh se ph pce _ _ _ _ => ⟨{
    shape := fun g g' e => by cases e; exact ⟨rfl, rfl, rfl, rfl, rfl⟩
    finish := fun d _ b i addr row il g g' e => by
      cases e
      rw [← hp, ← hf]
      exact hb
    copy := fun row col n g g' e => by
      cases e
      rw [← hp]
      exact hb
    vectors := fun _ _ _ => trivial
    init := fun _ _ => trivial }, rfl⟩)
  exact ⟨sameRes_eq this.1, this.2⟩

theorem since_pictureStep {n : Nat} {s t : VS} (h : Twins (Since n) s t) (hr : refersTo n s = true) :
    (pictureStep s).1 = (pictureStep t).1 ∧
    ∀ m, (m = match (pictureStep s).1, s.ph with
      | .ok _, some ph => if ph.pictureCodingType = 1 ∨ ph.pictureCodingType = 2 then n + 1 else n
      | _, _ => n) → Twins (Since m) (pictureStep s).2 (pictureStep t).2 := by
  unfold pictureStep
  rw [Go.bind_ok (Go.get_apply s), Go.bind_ok (Go.get_apply t), ← h.ph]
  unfold refersTo at hr
  cases hph : s.ph with
  | none => exact ⟨rfl, fun m hm => by cases hm; exact h⟩
  | some ph =>
    rw [hph] at hr
    dsimp only at hr ⊢
    rw [Go.bind_ok (Go.modify_apply ..), Go.bind_ok (Go.modify_apply ..)]
    have h' : Twins (Since n) { s with fs := s.fs.set ph.temporalReference } { t with fs := t.fs.set ph.temporalReference } :=
      ⟨h.br, h.sh, h.se, h.gop, h.ph, h.pce, h.qm, h.counter, since_set h.store _⟩
    have f1 : 1 ≤ n → s.fs.f1 = t.fs.f1 := fun hn => by
      rcases h.store.f1 with e | ⟨e, _⟩
      · exact e
      · omega
    have f0 : 2 ≤ n → s.fs.f0 = t.fs.f0 := fun hn => by
      rcases h.store.f0 with e | ⟨e, _⟩
      · exact e
      · omega
    have hd : (pictureData { s with fs := s.fs.set ph.temporalReference }).1 = (pictureData { t with fs := t.fs.set ph.temporalReference }).1 ∧
        Twins (Since n) (pictureData { s with fs := s.fs.set ph.temporalReference }).2
          (pictureData { t with fs := t.fs.set ph.temporalReference }).2 := by
      by_cases k1 : ph.pictureCodingType = 1
      · exact C133_picture h' hph (.inl k1)
      rw [if_neg k1] at hr
      by_cases k2 : ph.pictureCodingType = 2
      · rw [if_pos k2] at hr
        refine C133_picture h' hph (.inr ⟨k2, ?_⟩)
        simp only [Bool.or_eq_true, Bool.and_eq_true, decide_eq_true_eq] at hr
        rcases hr with ⟨h1, h2⟩ | ⟨h1, h2⟩
        · exact past_set (f1 h1) (.inl h2)
        · exact past_set (f1 (by omega)) (.inr ⟨f0 h1, h2⟩)
      rw [if_neg k2] at hr
      by_cases k3 : ph.pictureCodingType = 3
      · rw [if_pos k3] at hr
        simp only [Bool.or_eq_true, Bool.and_eq_true, decide_eq_true_eq] at hr
        obtain ⟨h1, h2⟩ := hr
        have e1 := f1 (by omega)
        have e0 := f0 h1
        refine picture_same h' ?_ ?_
        · exact past_set e1 (h2.elim (fun h => .inr ⟨e0, h.1⟩) fun h => .inl h.2)
        · exact future_set e1 e0 (h2.elim (fun h => .inl h.2) fun h => .inr h.1)
      · rw [if_neg k3] at hr
        cases hr
    have hu := pictureData_keeps { s with fs := s.fs.set ph.temporalReference }
    have hu' := pictureData_keeps { t with fs := t.fs.set ph.temporalReference }
    rcases hx : pictureData { s with fs := s.fs.set ph.temporalReference } with ⟨r, v⟩
    rcases hy : pictureData { t with fs := t.fs.set ph.temporalReference } with ⟨r', v'⟩
    rw [hx, hy] at hd
    obtain ⟨e, h2⟩ := hd
    dsimp only at e h2
    subst e
    cases r with
    | err e => rw [Go.bind_err hx, Go.bind_err hy]; exact ⟨rfl, fun m hm => by cases hm; exact h2⟩
    | panic => rw [Go.bind_panic hx, Go.bind_panic hy]; exact ⟨rfl, fun m hm => by cases hm; exact h2⟩
    | hang => rw [Go.bind_hang hx, Go.bind_hang hy]; exact ⟨rfl, fun m hm => by cases hm; exact h2⟩
    | ok f =>
      rw [Go.bind_ok hx, Go.bind_ok hy, Go.bind_ok (Go.modify_apply ..), Go.bind_ok (Go.modify_apply ..)]
      refine ⟨rfl, fun m hm => ?_⟩
      have hm : m = if ph.pictureCodingType = 1 ∨ ph.pictureCodingType = 2 then n + 1 else n := hm
      show Twins _ (if ph.pictureCodingType = 1 ∨ ph.pictureCodingType = 2 then _ else _)
        (if ph.pictureCodingType = 1 ∨ ph.pictureCodingType = 2 then _ else _)
      by_cases hk : ph.pictureCodingType = 1 ∨ ph.pictureCodingType = 2
      · rw [if_pos hk] at hm
        rw [if_pos hk, if_pos hk, hm]
        refine ⟨h2.br, h2.sh, h2.se, h2.gop, h2.ph, h2.pce, h2.qm, h2.counter, .inl rfl, ?_⟩
        rcases h2.store.f1 with e | ⟨e, e'⟩
        · exact .inl e
        · exact .inr ⟨by omega, e'⟩
      · rw [if_neg hk] at hm
        rw [if_neg hk, if_neg hk, hm]
        exact h2

theorem since_step {n fuel : Nat} {s t : VS} (hh : SameRes Eq (stepHead fuel s).1 (stepHead fuel t).1 ∧
      Twins (Since n) (stepHead fuel s).2 (stepHead fuel t).2) (hr : nextRefersTo fuel n s = true) :
    (step fuel s).1 = (step fuel t).1 ∧
    ∀ m, (m = match (step fuel s).1, (step fuel s).2.ph with
      | .ok _, some ph => if ph.pictureCodingType = 1 ∨ ph.pictureCodingType = 2 then n + 1 else n
      | _, _ => n) → Twins (Since m) (step fuel s).2 (step fuel t).2 := by
  unfold nextRefersTo at hr
  rw [step_head]
  rcases hx : stepHead fuel s with ⟨r, u⟩
  rcases hy : stepHead fuel t with ⟨r', u'⟩
  rw [hx, hy] at hh
  rw [hx] at hr
  obtain ⟨h1, h2⟩ := hh
  cases h1 with
  | err e => rw [Go.bind_err hx, Go.bind_err hy]; exact ⟨rfl, fun m hm => by cases hm; exact h2⟩
  | panic => rw [Go.bind_panic hx, Go.bind_panic hy]; exact ⟨rfl, fun m hm => by cases hm; exact h2⟩
  | hang => rw [Go.bind_hang hx, Go.bind_hang hy]; exact ⟨rfl, fun m hm => by cases hm; exact h2⟩
  | ok _ =>
    rw [Go.bind_ok hx, Go.bind_ok hy]
    obtain ⟨h3, h4⟩ := since_pictureStep h2 hr
    refine ⟨h3, fun m hm => h4 m ?_⟩
    rw [pictureStep_keeps] at hm
    exact hm

theorem since_loop {fuel : Nat} : ∀ {k n : Nat} {s t : VS},
    (SameRes Eq (stepHead fuel s).1 (stepHead fuel t).1 ∧ Twins (Since n) (stepHead fuel s).2 (stepHead fuel t).2) →
    (k = 0 → Twins (Since n) s t) → (loopSince fuel k n s).1 = true →
    (nextLoop fuel k s).1 = (nextLoop fuel k t).1 ∧ Twins (Since (loopSince fuel k n s).2) (nextLoop fuel k s).2 (nextLoop fuel k t).2
  | 0, _, _, _, _, h0, _ => ⟨rfl, h0 rfl⟩
  | k + 1, n, s, t, hh, _, hr => by
    unfold loopSince at hr ⊢
    by_cases hn : nextRefersTo fuel n s = true
    case neg => rw [if_neg hn] at hr; cases hr
    rw [if_pos hn] at hr ⊢
    obtain ⟨h3, h4⟩ := since_step hh hn
    have h4 : Twins (Since (grown fuel n s)) (step fuel s).2 (step fuel t).2 := h4 _ rfl
    unfold nextLoop
    rcases hx : step fuel s with ⟨r, u⟩
    rcases hy : step fuel t with ⟨r', u'⟩
    rw [hx, hy] at h3 h4
    rw [hx] at hr
    dsimp only at h3 h4
    subst h3
    cases r with
    | err e => rw [Go.bind_err hx, Go.bind_err hy]; exact ⟨rfl, h4⟩
    | panic => rw [Go.bind_panic hx, Go.bind_panic hy]; exact ⟨rfl, h4⟩
    | hang => rw [Go.bind_hang hx, Go.bind_hang hy]; exact ⟨rfl, h4⟩
    | ok f =>
      dsimp only at hr ⊢
      rw [Go.bind_ok hx, Go.bind_ok hy, Go.bind_ok (Go.get_apply u), Go.bind_ok (Go.get_apply u'), ← h4.ph, ← h4.counter]
      cases hp : u.ph with
      | none => exact ⟨rfl, h4⟩
      | some ph =>
        rw [hp] at hr
        dsimp only at hr ⊢
        by_cases hc : ph.temporalReference = u.frameCounter
        · simp only [if_pos hc]
          exact ⟨rfl, ⟨h4.br, h4.sh, h4.se, h4.gop, h4.ph, h4.pce, h4.qm, by
            show (u.frameCounter + 1) % 2 ^ 32 = (u'.frameCounter + 1) % 2 ^ 32; rw [h4.counter], h4.store⟩⟩
        · simp only [if_neg hc] at hr ⊢
          exact since_loop (twins_stepHead since_mark fuel u u' h4) (fun _ => h4) hr

theorem since_next {n fuel k : Nat} {s t : VS} (hc : s.frameCounter = t.frameCounter)
    (hg : s.fs.tryGet s.frameCounter = t.fs.tryGet s.frameCounter)
    (hs : ∀ f, s.fs.tryGet s.frameCounter = some f → Twins (Since n) s t) (h0 : k = 0 → Twins (Since n) s t)
    (hn : s.fs.tryGet s.frameCounter = none → SameRes Eq (stepHead fuel s).1 (stepHead fuel t).1 ∧
      Twins (Since n) (stepHead fuel s).2 (stepHead fuel t).2) (hr : (callSince fuel k n s).1 = true) :
    (VS.next fuel k s).1 = (VS.next fuel k t).1 ∧ Twins (Since (callSince fuel k n s).2) (VS.next fuel k s).2 (VS.next fuel k t).2 := by
  unfold callSince at hr ⊢
  unfold VS.next
  rw [← hc, ← hg]
  cases hx : s.fs.tryGet s.frameCounter with
  | some f =>
    have h := hs f hx
    exact ⟨rfl, ⟨h.br, h.sh, h.se, h.gop, h.ph, h.pce, h.qm, by unfold VS.count; dsimp only; rw [h.counter], h.store⟩⟩
  | none =>
    rw [hx] at hr
    exact since_loop (hn hx) h0 hr

/-- **C141**: two decoders that are the same except for the frames they hold; the last `n` reference pictures are the same in both,
and what else they hold is from earlier groups of pictures (or absent).  Whatever the input, damaged or not, and whatever an
application does with them: as long as no picture refers to pictures before the last `n` (I pictures; P pictures that have one of
the reference pictures decoded since before them in display order; B pictures between the two last ones, when at least two have
been decoded since), all calls of `Next` have exactly the same result in both. -/
theorem C141 (fuel k : Nat) : ∀ (l : List Action) {n : Nat} {s t : VS}, Twins (Since n) s t → refersSince fuel k n l s = true →
    (perform fuel k l s).1 = (perform fuel k l t).1
  | [], _, _, _, _, _ => rfl
  | .next :: l, n, s, t, h, hr => by
    unfold refersSince at hr
    rw [Bool.and_eq_true] at hr
    obtain ⟨h1, h2⟩ := since_next (fuel := fuel) h.counter (since_tryGet h.store _) (fun _ _ => h) (fun _ => h)
      (fun _ => twins_stepHead since_mark fuel s t h) hr.1
    have h3 := C141 fuel k l h2 hr.2
    simp only [perform, h1, h3]
  | .reader m :: l, n, s, t, h, hr => C141 fuel k l (twins_lift m s t h).2 hr

/-- the headers before a picture when a group of pictures header comes first, whatever is held -/
theorem group_stepHead {fuel : Nat} {s t : VS} (h : Twins (fun _ _ => True) s t) (hsh : s.sh.isSome = true)
    (hg : BR.peek 32 s.br = (.ok 0x1B8, s.br)) (hok : (stepHead fuel s).1 = .ok ()) :
    SameRes Eq (stepHead fuel s).1 (stepHead fuel t).1 ∧ Twins (Since 0) (stepHead fuel s).2 (stepHead fuel t).2 := by
  have hv : ∀ u : VS, u.br = s.br → VS.lift (BR.peek 32) u = (.ok 0x1B8, u) := by
    intro u hu
    unfold VS.lift
    rw [hu, hg, ← hu]
  have e : ∀ u : VS, u.br = s.br → u.sh.isSome = true → stepHead fuel u = (VS.lift readGOPHeader >>= fun g =>
      (Go.modify (fun s => { s with gop := some g, fs := s.fs.markGOP, frameCounter := 0 }) >>= fun _ => extensionAndUserData 1 fuel) >>=
        fun _ => (do pictureHeader; pictureCodingExtension; extensionAndUserData 2 fuel : Go VS Unit)) u := by
    intro u hu hs
    unfold stepHead
    rw [if_pos hs]
    unfold resumeHead
    rw [Go.bind_ok (hv u hu), if_pos (.inr rfl)]
    unfold moreHead groupHeader
    rw [bind_assoc, Go.bind_ok (hv u hu)]
    show ((VS.lift readGOPHeader >>= _) >>= _) u = _
    rw [bind_assoc]
  have hbr := h.br
  rw [e s rfl hsh] at hok ⊢
  rw [e t hbr.symm (by rw [← h.sh]; exact hsh)]
  have hl := twins_lift (Q := fun _ _ => True) readGOPHeader s t h
  rcases hx : VS.lift readGOPHeader s with ⟨r, u⟩
  rcases hy : VS.lift readGOPHeader t with ⟨r', u'⟩
  rw [hx, hy] at hl
  obtain ⟨h1, h2⟩ := hl
  cases h1 with
  | err e => rw [Go.bind_err hx] at hok; cases hok
  | panic => rw [Go.bind_panic hx] at hok; cases hok
  | hang => rw [Go.bind_hang hx] at hok; cases hok
  | ok hg =>
    cases hg
    rw [Go.bind_ok hx, Go.bind_ok hy, bind_assoc, Go.bind_ok (Go.modify_apply ..), Go.bind_ok (Go.modify_apply ..)]
    refine Go.Step.bindEq (R := Twins (Since 0)) (twins_extUser 1 fuel) (fun _ => .bindEq twins_pictureHeader fun _ =>
      .bindEq twins_pictureCodingExtension fun _ => twins_extUser 2 fuel) _ _ ?_
    exact ⟨h2.br, h2.sh, h2.se, rfl, h2.ph, h2.pce, h2.qm, rfl, since_any _ _⟩

/-- **C141**, entry points: two decoders that are the same except for the frames they hold, which may be any.  Nothing is waiting to
be returned, and a group of pictures header comes next, followed by the headers of a picture, all legal.  Whatever the input behind
them: as long as no picture refers to pictures before this group, all calls of `Next` have exactly the same result in both. -/
theorem C141_group (fuel : Nat) {k : Nat} (hk : 1 ≤ k) {l : List Action} {s t : VS} (h : Twins (fun _ _ => True) s t)
    (hsh : s.sh.isSome = true) (hs : s.fs.tryGet s.frameCounter = none) (ht : t.fs.tryGet t.frameCounter = none)
    (hg : BR.peek 32 s.br = (.ok 0x1B8, s.br)) (hok : (stepHead fuel s).1 = .ok ())
    (hr : refersSince fuel k 0 (.next :: l) s = true) :
    (perform fuel k (.next :: l) s).1 = (perform fuel k (.next :: l) t).1 := by
  unfold refersSince at hr
  rw [Bool.and_eq_true] at hr
  obtain ⟨h1, h2⟩ := since_next (fuel := fuel) (n := 0) h.counter (by rw [hs, h.counter, ht])
    (fun f hf => by rw [hs] at hf; cases hf) (fun h => by omega) (fun _ => group_stepHead h hsh hg hok) hr.1
  have h3 := C141 fuel k l h2 hr.2
  simp only [perform, h1, h3]

/-! ### a group of pictures behind an I and a P picture: I, P, P with damaged data -/

namespace ExEntry
open ExStream ExResync ExRounds ExDrift

def pBits (tr : Nat) : List Bool := byte (encPic ⟨tr, .p 0 7, 0, []⟩) ++ (byte (encPicExt picE) ++
  byte ((sl 0 mbP).head ((cx 16 1).env picP) ++ ((codeP ⟨none, none⟩ blank).bits ++ [])))
def stream4 : List Bool := bitsI ++ (pBits 1 ++ (bitsG ++ (pBits 1 ++ ((pBits 2).take 200 ++ bitsOf 32 0x1B7))))

/-- before the group -/
def entry : VS := (perform 1000 3 [.next, .next] (VS.new ⟨stream4, 0, .eof, []⟩)).2

theorem bright_any (d : Nat) (s : VS) : Twins (fun _ _ => True) s (bright d s) := ⟨rfl, rfl, rfl, rfl, rfl, rfl, rfl, rfl, trivial⟩
theorem bright_waiting (d : Nat) (s : VS) (h : (s.fs.tryGet s.frameCounter).isNone) :
    (bright d s).fs.tryGet (bright d s).frameCounter = none := by
  have hm : ∀ r tr, RefFrame.matches (r.map (slot d)) tr = (RefFrame.matches r tr).map (brighter d) := by
    intro r tr
    cases r with
    | none => rfl
    | some r =>
      show (if r.previousGOP = false ∧ r.temporalReference = tr then some (slot d r).frame else none) =
        (if r.previousGOP = false ∧ r.temporalReference = tr then some r.frame else none).map (brighter d)
      split <;> rfl
  have h := Option.isNone_iff_eq_none.1 h
  unfold FrameStore.tryGet at h ⊢
  show (match RefFrame.matches (s.fs.f0.map (slot d)) s.frameCounter with
    | some f => some f
    | none => RefFrame.matches (s.fs.f1.map (slot d)) s.frameCounter) = none
  rw [hm, hm]
  cases h0 : RefFrame.matches s.fs.f0 s.frameCounter with
  | some f => rw [h0] at h; cases h
  | none =>
    rw [h0] at h
    dsimp only at h
    rw [h]
    rfl

/-- Three calls of `Next` return the I and the P picture and report the damage; it makes no difference that the frames held before are
brighter. -/
example (d : Nat) : firsts (perform 1000 3 [.next, .next, .next] entry).1 ≠ [none, none, none] ∧
    (perform 1000 3 [.next, .next, .next] entry).1 = (perform 1000 3 [.next, .next, .next] (bright d entry)).1 := by
  have hw : (entry.fs.tryGet entry.frameCounter).isNone := by decide +kernel
  have hh : (match (stepHead 1000 entry).1 with | .ok _ => true | _ => false) = true := by decide +kernel
  have hp : (match BR.peek 32 entry.br with | (.ok v, _) => v == 0x1B8 | _ => false) = true := by decide +kernel
  have hs : entry.sh.isSome = true := by decide +kernel
  have hr : refersSince 1000 3 0 [.next, .next, .next] entry = true := by decide +kernel
  refine ⟨by decide +kernel, C141_group 1000 (by decide) (bright_any d entry) hs (Option.isNone_iff_eq_none.1 hw)
    (bright_waiting d entry hw) ?_ ?_ hr⟩
  · generalize entry.br = b at hp
    rcases hx : BR.peek 32 b with ⟨r, b'⟩
    rw [hx] at hp
    cases r with
    | ok v =>
      have hv : v = 0x1B8 := by simpa using hp
      rw [(BR.peek_inv hx).1, hv]
    | _ => cases hp
  · generalize (stepHead 1000 entry).1 = x at hh
    cases x with
    | ok _ => rfl
    | _ => cases hh

/-- A group that begins with a P picture: it refers to a picture before the group, and what is returned does depend on the frames
held before. -/
def stream5 : List Bool := bitsI ++ (byte (encGOP gopH) ++ (pBits 0 ++ bitsOf 32 0x1B7))
def entry5 : VS := (perform 1000 3 [.next] (VS.new ⟨stream5, 0, .eof, []⟩)).2

example : refersSince 1000 3 0 [.next] entry5 = false ∧ (firsts (perform 1000 3 [.next] entry5).1).all (·.isSome) ∧
    firsts (perform 1000 3 [.next] entry5).1 ≠ firsts (perform 1000 3 [.next] (bright 3 entry5)).1 := by decide +kernel

end ExEntry

end Mpeg.Video
