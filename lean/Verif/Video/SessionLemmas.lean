/-
What a failing step leaves behind; sessions of an application that goes on after errors.
-/
import Verif.Video.SessionSpec
import Verif.Video.LostLemmas
namespace Mpeg.Video
open Spec

/-- The reader is at a group of pictures header, and it can be read. -/
def gopAt (br : BR) : Bool :=
  br.bits.take 32 == bitsOf 32 groupStartCode && (match (readGOPHeader br).1 with | .ok _ => true | _ => false)

/-- Did the attempt at a picture that begins in state `s` read a group of pictures header? -/
def gopRead (fuel : Nat) (s : VS) : Bool :=
  match toPicture fuel s with
  | (.ok _, s1) => gopAt s1.br
  | _ => false

/-- `Steps fuel realign s es s'`: the events `es` of successive steps from `s`; after a failure (an error, or a panic that
the application recovers from) `realign` moves the reader. -/
inductive Steps (fuel : Nat) (realign : Go BR Unit) : VS → List Event → VS → Prop
  | nil (s : VS) : Steps fuel realign s [] s
  | pict {s s' s'' : VS} {p : Pict} {es : List Event} : Run fuel s [p] s' → Steps fuel realign s' es s'' →
      Steps fuel realign s (.pict p :: es) s''
  | fail {s s1 s' s'' : VS} {r : Res Frame} {es : List Event} : step fuel s = (r, s1) → ((∃ e, r = .err e) ∨ r = .panic) →
      VS.lift realign s1 = (.ok (), s') → Steps fuel realign s' es s'' → Steps fuel realign s (.fail (gopRead fuel s) :: es) s''

/-- What the application does with the outcome of a call of `Next`, and then `more`. -/
def handle (realign : Go BR Unit) (more : Go VS (List Frame)) : Res Frame × VS → Res (List Frame) × VS
  | (.ok f, t) => (more >>= fun l => pure (f :: l)) t
  | (.err _, t) => (VS.lift realign >>= fun _ => more) t
  | (.panic, t) => (VS.lift realign >>= fun _ => more) t
  | (.hang, t) => (.hang, t)

/-- The application: `n` calls of `Next`; the frames are collected, and after a failure `realign` is called. -/
def watch (fuel k : Nat) (realign : Go BR Unit) : Nat → Go VS (List Frame)
  | 0 => pure []
  | n + 1 => fun s => handle realign (watch fuel k realign n) (VS.next fuel k s)

/-! ### a failing step -/

theorem step_eq (fuel : Nat) : step fuel = (toPicture fuel >>= fun _ => moreFrames fuel) := by
  funext s
  by_cases hs : s.sh.isSome = true
  · have h1 : toPicture fuel s = resumeTo fuel s := if_pos hs
    have h2 : step fuel s = resume fuel s := if_pos hs
    have h3 : resume fuel = (resumeTo fuel >>= fun _ => moreFrames fuel) := by
      unfold resume resumeTo continueFrames
      rw [bind_assoc]
      congr 1
      funext v
      split
      · rw [pure_bind]
      · split
        · rw [bind_assoc]; rfl
        · simp only [bind_assoc]
    rw [h2, h3, Go.bind_apply, Go.bind_apply, h1]
  · have h1 : toPicture fuel s = startTo fuel s := if_neg hs
    have h2 : step fuel s = start fuel s := if_neg hs
    have h3 : start fuel = (startTo fuel >>= fun _ => moreFrames fuel) := by
      unfold start startTo continueFrames
      simp only [bind_assoc]
    rw [h2, h3, Go.bind_apply, Go.bind_apply, h1]

/-- The slots of the store and the counter. -/
def Slots (a b : Option RefFrame) (c : Nat) (s : VS) : Prop := s.fs.f0 = a ∧ s.fs.f1 = b ∧ s.frameCounter = c

theorem slots_eq (a b : Option RefFrame) (c : Nat) :
    Slots a b c = OnFs fun fs n _ => fs.f0 = a ∧ fs.f1 = b ∧ n = c := rfl

/-- Fails to hold only if the computation succeeds. -/
def KeepsFail {α : Type} (P : VS → Prop) (m : Go VS α) : Prop := ∀ s, P s → (∀ a, (m s).1 ≠ .ok a) → P (m s).2

theorem keepsFail_bind {α β : Type} {P : VS → Prop} {m : Go VS α} {f : α → Go VS β} (h1 : Keeps P m)
    (h2 : ∀ a, KeepsFail P (f a)) : KeepsFail P (m >>= f) := by
  intro s hs hf
  have := h1 s hs
  rw [Go.bind_apply] at hf ⊢
  rcases hm : m s with ⟨r, t⟩
  rw [hm] at this hf
  cases r with
  | ok a => exact h2 a t this hf
  | err e => exact this
  | panic => exact this
  | hang => exact this

theorem keepsFail_pictureStep (a b : Option RefFrame) (c : Nat) : KeepsFail (Slots a b c) pictureStep := by
  intro s hs hf
  unfold pictureStep at hf ⊢
  rw [Go.bind_ok (Go.get_apply s)] at hf ⊢
  cases hp : s.ph with
  | none => exact hs
  | some ph =>
    rw [hp] at hf
    dsimp only at hf ⊢
    refine keepsFail_bind (P := Slots a b c) (keeps_modify fun s h => ?_) (fun _ => keepsFail_bind ?_ fun f => ?_) s hs hf
    · obtain ⟨k0, k1⟩ := set_slots s.fs ph.temporalReference
      exact ⟨k0.trans h.1, k1.trans h.2.1, h.2.2⟩
    · rw [slots_eq]; exact keeps_pictureData
    · intro t _ hf
      rw [Go.bind_ok (Go.modify_apply ..)] at hf
      exact absurd rfl (hf f)

theorem groupHeader_any (fuel : Nat) (s : VS) :
    Slots (s.fs.entered (gopAt s.br)).f0 (s.fs.entered (gopAt s.br)).f1 (if gopAt s.br then 0 else s.frameCounter)
      (groupHeader fuel s).2 := by
  unfold gopAt
  unfold groupHeader
  by_cases hl : s.br.bits.length < 32
  · have : (s.br.bits.take 32 == bitsOf 32 groupStartCode) = false := by
      apply beq_false_of_ne
      intro he
      have := congrArg List.length he
      rw [List.length_take, length_bitsOf] at this
      omega
    rw [this]
    rw [Go.bind_apply]
    rcases hm : VS.lift (BR.peek 32) s with ⟨r, t⟩
    have hk := keeps_vlift (P := fun fs n _ => fs = s.fs ∧ n = s.frameCounter) (BR.peek 32) s (show OnFs _ _ from ⟨rfl, rfl⟩)
    rw [hm] at hk
    obtain ⟨k1, k2⟩ := hk
    have hkk : Slots s.fs.f0 s.fs.f1 s.frameCounter t := ⟨by rw [k1], by rw [k1], k2⟩
    cases r with
    | ok v =>
      obtain ⟨_, hl', _⟩ := vpeek_inv hm
      omega
    | err e => exact hkk
    | panic => exact hkk
    | hang => exact hkk
  · have hp : VS.lift (BR.peek 32) s = (.ok (natOfBits (s.br.bits.take 32)), s) := by
      unfold VS.lift
      rw [BR.peek_ok (by omega)]
    rw [Go.bind_ok hp]
    have hlen : (s.br.bits.take 32).length = 32 := by simp; omega
    have hg : (s.br.bits.take 32 == bitsOf 32 groupStartCode) = (natOfBits (s.br.bits.take 32) == groupStartCode) := by
      by_cases hc : s.br.bits.take 32 = bitsOf 32 groupStartCode
      · rw [hc, beq_self_eq_true, natOfBits_bitsOf_of_lt (by decide), beq_self_eq_true]
      · have : natOfBits (s.br.bits.take 32) ≠ groupStartCode := by
          intro he
          exact hc (by rw [← he, bitsOf_natOfBits' hlen])
        rw [beq_false_of_ne hc, beq_false_of_ne this]
    rw [hg]
    cases hv : natOfBits (s.br.bits.take 32) == groupStartCode with
    | false => exact ⟨rfl, rfl, rfl⟩
    | true =>
      rw [Go.opt_true, Go.bind_apply]
      rcases hr : readGOPHeader s.br with ⟨r, br'⟩
      have hl : VS.lift readGOPHeader s = (r, { s with br := br' }) := by unfold VS.lift; rw [hr]
      rw [hl]
      cases r with
      | ok g =>
        dsimp only
        rw [Go.bind_ok (Go.modify_apply ..)]
        have := keeps_extUser (P := fun fs c _ => fs = s.fs.markGOP ∧ c = 0) 1 fuel
          { s with br := br', gop := some g, fs := s.fs.markGOP, frameCounter := 0 } ⟨rfl, rfl⟩
        exact ⟨by rw [this.1]; rfl, by rw [this.1]; rfl, this.2⟩
      | err e => exact ⟨rfl, rfl, rfl⟩
      | panic => exact ⟨rfl, rfl, rfl⟩
      | hang => exact ⟨rfl, rfl, rfl⟩

/-- A failing step adds nothing to the store. -/
theorem step_fails {fuel : Nat} {s t : VS} {r : Res Frame} (h : step fuel s = (r, t)) (hr : ∀ f, r ≠ .ok f) :
    Slots (s.fs.entered (gopRead fuel s)).f0 (s.fs.entered (gopRead fuel s)).f1
      (if gopRead fuel s then 0 else s.frameCounter) t := by
  rw [step_eq, Go.bind_apply] at h
  have k1 := keeps_toPicture (P := fun fs c _ => fs = s.fs ∧ c = s.frameCounter) fuel s (show OnFs _ _ from ⟨rfl, rfl⟩)
  unfold gopRead
  rcases hp : toPicture fuel s with ⟨q, s1⟩
  rw [hp] at h k1
  obtain ⟨k1, k2⟩ := k1
  dsimp only at k1 k2
  have hkk : Slots s.fs.f0 s.fs.f1 s.frameCounter s1 := ⟨by rw [k1], by rw [k1], k2⟩
  cases q with
  | err e => cases h; exact hkk
  | panic => cases h; exact hkk
  | hang => cases h; exact hkk
  | ok u =>
    dsimp only at h ⊢
    rw [← k1, ← k2]
    have hg := groupHeader_any fuel s1
    unfold moreFrames at h
    rw [Go.bind_apply] at h
    rcases hm : groupHeader fuel s1 with ⟨q, s2⟩
    rw [hm] at h hg
    cases q with
    | err e => cases h; exact hg
    | panic => cases h; exact hg
    | hang => cases h; exact hg
    | ok u =>
      dsimp only at h
      have key : KeepsFail (Slots (s1.fs.entered (gopAt s1.br)).f0 (s1.fs.entered (gopAt s1.br)).f1
          (if gopAt s1.br then 0 else s1.frameCounter)) (do
          pictureHeader
          pictureCodingExtension
          extensionAndUserData 2 fuel
          pictureStep) :=
        keepsFail_bind (by rw [slots_eq]; exact keeps_storeHeader fun _ _ h => h) fun _ =>
        keepsFail_bind (by rw [slots_eq]; exact keeps_pictureCodingExtension) fun _ =>
        keepsFail_bind (by rw [slots_eq]; exact keeps_extUser 2 fuel) fun _ => keepsFail_pictureStep _ _ _
      have := key s2 hg (by rw [h]; exact hr)
      rw [h] at this
      exact this

/-! ### the store -/

theorem tryGet_slots {fs fs' : FrameStore} (h0 : fs.f0 = fs'.f0) (h1 : fs.f1 = fs'.f1) (c : Nat) :
    fs.tryGet c = fs'.tryGet c := by
  unfold FrameStore.tryGet
  rw [h0, h1]

theorem matches_marked (o : Option RefFrame) (c : Nat) :
    RefFrame.matches (o.map fun r => { r with previousGOP := true }) c = none :=
  lost_matches_none fun r hr => by
    obtain ⟨a, _, rfl⟩ := Option.map_eq_some_iff.1 hr
    exact .inl rfl

theorem tryGet_marked (fs : FrameStore) (c : Nat) : fs.markGOP.tryGet c = none := by
  unfold FrameStore.tryGet FrameStore.markGOP
  dsimp only
  rw [matches_marked, matches_marked]

theorem tryGet_entered {fs : FrameStore} {c : Nat} (h : fs.tryGet c = none) (g : Bool) :
    (fs.entered g).tryGet (if g then 0 else c) = none := by
  cases g with
  | true => exact tryGet_marked fs 0
  | false => exact h

theorem entered_twice (fs : FrameStore) (g b : Bool) :
    ((fs.entered g).entered b).f0 = (fs.entered (g || b)).f0 ∧ ((fs.entered g).entered b).f1 = (fs.entered (g || b)).f1 := by
  cases g <;> cases b <;> try exact ⟨rfl, rfl⟩
  unfold FrameStore.entered FrameStore.markGOP
  simp only [↓reduceIte, Option.map_map, Bool.or_self]
  exact ⟨rfl, rfl⟩

theorem entered_slots {fs fs' : FrameStore} (h0 : fs.f0 = fs'.f0) (h1 : fs.f1 = fs'.f1) (g : Bool) :
    (fs.entered g).f0 = (fs'.entered g).f0 ∧ (fs.entered g).f1 = (fs'.entered g).f1 := by
  cases g with
  | false => exact ⟨h0, h1⟩
  | true =>
    unfold FrameStore.entered FrameStore.markGOP
    simp only [↓reduceIte, h0, h1, and_self]

/-- `Slots` for a store with a pending group of pictures header. -/
def Agree (g : Bool) (fs : FrameStore) (c : Nat) (s : VS) : Prop :=
  Slots (fs.entered g).f0 (fs.entered g).f1 (if g then 0 else c) s

theorem Agree.get {g : Bool} {fs : FrameStore} {c : Nat} {s : VS} (h : Agree g fs c s) (hc : fs.tryGet c = none) :
    s.fs.tryGet s.frameCounter = none := by
  rw [h.2.2, tryGet_slots h.1 h.2.1]
  exact tryGet_entered hc g

theorem Agree.fail {fuel : Nat} {g : Bool} {fs : FrameStore} {c : Nat} {s t : VS} {r : Res Frame} (h : Agree g fs c s)
    (hs : step fuel s = (r, t)) (hr : ∀ f, r ≠ .ok f) : Agree (g || gopRead fuel s) fs c t := by
  obtain ⟨a, b, d⟩ := step_fails hs hr
  generalize gopRead fuel s = b' at a b d ⊢
  obtain ⟨e1, e2⟩ := entered_slots h.1 h.2.1 b'
  obtain ⟨f1, f2⟩ := entered_twice fs g b'
  refine ⟨by rw [a, e1, f1], by rw [b, e2, f2], ?_⟩
  rw [d, h.2.2]
  cases g <;> cases b' <;> rfl

/-- A picture: afterwards nothing is pending. -/
theorem Agree.pict {fuel : Nat} {g : Bool} {fs : FrameStore} {c : Nat} {s t : VS} {p : Pict} (h : Agree g fs c s)
    (he : Eff fuel p s t) :
    t.frameCounter = (if (p.newGop || g) then 0 else c) ∧
      t.fs.f0 = (fs.after { p with newGop := p.newGop || g }).f0 ∧ t.fs.f1 = (fs.after { p with newGop := p.newGop || g }).f1 := by
  refine ⟨?_, ?_⟩
  · rw [he.counter, h.2.2]
    cases p.newGop <;> cases g <;> rfl
  · obtain ⟨e1, e2⟩ := entered_slots h.1 h.2.1 p.newGop
    obtain ⟨f1, f2⟩ := entered_twice fs g p.newGop
    obtain ⟨x1, x2⟩ := set_slots (s.fs.entered p.newGop) p.tr
    obtain ⟨y1, y2⟩ := set_slots (fs.entered (p.newGop || g)) p.tr
    have hor : (p.newGop || g) = (g || p.newGop) := Bool.or_comm _ _
    rw [he.fs]
    unfold FrameStore.after
    dsimp only
    split
    · refine ⟨?_, rfl⟩
      show ((s.fs.entered p.newGop).set p.tr).f1 = ((fs.entered (p.newGop || g)).set p.tr).f1
      rw [x2, y2, e2, f2, hor]
    · rw [x1, x2, y1, y2, e1, e2, f1, f2, hor]
      exact ⟨rfl, rfl⟩

theorem tryGet_after {fs : FrameStore} {c : Nat} {p : Pict} (h : fs.tryGet c = none)
    (hp : p.tr ≠ if p.newGop then 0 else c) : (fs.after p).tryGet (if p.newGop then 0 else c) = none := by
  have h' := tryGet_entered h p.newGop
  generalize (if p.newGop then 0 else c) = c' at hp h' ⊢
  generalize hE : fs.entered p.newGop = fs' at h'
  obtain ⟨x1, x2⟩ := set_slots fs' p.tr
  unfold FrameStore.after
  rw [hE]
  split
  · unfold FrameStore.tryGet at h' ⊢
    have e1 : ((fs'.set p.tr).add p.frame p.tr).f0 = fs'.f1 := x2
    have e2 : ((fs'.set p.tr).add p.frame p.tr).f1 = some ⟨p.frame, p.tr, false⟩ := rfl
    rw [e1, e2]
    have : RefFrame.matches fs'.f1 c' = none := by
      revert h'
      cases RefFrame.matches fs'.f0 c' with
      | none => exact id
      | some f => intro h; cases h
    rw [this]
    dsimp only
    refine lost_matches_none fun r hr => ?_
    cases hr
    exact .inr hp
  · rw [tryGet_slots x1 x2]
    exact h'

/-! ### sessions -/

theorem gopRead_eqv {fuel : Nat} {s t : VS} (e : Eqv s t) : gopRead fuel t = gopRead fuel s := by
  obtain ⟨b1, b2⟩ := sim_toPicture fuel s t e
  unfold gopRead
  rcases hs : toPicture fuel s with ⟨r, s1⟩
  rcases ht : toPicture fuel t with ⟨r', t1⟩
  rw [hs, ht] at b1 b2
  dsimp only at b1
  subst b1
  have : t1.br = s1.br := by
    obtain ⟨c, hc⟩ := b2
    dsimp only at hc
    rw [hc]
  cases r' <;> dsimp only
  rw [this]

theorem Steps.eqv {fuel : Nat} {realign : Go BR Unit} : ∀ {es : List Event} {s t s' : VS}, Steps fuel realign s es s' →
    Eqv s t → ∃ t', Steps fuel realign t es t' ∧ Eqv s' t'
  | [], _, t, _, h, e => by cases h; exact ⟨t, .nil t, e⟩
  | .pict p :: es, s, t, s', h, e => by
    cases h with
    | pict hr hs =>
      obtain ⟨t1, r1, e1⟩ := hr.eqv e
      obtain ⟨t', r2, e2⟩ := Steps.eqv hs e1
      exact ⟨t', .pict r1 r2, e2⟩
  | .fail b :: es, s, t, s', h, e => by
    cases h with
    | @fail _ s1 s2 _ r _ h1 h2 h3 hs =>
      obtain ⟨a1, a2⟩ := sim_step fuel s t e
      rw [h1] at a1 a2
      obtain ⟨b1, b2⟩ := sim_lift realign _ _ a2
      dsimp only at b1 b2
      rw [h3] at b1 b2
      obtain ⟨t', r2, e2⟩ := Steps.eqv hs b2
      rw [← gopRead_eqv e]
      exact ⟨t', .fail (s1 := (step fuel t).2) (s' := (VS.lift realign (step fuel t).2).2) (Prod.ext a1 rfl) h2 (Prod.ext b1 rfl) r2, e2⟩

/-- The outcome of `N` calls, the first of which is inside its loop, and of the call after them. -/
def LoopRes (fuel k k' : Nat) (realign : Go BR Unit) (s : VS) (l : List Frame) (P : Err → Prop) : Nat → Prop
  | 0 => l = [] ∧ ∀ e, P e → (nextLoop fuel k' s).1 = .err e
  | N + 1 => ∃ u, handle realign (watch fuel k realign N) (nextLoop fuel k' s) = (.ok l, u) ∧
      ∀ e, P e → (VS.next fuel k u).1 = .err e

/-- The outcome of `N` calls, and of the call after them. -/
def CallRes (fuel k : Nat) (realign : Go BR Unit) (s : VS) (l : List Frame) (P : Err → Prop) (N : Nat) : Prop :=
  ∃ u, watch fuel k realign N s = (.ok l, u) ∧ ∀ e, P e → (VS.next fuel k u).1 = .err e

theorem call_of_loop {fuel k : Nat} {realign : Go BR Unit} {s : VS} {l : List Frame} {P : Err → Prop} {N : Nat}
    (hg : s.fs.tryGet s.frameCounter = none) (h : LoopRes fuel k k realign s l P N) : CallRes fuel k realign s l P N := by
  have hn := next_loop (fuel := fuel) (k := k) hg
  cases N with
  | zero =>
    obtain ⟨rfl, h⟩ := h
    exact ⟨s, rfl, fun e he => by rw [hn]; exact h e he⟩
  | succ N =>
    obtain ⟨u, h1, h2⟩ := h
    refine ⟨u, ?_, h2⟩
    show handle realign (watch fuel k realign N) (VS.next fuel k s) = _
    rw [hn, h1]

theorem fail_not_ok {r : Res Frame} (h : (∃ e, r = .err e) ∨ r = .panic) (f : Frame) : r ≠ .ok f := by
  rintro rfl
  rcases h with ⟨e, h⟩ | h <;> cases h

theorem loop_fail {fuel k k' : Nat} {realign : Go BR Unit} {s s1 s2 : VS} {r : Res Frame} {l : List Frame} {P : Err → Prop}
    {N : Nat} (hs : step fuel s = (r, s1)) (hr : (∃ e, r = .err e) ∨ r = .panic) (ha : VS.lift realign s1 = (.ok (), s2))
    (hk : 1 ≤ k') (h : CallRes fuel k realign s2 l P N) : LoopRes fuel k k' realign s l P (N + 1) := by
  obtain ⟨j, rfl⟩ : ∃ j, k' = j + 1 := ⟨k' - 1, by omega⟩
  obtain ⟨u, h1, h2⟩ := h
  refine ⟨u, ?_, h2⟩
  have hb : (VS.lift realign >>= fun _ => watch fuel k realign N) s1 = (.ok l, u) := by rw [Go.bind_ok ha, h1]
  rcases hr with ⟨e, rfl⟩ | rfl
  · have : nextLoop fuel (j + 1) s = (.err e, s1) := by
      unfold nextLoop
      exact Go.bind_err hs
    rw [this]
    exact hb
  · have : nextLoop fuel (j + 1) s = (.panic, s1) := by
      unfold nextLoop
      exact Go.bind_panic hs
    rw [this]
    exact hb

/-- Failures at the front. -/
theorem strip {fuel k : Nat} {realign : Go BR Unit} {fs : FrameStore} {c : Nat} {ps : List Pict} {l : List Frame}
    (hc : fs.tryGet c = none)
    (base : ∀ {es : List Event} {g : Bool} {s s' : VS} {k' : Nat}, (∀ b es', es ≠ .fail b :: es') → kept g es = ps →
      Agree g fs c s → Steps fuel realign s es s' → es.length < k → es.length < k' →
      LoopRes fuel k k' realign s l (fun e => (step fuel s').1 = .err e) (l.length + failures es)) :
    ∀ {es : List Event} {g : Bool} {s s' : VS} {k' : Nat}, kept g es = ps → Agree g fs c s → Steps fuel realign s es s' →
      es.length < k → es.length < k' →
      LoopRes fuel k k' realign s l (fun e => (step fuel s').1 = .err e) (l.length + failures es)
  | [], g, s, s', k', hp, ha, hs, hk, hk' => base (fun _ _ h => by cases h) hp ha hs hk hk'
  | .pict p :: es, g, s, s', k', hp, ha, hs, hk, hk' => base (fun _ _ h => by cases h) hp ha hs hk hk'
  | .fail b :: es, g, s, s', k', hp, ha, hs, hk, hk' => by
    rw [List.length_cons] at hk hk'
    cases hs with
    | @fail _ s1 s2 _ r _ h1 h2 h3 hs =>
      have a1 := ha.fail h1 (fail_not_ok h2)
      have a2 : Agree (g || gopRead fuel s) fs c s2 := by
        have e : s2 = { s1 with br := (realign s1.br).2 } := (congrArg Prod.snd h3).symm
        rw [e]
        exact a1
      exact loop_fail h1 h2 h3 (by omega)
        (call_of_loop (a2.get hc) (strip hc base hp a2 hs (by omega) (by omega)))

/-- What the calls of an application return of a stream in which decoding fails now and then. -/
theorem emits_watch {fuel k : Nat} {realign : Go BR Unit} {b : Bool} {fs : FrameStore} {c : Nat} {ps : List Pict}
    {l : List Frame} (h : Emits b fs c ps l) :
    (b = true → fs.tryGet c = none → ∀ {es : List Event} {g : Bool} {s s' : VS} {k' : Nat}, kept g es = ps →
      Agree g fs c s → Steps fuel realign s es s' → es.length < k → es.length < k' →
      LoopRes fuel k k' realign s l (fun e => (step fuel s').1 = .err e) (l.length + failures es)) ∧
    (b = false → ∀ {es : List Event} {s s' : VS}, kept false es = ps → Agree false fs c s → Steps fuel realign s es s' →
      es.length < k → CallRes fuel k realign s l (fun e => (step fuel s').1 = .err e) (l.length + failures es)) := by
  induction h with
  | @wait fs c ps f l h1 h2 _ ih =>
    refine ⟨fun h => (by cases h), fun _ {es s s'} hp ha hs hk => ?_⟩
    obtain ⟨t', hs', hq⟩ := hs.eqv (eqv_count s)
    have hc : s.frameCounter = c := ha.2.2
    have ha' : Agree false fs (c + 1) s.count := ⟨ha.1, ha.2.1, by
      rw [count_small (by rw [hc]; exact h2), hc]; rfl⟩
    obtain ⟨u, n1, n2⟩ := ih.2 rfl hp ha' hs' hk
    refine ⟨u, ?_, fun e he => n2 e ((sim_step fuel s' t' hq).1.trans he)⟩
    have hn : VS.next fuel k s = (.ok f, s.count) := by
      unfold VS.next
      rw [hc, tryGet_slots (fs' := fs) ha.1 ha.2.1, h1]
    rw [List.length_cons, show l.length + 1 + failures es = l.length + failures es + 1 by omega]
    show handle realign _ (VS.next fuel k s) = _
    rw [hn]
    show (watch fuel k realign _ >>= fun l => pure (f :: l)) s.count = _
    rw [Go.bind_ok n1]
    rfl
  | @go fs c ps l h1 _ ih =>
    refine ⟨fun h => (by cases h), fun _ {es s s'} hp ha hs hk => ?_⟩
    exact call_of_loop (ha.get h1) (ih.1 rfl h1 hp ha hs hk hk)
  | @hit fs c p ps l h1 _ ih =>
    refine ⟨fun _ hc => strip hc fun {es g s s' k'} hnf hp ha hs hk hk' => ?_, fun h => (by cases h)⟩
    match es, hnf, hp, hs, hk, hk' with
    | [], _, hp, _, _, _ => cases hp
    | .fail b :: es, hnf, _, _, _, _ => exact absurd rfl (hnf b es)
    | .pict q :: es, _, hp, hs, hk, hk' =>
      rw [List.length_cons] at hk hk'
      obtain ⟨hq, hps⟩ := List.cons.inj hp
      cases hs with
      | @pict _ m _ _ _ hr hs =>
        obtain ⟨m', he, hm⟩ := hr.inv
        cases hm
        obtain ⟨c1, c2, c3⟩ := ha.pict he
        rw [hq] at c2 c3
        have hg : (q.newGop || g) = p.newGop := by rw [← hq]
        have ht : q.tr = p.tr := by rw [← hq]
        have hf : q.frame = p.frame := by rw [← hq]
        rw [hg] at c1
        have hmc : m.frameCounter = p.tr := by rw [c1, h1]
        obtain ⟨t', hs', hq'⟩ := hs.eqv (eqv_count m)
        have hcnt : m.count.frameCounter = p.tr + 1 := by
          rw [count_small (by rw [hmc, ← ht]; exact he.tr), hmc]
        obtain ⟨u, n1, n2⟩ := ih.2 rfl hps (s := m.count) ⟨c2, c3, hcnt⟩ hs' (by omega)
        have hl := loop_hit (k := k') he (by rw [hmc, ht]) (by omega)
        rw [show (p.frame :: l).length + failures (.pict q :: es) = l.length + failures es + 1 by
          rw [List.length_cons]; show l.length + 1 + failures es = _; omega]
        refine ⟨u, ?_, fun e he => n2 e ((sim_step fuel s' t' hq').1.trans he)⟩
        rw [hl]
        show (watch fuel k realign _ >>= fun l => pure (q.frame :: l)) m.count = _
        rw [Go.bind_ok n1, hf]
        rfl
  | @miss fs c p ps l h1 _ ih =>
    refine ⟨fun _ hc => strip hc fun {es g s s' k'} hnf hp ha hs hk hk' => ?_, fun h => (by cases h)⟩
    match es, hnf, hp, hs, hk, hk' with
    | [], _, hp, _, _, _ => cases hp
    | .fail b :: es, hnf, _, _, _, _ => exact absurd rfl (hnf b es)
    | .pict q :: es, _, hp, hs, hk, hk' =>
      rw [List.length_cons] at hk hk'
      obtain ⟨hq, hps⟩ := List.cons.inj hp
      cases hs with
      | @pict _ m _ _ _ hr hs =>
        obtain ⟨m', he, hm⟩ := hr.inv
        cases hm
        obtain ⟨c1, c2, c3⟩ := ha.pict he
        rw [hq] at c2 c3
        have hg : (q.newGop || g) = p.newGop := by rw [← hq]
        have ht : q.tr = p.tr := by rw [← hq]
        rw [hg] at c1
        obtain ⟨j, rfl⟩ : ∃ j, k' = j + 1 := ⟨k' - 1, by omega⟩
        have := ih.1 rfl (tryGet_after hc h1) hps (g := false) (s := m) ⟨c2, c3, c1⟩ hs (k' := j) (by omega) (by omega)
        have hl := loop_miss (k := j) he (by rw [c1, ht]; exact h1)
        show LoopRes _ _ _ _ _ _ _ (l.length + failures es)
        generalize l.length + failures es = N at this ⊢
        cases N with
        | zero => exact ⟨this.1, fun e he => by rw [hl]; exact this.2 e he⟩
        | succ N =>
          obtain ⟨u, n1, n2⟩ := this
          exact ⟨u, by rw [hl]; exact n1, n2⟩
  | @done fs c =>
    refine ⟨fun _ hc => strip hc fun {es g s s' k'} hnf hp ha hs hk hk' => ?_, fun h => (by cases h)⟩
    match es, hnf, hp, hs, hk, hk' with
    | [], _, _, hs, _, hk' =>
      cases hs
      refine ⟨rfl, fun e he => ?_⟩
      obtain ⟨j, rfl⟩ : ∃ j, k' = j + 1 := ⟨k' - 1, by have : (0 : Nat) < k' := hk'; omega⟩
      unfold nextLoop
      rw [Go.bind_err (Prod.ext he rfl)]
    | .fail b :: es, hnf, _, _, _, _ => exact absurd rfl (hnf b es)
    | .pict q :: es, _, hp, _, _, _ => cases hp

/-! ### the calls always return something -/

/-- The temporal references in the store have ten bits. -/
def SmallRefs (fs : FrameStore) : Prop :=
  (∀ r, fs.f0 = some r → r.temporalReference < 1024) ∧ ∀ r, fs.f1 = some r → r.temporalReference < 1024

theorem SmallRefs.get {fs : FrameStore} (h : SmallRefs fs) {c : Nat} {f : Frame} (hg : fs.tryGet c = some f) : c < 1024 := by
  have key : ∀ {o : Option RefFrame}, (∀ r, o = some r → r.temporalReference < 1024) →
      ∀ {f : Frame}, RefFrame.matches o c = some f → c < 1024 := by
    intro o ho f hf
    unfold RefFrame.matches at hf
    cases o with
    | none => cases hf
    | some r =>
      dsimp only at hf
      split at hf
      · rename_i hc
        have := ho r rfl
        omega
      · cases hf
  unfold FrameStore.tryGet at hg
  cases hm : RefFrame.matches fs.f0 c with
  | some x => exact key h.1 hm
  | none =>
    rw [hm] at hg
    exact key h.2 hg

theorem SmallRefs.after {fs : FrameStore} (h : SmallRefs fs) {p : Pict} (hp : p.tr < 1024) : SmallRefs (fs.after p) := by
  have he : SmallRefs (fs.entered p.newGop) := by
    cases p.newGop with
    | false => exact h
    | true =>
      constructor <;> intro r hr <;> obtain ⟨a, ha, rfl⟩ := Option.map_eq_some_iff.1 hr
      · exact h.1 a ha
      · exact h.2 a ha
  obtain ⟨x1, x2⟩ := set_slots (fs.entered p.newGop) p.tr
  unfold FrameStore.after
  split
  · refine ⟨fun r hr => he.2 r (x2.symm.trans hr), fun r hr => ?_⟩
    cases hr
    exact hp
  · exact ⟨fun r hr => he.1 r (x1.symm.trans hr), fun r hr => he.2 r (x2.symm.trans hr)⟩

theorem emits_some : ∀ {ps : List Pict}, (∀ p ∈ ps, p.tr < 1024) → ∀ {fs : FrameStore}, SmallRefs fs →
    (∀ c, ∃ l, Emits true fs c ps l) ∧ ∀ c, ∃ l, Emits false fs c ps l := by
  have store : ∀ {ps : List Pict} {fs : FrameStore}, SmallRefs fs → (∀ c, ∃ l, Emits true fs c ps l) →
      ∀ n c, 1024 - c ≤ n → ∃ l, Emits false fs c ps l := by
    intro ps fs hs ht n
    induction n with
    | zero =>
      intro c hc
      cases hg : fs.tryGet c with
      | none => exact (ht c).imp fun l h => .go hg h
      | some f =>
        have := hs.get hg
        omega
    | succ n ih =>
      intro c hc
      cases hg : fs.tryGet c with
      | none => exact (ht c).imp fun l h => .go hg h
      | some f =>
        have := hs.get hg
        obtain ⟨l, hl⟩ := ih (c + 1) (by omega)
        exact ⟨f :: l, .wait hg this hl⟩
  intro ps
  induction ps with
  | nil =>
    intro _ fs hs
    exact ⟨fun c => ⟨[], .done⟩, fun c => store hs (fun c => ⟨[], .done⟩) _ c (Nat.le_refl _)⟩
  | cons p ps ih =>
    intro hp fs hs
    have hs' := hs.after (hp p (List.mem_cons_self ..))
    obtain ⟨i1, i2⟩ := ih (fun q hq => hp q (List.mem_cons_of_mem _ hq)) hs'
    have ht : ∀ c, ∃ l, Emits true fs c (p :: ps) l := by
      intro c
      by_cases hc : p.tr = if p.newGop then 0 else c
      · obtain ⟨l, hl⟩ := i2 (p.tr + 1)
        exact ⟨_, .hit hc hl⟩
      · obtain ⟨l, hl⟩ := i1 (if p.newGop then 0 else c)
        exact ⟨_, .miss hc hl⟩
    exact ⟨ht, fun c => store hs ht _ c (Nat.le_refl _)⟩

theorem Run.small {fuel : Nat} : ∀ {ps : List Pict} {s s' : VS}, Run fuel s ps s' → ∀ p ∈ ps, p.tr < 1024
  | [], _, _, _ => fun p hp => (by cases hp)
  | q :: ps, s, s', h => by
    obtain ⟨m, he, hr⟩ := h.inv
    intro p hp
    rcases List.mem_cons.1 hp with rfl | hp
    · exact he.tr
    · exact Run.small hr p hp

theorem Steps.small {fuel : Nat} {realign : Go BR Unit} : ∀ {es : List Event} {g : Bool} {s s' : VS},
    Steps fuel realign s es s' → ∀ p ∈ kept g es, p.tr < 1024
  | [], _, _, _, _ => fun p hp => (by cases hp)
  | .pict q :: es, g, s, s', h => by
    cases h with
    | pict hr hs =>
      intro p hp
      rcases List.mem_cons.1 hp with rfl | hp
      · exact hr.small q (List.mem_cons_self ..)
      · exact Steps.small hs p hp
  | .fail b :: es, g, s, s', h => by
    cases h with
    | fail _ _ _ hs => exact fun p hp => Steps.small (g := g || gopRead fuel s) hs p hp

theorem kept_length : ∀ (es : List Event) (g : Bool), (kept g es).length + failures es = es.length
  | [], _ => rfl
  | .pict p :: es, g => by
    have := kept_length es false
    simp only [kept, failures, List.length_cons]
    omega
  | .fail b :: es, g => by
    have := kept_length es (g || b)
    simp only [kept, failures, List.length_cons]
    omega

end Mpeg.Video
