/-
C136: how many pictures an input can give.
-/
import Verif.Video.CostLemmas
import Verif.Video.CausSpec
import Verif.Video.SessionLemmas
set_option linter.all false
namespace Mpeg.Video
open Spec

namespace Cost

/-- Every picture decoded is paid for: it has a price `w`, and every bit is worth `K`. -/
def Pays (K : Nat) (w : Frame → Nat) (fuel : Nat) : Prop :=
  ∀ s f t, step fuel s = (.ok f, t) → w f + K * t.br.size ≤ K * s.br.size

section
variable (w : Frame → Nat)

/-- the price of the picture of a slot that a later call may return -/
def slot (c : Nat) : Option RefFrame → Nat
  | none => 0
  | some r => if r.previousGOP = false ∧ c ≤ r.temporalReference then w r.frame else 0

/-- the price of the pictures that were decoded and not returned -/
def pend (fs : FrameStore) (c : Nat) : Nat := slot w c fs.f0 + slot w c fs.f1

variable {w}

theorem slot_le (c : Nat) (r : RefFrame) : slot w c (some r) ≤ w r.frame := by
  show (if r.previousGOP = false ∧ c ≤ r.temporalReference then w r.frame else 0) ≤ _
  split <;> omega
theorem slot_succ (c : Nat) (o : Option RefFrame) : slot w (c + 1) o ≤ slot w c o := by
  cases o with
  | none => exact Nat.le_refl _
  | some r =>
    show (if r.previousGOP = false ∧ c + 1 ≤ r.temporalReference then w r.frame else 0) ≤
      (if r.previousGOP = false ∧ c ≤ r.temporalReference then w r.frame else 0)
    by_cases h : r.previousGOP = false ∧ c + 1 ≤ r.temporalReference
    · rw [if_pos h, if_pos ⟨h.1, by omega⟩]; exact Nat.le_refl _
    · rw [if_neg h]; exact Nat.zero_le _
theorem slot_hit {c : Nat} {o : Option RefFrame} {f : Frame} (h : RefFrame.matches o c = some f) :
    slot w (c + 1) o + w f = slot w c o := by
  cases o with
  | none => cases h
  | some r =>
    unfold RefFrame.matches at h
    dsimp only at h
    split at h
    · rename_i hc
      cases h
      show (if r.previousGOP = false ∧ c + 1 ≤ r.temporalReference then w r.frame else 0) + w r.frame =
        (if r.previousGOP = false ∧ c ≤ r.temporalReference then w r.frame else 0)
      rw [if_neg (by omega), if_pos ⟨hc.1, by omega⟩]
      omega
    · cases h
theorem slot_marked (c : Nat) (o : Option RefFrame) : slot w c (o.map fun r => { r with previousGOP := true }) = 0 := by
  cases o with
  | none => rfl
  | some r =>
    show (if true = false ∧ c ≤ r.temporalReference then w r.frame else 0) = 0
    exact if_neg (fun h => by cases h.1)
theorem pend_hit {fs : FrameStore} {c : Nat} {f : Frame} (h : fs.tryGet c = some f) : pend w fs (c + 1) + w f ≤ pend w fs c := by
  unfold FrameStore.tryGet at h
  unfold pend
  have a := slot_succ (w := w) c fs.f0
  have b := slot_succ (w := w) c fs.f1
  cases hm : RefFrame.matches fs.f0 c with
  | some x =>
    rw [hm] at h
    cases h
    have := slot_hit (w := w) hm; omega
  | none => rw [hm] at h; have := slot_hit (w := w) h; omega
theorem pend_entered (fs : FrameStore) (g : Bool) (c : Nat) : pend w (fs.entered g) (if g then 0 else c) ≤ pend w fs c := by
  cases g with
  | false => exact Nat.le_refl _
  | true =>
    show slot w 0 (fs.f0.map fun r => { r with previousGOP := true }) + slot w 0 (fs.f1.map fun r => { r with previousGOP := true }) ≤ _
    rw [slot_marked, slot_marked]
    exact Nat.zero_le _

/-- the counter and the references have ten bits, the counter possibly one more -/
def Small (s : VS) : Prop := SmallRefs s.fs ∧ s.frameCounter ≤ 1024

/-- what a state is worth: its bits and the pictures that wait -/
def worth (K : Nat) (w : Frame → Nat) (s : VS) : Nat := pend w s.fs s.frameCounter + K * s.br.size

theorem small_entered {fs : FrameStore} (h : SmallRefs fs) (g : Bool) : SmallRefs (fs.entered g) := by
  cases g with
  | false => exact h
  | true =>
    constructor <;> intro r hr <;> obtain ⟨a, ha, rfl⟩ := Option.map_eq_some_iff.1 hr
    · exact h.1 a ha
    · exact h.2 a ha

variable {K fuel : Nat}

theorem fails {s t : VS} {r : Res Frame} (hs : Small s) (h : step fuel s = (r, t)) (hr : ∀ f, r ≠ .ok f) :
    Small t ∧ worth K w t ≤ worth K w s := by
  obtain ⟨h0, h1, h2⟩ := step_fails h hr
  have hm := (mv_step fuel s).size
  rw [h] at hm
  have hp := pend_entered (w := w) s.fs (gopRead fuel s) s.frameCounter
  have hse := small_entered hs.1 (gopRead fuel s)
  generalize gopRead fuel s = g at *
  refine ⟨⟨⟨fun r hr => hse.1 r (h0 ▸ hr), fun r hr => hse.2 r (h1 ▸ hr)⟩, ?_⟩, ?_⟩
  · rw [h2]
    have := hs.2
    split <;> omega
  · unfold worth
    have e : pend w t.fs t.frameCounter = pend w (s.fs.entered g) (if g then 0 else s.frameCounter) := by
      unfold pend; rw [h0, h1, h2]
    have hm : t.br.size ≤ s.br.size := hm
    have hm := Nat.mul_le_mul_left K hm
    omega

theorem decodes (hw : Pays K w fuel) {s t : VS} {f : Frame} (hs : Small s) (h : step fuel s = (.ok f, t)) :
    ∃ ph, t.ph = some ph ∧ ph.temporalReference < 1024 ∧ Small t ∧ worth K w t ≤ worth K w s ∧
      (ph.temporalReference = t.frameCounter → pend w t.fs (t.frameCounter + 1) + w f + K * t.br.size ≤ worth K w s) := by
  obtain ⟨s1, ph, _, h2, h3, h4, h5, _⟩ := step_effect h
  have hc := hw s f t h
  have hp := pend_entered (w := w) s.fs (s1.br.bits.take 32 == bitsOf 32 groupStartCode) s.frameCounter
  have hse := small_entered hs.1 (s1.br.bits.take 32 == bitsOf 32 groupStartCode)
  generalize (s1.br.bits.take 32 == bitsOf 32 groupStartCode) = g at *
  rw [← h4] at hp
  have hcnt : t.frameCounter ≤ 1024 := by
    rw [h4]
    have := hs.2
    split <;> omega
  generalize s.fs.entered g = e at *
  obtain ⟨x1, x2⟩ := set_slots e ph.temporalReference
  refine ⟨ph, h2, h3, ?_⟩
  unfold worth
  unfold pend at hp
  have a0 := slot_succ (w := w) t.frameCounter e.f0
  have a1 := slot_succ (w := w) t.frameCounter e.f1
  by_cases hk : ph.pictureCodingType = 1 ∨ ph.pictureCodingType = 2
  · rw [if_pos hk] at h5
    have p0 : t.fs.f0 = e.f1 := by rw [h5]; exact x2
    have p1 : t.fs.f1 = some ⟨f, ph.temporalReference, false⟩ := by rw [h5]; rfl
    have b : slot w t.frameCounter t.fs.f1 ≤ w f := by rw [p1]; exact slot_le _ _
    have sm : SmallRefs t.fs := ⟨fun r hr => hse.2 r (p0.symm.trans hr), fun r hr => by
      rw [p1] at hr
      cases hr
      exact h3⟩
    have q : ∀ c, pend w t.fs c = slot w c e.f1 + slot w c t.fs.f1 := fun c => by unfold pend; rw [p0]
    rw [q, q]
    unfold pend
    refine ⟨⟨sm, hcnt⟩, by omega, fun he => ?_⟩
    have : slot w (t.frameCounter + 1) t.fs.f1 = 0 := by
      rw [p1]
      exact if_neg (by dsimp only; omega)
    omega
  · rw [if_neg hk] at h5
    have p0 : t.fs.f0 = e.f0 := by rw [h5]; exact x1
    have p1 : t.fs.f1 = e.f1 := by rw [h5]; exact x2
    have sm : SmallRefs t.fs := ⟨fun r hr => hse.1 r (p0.symm.trans hr), fun r hr => hse.2 r (p1.symm.trans hr)⟩
    have q : ∀ c, pend w t.fs c = slot w c e.f0 + slot w c e.f1 := fun c => by unfold pend; rw [p0, p1]
    rw [q, q]
    unfold pend
    exact ⟨⟨sm, hcnt⟩, by omega, fun he => by omega⟩

/-- the price of the result of a call -/
def price (w : Frame → Nat) : Res Frame → Nat
  | .ok f => w f
  | _ => 0

theorem counted {s : VS} (h : SmallRefs s.fs) (hc : s.frameCounter < 1024) : Small s.count ∧ worth K w s.count =
    pend w s.fs (s.frameCounter + 1) + K * s.br.size := by
  have e : s.count.frameCounter = s.frameCounter + 1 := Nat.mod_eq_of_lt (by omega)
  exact ⟨⟨h, by rw [e]; omega⟩, by unfold worth; rw [e]; rfl⟩

theorem loop (hw : Pays K w fuel) : ∀ (k : Nat) {s t : VS} {r : Res Frame}, Small s → nextLoop fuel k s = (r, t) →
    Small t ∧ worth K w t + price w r ≤ worth K w s
  | 0, s, t, r, hs, h => by cases h; exact ⟨hs, Nat.le_refl _⟩
  | k + 1, s, t, r, hs, h => by
    unfold nextLoop at h
    rw [Go.bind_apply] at h
    rcases hst : step fuel s with ⟨q, s1⟩
    rw [hst] at h
    cases q with
    | ok f =>
      obtain ⟨ph, g1, g2, g3, g4, g5⟩ := decodes hw hs hst
      dsimp only at h
      rw [Go.bind_ok (Go.get_apply _), g1] at h
      dsimp only at h
      by_cases he : ph.temporalReference = s1.frameCounter
      · rw [if_pos he, Go.bind_ok (Go.modify_apply _ _)] at h
        cases h
        obtain ⟨c1, c2⟩ := counted (K := K) (w := w) g3.1 (by omega : s1.frameCounter < 1024)
        have := g5 he
        refine ⟨c1, ?_⟩
        rw [c2]
        show _ + w f ≤ _
        omega
      · rw [if_neg he] at h
        obtain ⟨i1, i2⟩ := loop hw k g3 h
        exact ⟨i1, by omega⟩
    | err e => cases h; exact fails hs hst (fun f hf => by cases hf)
    | panic => cases h; exact fails hs hst (fun f hf => by cases hf)
    | hang => cases h; exact fails hs hst (fun f hf => by cases hf)

theorem next (hw : Pays K w fuel) {k : Nat} {s t : VS} {r : Res Frame} (hs : Small s) (h : VS.next fuel k s = (r, t)) :
    Small t ∧ worth K w t + price w r ≤ worth K w s := by
  unfold VS.next at h
  cases hg : s.fs.tryGet s.frameCounter with
  | none => rw [hg] at h; exact loop hw k hs h
  | some f =>
    rw [hg] at h
    cases h
    obtain ⟨c1, c2⟩ := counted (K := K) (w := w) hs.1 (hs.1.get hg)
    refine ⟨c1, ?_⟩
    rw [c2]
    have := pend_hit (w := w) hg
    show _ + w f ≤ worth K w s
    unfold worth
    omega

theorem moved {s : VS} {br : BR} (hs : Small s) (h : BR.Moves s.br br) :
    Small { s with br := br } ∧ worth K w { s with br := br } ≤ worth K w s :=
  ⟨hs, Nat.add_le_add_left (Nat.mul_le_mul_left K h.size) _⟩

theorem new (br : BR) : Small (VS.new br) ∧ worth K w (VS.new br) = K * br.size :=
  ⟨⟨⟨(fun r h => by cases h), (fun r h => by cases h)⟩, Nat.zero_le _⟩, by unfold worth; exact Nat.zero_add _⟩

/-- what the pictures among the outcomes cost together -/
theorem outcomes_le (hw : Pays K w fuel) (k : Nat) : ∀ n s, Small s →
    ((outcomes fuel k n s).map (price w)).sum ≤ worth K w s
  | 0, s, _ => Nat.zero_le _
  | n + 1, s, hs => by
    unfold outcomes
    rcases h : VS.next fuel k s with ⟨r, t⟩
    obtain ⟨h1, h2⟩ := next hw hs h
    have := outcomes_le hw k n t h1
    cases r with
    | ok f => simp only [List.map_cons, List.sum_cons]; omega
    | err e => simp only [List.map_cons, List.sum_cons]; omega
    | panic => exact Nat.zero_le _
    | hang => exact Nat.zero_le _

theorem watch_le (hw : Pays K w fuel) (k : Nat) {realign : Go BR Unit} (hr : BR.Mv realign) : ∀ n s frames t, Small s →
    watch fuel k realign n s = (.ok frames, t) → (frames.map w).sum + K * t.br.size ≤ worth K w s := by
  intro n
  induction n with
  | zero =>
    intro s frames t hs h
    cases h
    unfold worth
    simp only [List.map_nil, List.sum_nil]
    omega
  | succ n ih =>
    intro s frames t hs h
    unfold watch at h
    rcases hn : VS.next fuel k s with ⟨r, u⟩
    obtain ⟨h1, h2⟩ := next hw hs hn
    have mv : ∀ {frames t}, (VS.lift realign >>= fun _ => watch fuel k realign n) u = (.ok frames, t) →
        (frames.map w).sum + K * t.br.size ≤ worth K w u := by
      intro frames t h
      obtain ⟨_, v, e1, e2⟩ := Go.bind_eq_ok h
      have e3 : { u with br := (realign u.br).2 } = v := congrArg Prod.snd e1
      subst e3
      obtain ⟨m1, m2⟩ := moved (K := K) (w := w) h1 (hr u.br)
      exact Nat.le_trans (ih _ _ _ m1 e2) m2
    rw [hn] at h
    cases r with
    | ok f =>
      obtain ⟨l, v, e1, e2⟩ := Go.bind_eq_ok h
      cases e2
      have := ih _ _ _ h1 e1
      have h2 : _ + w f ≤ _ := h2
      simp only [List.map_cons, List.sum_cons]
      omega
    | err e =>
      have := mv h
      have h2 : _ + 0 ≤ _ := h2
      omega
    | panic =>
      have := mv h
      have h2 : _ + 0 ≤ _ := h2
      omega
    | hang => cases h

end
end Cost

/-- Is the outcome a picture? -/
def isPicture : Res Frame → Bool
  | .ok _ => true
  | _ => false

/-- **C136** Whatever the input (any bits, any errors of the source), however often `Next` is called and whatever the calls
return: every picture returned is paid for by 168 bits of the input of its own.  In particular no picture is returned
twice, and an input of `n` bytes gives at most `n / 21` pictures. -/
theorem C136 (br : BR) (fuel k n : Nat) :
    168 * (outcomes fuel k n (VS.new br)).countP isPicture ≤ br.bits.length + (br.later.map fun x => x.1.length).sum := by
  have hw : Cost.Pays 1 (fun _ => 168) fuel := fun s f t h => by
    have := cost_step fuel s f t h
    show 168 + 1 * _ ≤ 1 * _
    omega
  have h := Cost.outcomes_le hw k n (VS.new br) (Cost.new (K := 1) (w := fun _ => 168) br).1
  rw [(Cost.new br).2] at h
  have e : ∀ l : List (Res Frame), (l.map (Cost.price fun _ => 168)).sum = 168 * l.countP isPicture := by
    intro l
    induction l with
    | nil => rfl
    | cons r l ih =>
      simp only [List.map_cons, List.sum_cons, ih, List.countP_cons]
      cases r <;> simp [Cost.price, isPicture] <;> omega
  rw [e, Nat.one_mul] at h
  exact h

/-- a case: 1000 bytes give at most 47 pictures, whatever they are -/
example (bits : List Bool) (hb : bits.length = 8000) (n : Nat) :
    (outcomes 9000 9000 n (VS.new ⟨bits, 0, .eof, []⟩)).countP isPicture ≤ 47 := by
  have := C136 ⟨bits, 0, .eof, []⟩ 9000 9000 n
  simp only [hb, List.map_nil, List.sum_nil] at this
  omega

/-- **C136** for an application that goes on after errors and panics, and then moves the reader as it likes (`realign`:
consuming bits, meeting errors of the source). -/
theorem C136_watch (br : BR) (fuel k n : Nat) {realign : Go BR Unit} (hr : BR.Mv realign) {frames : List Frame} {t : VS}
    (h : watch fuel k realign n (VS.new br) = (.ok frames, t)) :
    168 * frames.length + t.br.size ≤ br.bits.length + (br.later.map fun x => x.1.length).sum := by
  have hw : Cost.Pays 1 (fun _ => 168) fuel := fun s f t h => by
    have := cost_step fuel s f t h
    show 168 + 1 * _ ≤ 1 * _
    omega
  have h := Cost.watch_le hw k hr n _ _ _ (Cost.new (K := 1) (w := fun _ => 168) br).1 h
  rw [(Cost.new br).2] at h
  have e : ∀ l : List Frame, (l.map fun _ => 168).sum = 168 * l.length := by
    intro l
    induction l with
    | nil => rfl
    | cons r l ih => simp only [List.map_cons, List.sum_cons, ih, List.length_cons]; omega
  rw [e, Nat.one_mul, Nat.one_mul] at h
  exact h

/-- a case: an application that looks for the next picture start code -/
example (bits : List Bool) (n : Nat) (frames : List Frame) (t : VS)
    (h : watch 20 20 (alignTo 0x100) n (VS.new ⟨bits, 0, .eof, []⟩) = (.ok frames, t)) : 168 * frames.length + t.br.size ≤ bits.length :=
  C136_watch _ 20 20 n (mv_alignTo _) h

end Mpeg.Video
