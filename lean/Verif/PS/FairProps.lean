/-
Property theorem C109: the program stream decoder under fair schedules, and what a packet left unread does.
-/
import Verif.PS.DecoderProps
set_option linter.all false
namespace Mpeg.PS
open Spec

namespace Spec

/-- An infinite run: at every moment one of the goroutines makes a step (its sends together with the consumer's
receives), or nothing happens. -/
structure Schedule (b0 : BR) (σ : Nat → DSt) : Prop where
  init : σ 0 = DSt.new b0
  step : ∀ n, Step (σ n) (σ (n + 1)) ∨ σ (n + 1) = σ n

/-- Nobody waits forever while something can happen: the scheduler is fair and the consumer receives whatever is
offered. -/
def Fair (σ : Nat → DSt) : Prop :=
  ∀ n, (∃ s', Step (σ n) s') → ∃ m, n ≤ m ∧ Step (σ m) (σ (m + 1))

/-- The packets of pack `k` that the consumer has received, in order. -/
def packetsOf (k : Nat) (log : List Ev) : List PES.Packet :=
  log.filterMap fun
    | .packet j p => if j = k then some p else none
    | _ => none

end Spec

/-! ### sequential reading is a function -/

theorem loopEnd_det {b b1 b2 : BR} (h1 : LoopEnd b b1) (h2 : LoopEnd b b2) : b1 = b2 := by
  cases h1 <;> cases h2 <;> simp_all

theorem loop_det : ∀ (n : Nat) {b b1 b2 : BR} {qs rs : List PES.Packet}, qs.length = n → rs.length = n →
    Loop b qs b1 → Loop b rs b2 → qs = rs ∧ b1 = b2
  | 0, b, b1, b2, qs, rs, hq, hr, h1, h2 => by
    cases h1 with
    | nil =>
      cases h2 with
      | nil => exact ⟨rfl, rfl⟩
      | snoc => simp at hr
    | snoc => simp at hq
  | n + 1, b, b1, b2, qs, rs, hq, hr, h1, h2 => by
    cases h1 with
    | nil => simp at hq
    | snoc a1 a2 a3 a4 a5 =>
      cases h2 with
      | nil => simp at hr
      | snoc c1 c2 c3 c4 c5 =>
        obtain ⟨rfl, rfl⟩ := loop_det n (by simpa using hq) (by simpa using hr) a1 c1
        rw [a5] at c5
        cases c5
        exact ⟨rfl, rfl⟩

/-- behind fewer packets than there are, the loop goes on -/
theorem loop_more {b b1 : BR} {L : List PES.Packet} (h : Loop b L b1) : ∀ n, n < L.length →
    ∃ b' v q b'', Loop b (L.take n) b' ∧ BR.peek 24 b' = (.ok 1, b') ∧ BR.peek 32 b' = (.ok v, b') ∧
      ¬ (v = packStartCode ∨ v = programEndCode) ∧ newPacket b' = (.ok q, b'') := by
  induction h with
  | nil => intro n hn; simp at hn
  | @snoc b1 b2 qs v q hl h24 h32 hv hq ih =>
    intro n hn
    rw [List.length_append, List.length_singleton] at hn
    by_cases h : n < qs.length
    · obtain ⟨b', v, q', b'', e⟩ := ih n h
      rw [List.take_append_of_le_length (by omega)]
      exact ⟨b', v, q', b'', e⟩
    · have : n = qs.length := by omega
      subst this
      rw [List.take_left]
      exact ⟨b1, v, q, b2, hl, h24, h32, hv, hq⟩

theorem loopEnd_stop {b b' b'' : BR} {v : Nat} {q : PES.Packet} (h : LoopEnd b b')
    (h24 : BR.peek 24 b = (.ok 1, b)) (h32 : BR.peek 32 b = (.ok v, b))
    (hv : ¬ (v = packStartCode ∨ v = programEndCode)) (hn : newPacket b = (.ok q, b'')) : False := by
  cases h <;> simp_all

/-- a loop that has ended has read every packet that can be read -/
theorem loop_complete {b b1 b3 b4 : BR} {L qs : List PES.Packet} (hL : Loop b L b1) (hq : Loop b qs b3)
    (he : LoopEnd b3 b4) : L.length ≤ qs.length := by
  by_cases h : L.length ≤ qs.length
  · exact h
  · exfalso
    obtain ⟨b', v, q, b'', a1, a2, a3, a4, a5⟩ := loop_more hL qs.length (by omega)
    obtain ⟨-, rfl⟩ := loop_det qs.length (by rw [List.length_take]; omega) rfl a1 hq
    exact loopEnd_stop he a2 a3 a4 a5

theorem loop_end_det {b b3 b4 c3 c4 : BR} {qs rs : List PES.Packet} (h1 : Loop b qs b3) (e1 : LoopEnd b3 b4)
    (h2 : Loop b rs c3) (e2 : LoopEnd c3 c4) : qs = rs ∧ b4 = c4 := by
  have l1 := loop_complete h1 h2 e2
  have l2 := loop_complete h2 h1 e1
  obtain ⟨rfl, rfl⟩ := loop_det qs.length rfl (by omega) h1 h2
  exact ⟨rfl, loopEnd_det e1 e2⟩

theorem hist_det {b0 : BR} : ∀ (n : Nat) {b1 b2 : BR} {l m : List (PackHeader × List PES.Packet)},
    l.length = n → m.length = n → Hist b0 l b1 → Hist b0 m b2 → l = m ∧ b1 = b2
  | 0, b1, b2, l, m, hl, hm, h1, h2 => by
    cases h1 with
    | nil =>
      cases h2 with
      | nil => exact ⟨rfl, rfl⟩
      | snoc => simp at hm
    | snoc => simp at hl
  | n + 1, b1, b2, l, m, hl, hm, h1, h2 => by
    cases h1 with
    | nil => simp at hl
    | snoc a1 a2 a3 a4 a5 =>
      cases h2 with
      | nil => simp at hm
      | snoc c1 c2 c3 c4 c5 =>
        obtain ⟨rfl, rfl⟩ := hist_det n (by simpa using hl) (by simpa using hm) a1 c1
        rw [a3] at c3
        cases c3
        obtain ⟨rfl, rfl⟩ := loop_end_det a4 a5 c4 c5
        exact ⟨rfl, rfl⟩

/-- behind fewer packs than have been read there is another one -/
theorem hist_more {b0 b : BR} {L : List (PackHeader × List PES.Packet)} (h : Hist b0 L b) : ∀ n, n < L.length →
    ∃ b1 hd b2 qs b3 b4, Hist b0 (L.take n) b1 ∧ Cont (L.take n) b1 ∧ newPackHeader b1 = (.ok hd, b2) ∧
      Loop b2 qs b3 ∧ LoopEnd b3 b4 ∧ L[n]? = some (hd, qs) := by
  induction h with
  | nil => intro n hn; simp at hn
  | @snoc l b1 b2 b3 b4 hd qs hh hc hp hl he ih =>
    intro n hn
    rw [List.length_append, List.length_singleton] at hn
    by_cases h : n < l.length
    · obtain ⟨c1, g, c2, rs, c3, c4, e1, e2, e3, e4, e5, e6⟩ := ih n h
      refine ⟨c1, g, c2, rs, c3, c4, ?_⟩
      rw [List.take_append_of_le_length (by omega), List.getElem?_append_left h]
      exact ⟨e1, e2, e3, e4, e5, e6⟩
    · have : n = l.length := by omega
      subst this
      refine ⟨b1, hd, b2, qs, b3, b4, ?_⟩
      rw [List.take_left]
      exact ⟨hh, hc, hp, hl, he, by simp⟩

theorem fin_stop {l : List (PackHeader × List PES.Packet)} {b b' : BR} {h : PackHeader} {e : Option Err}
    (hf : Fin l b e) (hc : Cont l b) (hh : newPackHeader b = (.ok h, b')) : False := by
  cases hf with
  | header _ h1 => rw [hh] at h1; cases h1
  | peek hl h1 => rw [hc hl] at h1; cases h1
  | other hl h1 hp => rw [hc hl] at h1; cases h1; exact hp rfl
  | ok hl h1 => rw [hc hl] at h1; cases h1

/-! ### the events of the packs -/

theorem packetsOf_append (k : Nat) (a b : List Ev) : packetsOf k (a ++ b) = packetsOf k a ++ packetsOf k b := by
  simp [packetsOf, List.filterMap_append]

theorem packetsOf_map (k j : Nat) (qs : List PES.Packet) :
    packetsOf k (qs.map (Ev.packet j)) = if j = k then qs else [] := by
  induction qs with
  | nil => simp [packetsOf]
  | cons q qs ih =>
    rw [List.map_cons, show Ev.packet j q :: qs.map (Ev.packet j) = [Ev.packet j q] ++ qs.map (Ev.packet j) from rfl,
      packetsOf_append, ih]
    by_cases h : j = k <;> simp [packetsOf, h]

theorem packetsOf_pack {k : Nat} {h : PackHeader} {qs : List PES.Packet} {o : List Ev} (hp : PackEvs k h qs o)
    (j : Nat) : packetsOf j o = if k = j then qs else [] := by
  cases hp with
  | full =>
    rw [show Ev.pack k h :: (qs.map (Ev.packet k) ++ [Ev.closed k]) =
      [Ev.pack k h] ++ (qs.map (Ev.packet k) ++ [Ev.closed k]) from rfl, packetsOf_append, packetsOf_append,
      packetsOf_map]
    simp [packetsOf]
  | empty => simp [packetsOf]

theorem packetsOf_packs {l : List (PackHeader × List PES.Packet)} {evs : List Ev} (hp : PacksEvs l evs)
    {n : Nat} {h : PackHeader} {qs : List PES.Packet} (hn : l[n]? = some (h, qs)) : packetsOf n evs = qs := by
  induction hp with
  | nil => simp at hn
  | @snoc l evs e g rs h1 h2 ih =>
    rw [packetsOf_append, packetsOf_pack h2]
    have hlt := (List.getElem?_eq_some_iff.mp hn).1
    rw [List.length_append, List.length_singleton] at hlt
    by_cases hl : n < l.length
    · rw [List.getElem?_append_left hl] at hn
      rw [ih hn, if_neg (by omega), List.append_nil]
    · have : n = l.length := by omega
      subst this
      simp at hn
      have none : ∀ {l : List (PackHeader × List PES.Packet)} {evs : List Ev}, PacksEvs l evs → ∀ j, l.length ≤ j →
          packetsOf j evs = [] := by
        intro l evs h
        induction h with
        | nil => intros; rfl
        | @snoc l evs e g rs h1 h2 ih =>
          intro j hj
          rw [List.length_append, List.length_singleton] at hj
          rw [packetsOf_append, packetsOf_pack h2, ih j (by omega), if_neg (by omega)]
          rfl
      rw [none h1 _ (Nat.le_refl _), if_pos rfl, hn.2]
      rfl

/-- every event of complete packs belongs to one of them -/
theorem packs_events {l : List (PackHeader × List PES.Packet)} {evs : List Ev} (hp : PacksEvs l evs) :
    ∀ ev ∈ evs, (∃ j g, j < l.length ∧ ev = .pack j g) ∨ (∃ j p, j < l.length ∧ ev = .packet j p) ∨
      (∃ j, j < l.length ∧ ev = .closed j) := by
  induction hp with
  | nil => intro ev h; simp at h
  | @snoc l evs e g rs h1 h2 ih =>
    intro ev hev
    rw [List.length_append, List.length_singleton]
    rcases List.mem_append.mp hev with hev | hev
    · rcases ih ev hev with ⟨j, g, hj, rfl⟩ | ⟨j, p, hj, rfl⟩ | ⟨j, hj, rfl⟩
      · exact .inl ⟨j, g, by omega, rfl⟩
      · exact .inr (.inl ⟨j, p, by omega, rfl⟩)
      · exact .inr (.inr ⟨j, by omega, rfl⟩)
    · cases h2 with
      | full =>
        simp only [List.mem_cons, List.mem_append, List.mem_map, List.not_mem_nil, or_false] at hev
        rcases hev with rfl | ⟨p, -, rfl⟩ | rfl
        · exact .inl ⟨_, _, by omega, rfl⟩
        · exact .inr (.inl ⟨_, _, by omega, rfl⟩)
        · exact .inr (.inr ⟨_, by omega, rfl⟩)
      | empty =>
        simp only [List.mem_cons, List.not_mem_nil, or_false] at hev
        rcases hev with rfl | rfl
        · exact .inr (.inr ⟨_, by omega, rfl⟩)
        · exact .inl ⟨_, _, by omega, rfl⟩

theorem loop_init {b b1 : BR} {qs : List PES.Packet} {q : PES.Packet} (h : Loop b (qs ++ [q]) b1) :
    ∃ b', Loop b qs b' := by
  obtain ⟨b', _, _, _, h1, _⟩ := loop_more h qs.length (by simp)
  rw [List.take_left] at h1
  exact ⟨b', h1⟩

theorem pinv_loop {b2 br : BR} {qs : List PES.Packet} {p : PPC} (h : PInv b2 qs br p) : ∃ b3, Loop b2 qs b3 := by
  cases p with
  | none => exact h.elim
  | peek24 => exact ⟨_, h⟩
  | peek32 => exact ⟨_, h.1⟩
  | next => exact ⟨_, h.1⟩
  | send q => exact loop_init h
  | close => exact ⟨_, h.choose_spec.1⟩
  | complete => exact ⟨_, h.choose_spec.1⟩

/-- where a run can be: between packs, at the end, or within a pack -/
def Where (b0 : BR) (d : DPC) (log : List Ev) : Prop :=
  ∃ l b evs, Hist b0 l b ∧ PacksEvs l evs ∧
    ((log = evs ∧ d ≠ .finished) ∨ (∃ e v, log = evs ++ v ∧ Fin l b e) ∨
     (d ≠ .finished ∧ ∃ h b2 qs b3, newPackHeader b = (.ok h, b2) ∧ Loop b2 qs b3 ∧
        (log = evs ++ (Ev.pack l.length h :: qs.map (Ev.packet l.length)) ∨
         (log = evs ++ [Ev.closed l.length] ∧ qs = [] ∧ ∃ b4, LoopEnd b3 b4))))

theorem inv_where {b0 : BR} {s : DSt} (hi : Inv b0 s) : Where b0 s.d s.log := by
  cases hd : s.d with
  | readPack =>
    simp only [Inv, hd] at hi
    obtain ⟨l, ⟨a1, -, -⟩, a4, -⟩ := hi
    exact ⟨l, _, _, a1, a4, .inl ⟨rfl, by simp⟩⟩
  | send h =>
    simp only [Inv, hd] at hi
    obtain ⟨l, evs, b2, ⟨b1, a1, a2, a3, a4, a5, a6, a7⟩, a8⟩ := hi
    by_cases hp : s.p = .complete
    · rw [hp] at a7
      obtain ⟨b3, c1, c2⟩ := a7
      rw [if_pos hp] at a8
      exact ⟨l, b1, evs, a1, a6, .inr (.inr ⟨by simp, h, b2, [], b3, a3, c1, .inr ⟨a8, rfl, _, c2⟩⟩)⟩
    · rw [if_neg hp, List.append_nil] at a8
      exact ⟨l, b1, evs, a1, a6, .inl ⟨a8, by simp⟩⟩
  | wait =>
    simp only [Inv, hd] at hi
    obtain ⟨h, l, evs, b2, qs, ⟨b1, a1, a2, a3, a4, a5, a6, a7⟩, a8, a9⟩ := hi
    by_cases hp : s.p = .complete
    · obtain ⟨o, ho, hl⟩ := a9 hp
      rw [hp] at a7
      obtain ⟨b3, c1, c2⟩ := a7
      exact ⟨_, _, evs ++ o, .snoc a1 a2 a3 c1 c2, .snoc a6 ho, .inl ⟨hl, by simp⟩⟩
    · obtain ⟨b3, c1⟩ := pinv_loop a7
      exact ⟨l, b1, evs, a1, a6, .inr (.inr ⟨by simp, h, b2, qs, b3, a3, c1, .inl (a8 hp)⟩)⟩
  | peekNext =>
    simp only [Inv, hd] at hi
    obtain ⟨l, ⟨a1, -, -⟩, a4, -⟩ := hi
    exact ⟨l, _, _, a1, a4, .inl ⟨rfl, by simp⟩⟩
  | peekEnd =>
    simp only [Inv, hd] at hi
    obtain ⟨l, ⟨a1, -, -⟩, a4, -⟩ := hi
    exact ⟨l, _, _, a1, a4, .inl ⟨rfl, by simp⟩⟩
  | closePacks =>
    simp only [Inv, hd] at hi
    obtain ⟨l, b, ⟨a1, -, -⟩, a4, a5⟩ := hi
    exact ⟨l, b, s.log, a1, a4, .inr (.inl ⟨_, [], by simp, a5⟩)⟩
  | sendDone =>
    simp only [Inv, hd] at hi
    obtain ⟨l, b, evs, ⟨a1, -, -⟩, a4, a5, a6⟩ := hi
    exact ⟨l, b, evs, a1, a4, .inr (.inl ⟨_, _, a6, a5⟩)⟩
  | closeDone =>
    simp only [Inv, hd] at hi
    obtain ⟨l, b, evs, ⟨a1, -, -⟩, a4, a5, a6⟩ := hi
    exact ⟨l, b, evs, a1, a4, .inr (.inl ⟨_, _, a6, a5⟩)⟩
  | finished =>
    simp only [Inv, hd] at hi
    obtain ⟨l, b, evs, ⟨a1, -, -⟩, a4, a5, a6⟩ := hi
    exact ⟨l, b, evs, a1, a4, .inr (.inl ⟨_, _, a6, a5⟩)⟩

theorem reach_where {b0 : BR} {s : DSt} (hr : Reach b0 s) : Where b0 s.d s.log := by
  cases hc : s.crashed with
  | false =>
    rcases reach_inv hr with ⟨_, hi⟩ | ⟨h, _⟩
    · exact inv_where hi
    · rw [hc] at h; cases h
  | true =>
    cases hr with
    | init => cases hc
    | @step u _ hu hs =>
      cases hs with
      | d h0 hs => rw [d_crashed hs, h0] at hc; cases hc
      | p h0 hs =>
        have hi : Inv b0 u := by
          rcases reach_inv hu with ⟨_, hi⟩ | ⟨h, _⟩
          · exact hi
          · rw [h0] at h; cases h
        have hw := inv_where hi
        cases hs <;> first | (simp [h0] at hc; done) | exact hw

/-- **C109.** The decoder runs in lockstep with the consumer of the packets.  Let `l` be the packs before a pack
of the stream that has at least `qs.length + 1` packets (`Hist`, `Loop`: sequential reading, as in C32).  As long
as the consumer has received at most `qs.length` packets of that pack, it has received no later pack and no
packet of a later pack, neither the channel of this pack nor `Packs()` is closed, nothing has come from the done
channel, and the decoder has not finished. -/
theorem C109_lockstep {b0 b b2 b3 : BR} {l : List (PackHeader × List PES.Packet)} {h : PackHeader}
    {qs : List PES.Packet} {q : PES.Packet} (hist : Hist b0 l b) (hc : Cont l b)
    (hh : newPackHeader b = (.ok h, b2)) (hl : Loop b2 (qs ++ [q]) b3) {s : DSt} (hr : Reach b0 s)
    (hn : (packetsOf l.length s.log).length ≤ qs.length) :
    (∀ ev ∈ s.log, (∃ j g, j ≤ l.length ∧ ev = .pack j g) ∨ (∃ j p, j ≤ l.length ∧ ev = .packet j p) ∨
      (∃ j, j < l.length ∧ ev = .closed j)) ∧ s.d ≠ .finished := by
  obtain ⟨l', c1, evs, hist', hev, hlog⟩ := reach_where hr
  -- the run has not completed more than the packs before this one
  have hle : l'.length ≤ l.length := by
    by_cases hle : l'.length ≤ l.length
    · exact hle
    exfalso
    obtain ⟨d1, g, d2, rs, d3, d4, e1, e2, e3, e4, e5, e6⟩ := hist_more hist' l.length (by omega)
    obtain ⟨-, rfl⟩ := hist_det l.length (by rw [List.length_take]; omega) rfl e1 hist
    rw [hh] at e3
    cases e3
    have hlen := loop_complete hl e4 e5
    rw [List.length_append, List.length_singleton] at hlen
    have hp := packetsOf_packs hev e6
    have : (packetsOf l.length evs).length ≤ (packetsOf l.length s.log).length := by
      rcases hlog with ⟨hlog, -⟩ | ⟨e, v, hlog, -⟩ | ⟨-, g, d2, ts, d3, -, -, hlog | ⟨hlog, -⟩⟩ <;> rw [hlog]
      all_goals first | exact Nat.le_refl _ | (rw [packetsOf_append, List.length_append]; omega)
    rw [hp] at this
    omega
  -- and reading goes on behind them
  have hgo : Cont l' c1 ∧ ∃ g d2, newPackHeader c1 = (.ok g, d2) ∧
      (l'.length = l.length → d2 = b2) := by
    rcases Nat.lt_or_ge l'.length l.length with hlt | hge
    · obtain ⟨d1, g, d2, rs, d3, d4, e1, e2, e3, e4, e5, e6⟩ := hist_more hist l'.length hlt
      obtain ⟨e, rfl⟩ := hist_det l'.length (by rw [List.length_take]; omega) rfl e1 hist'
      rw [e] at e2
      exact ⟨e2, g, d2, e3, fun h => by omega⟩
    · obtain ⟨rfl, rfl⟩ := hist_det l.length (by omega) rfl hist' hist
      exact ⟨hc, h, b2, hh, fun _ => rfl⟩
  obtain ⟨hc', g, d2, hg, hd2⟩ := hgo
  have hevs : ∀ ev ∈ evs, (∃ j g, j ≤ l.length ∧ ev = .pack j g) ∨ (∃ j p, j ≤ l.length ∧ ev = .packet j p) ∨
      (∃ j, j < l.length ∧ ev = .closed j) := by
    intro ev h
    rcases packs_events hev ev h with ⟨j, g, hj, rfl⟩ | ⟨j, p, hj, rfl⟩ | ⟨j, hj, rfl⟩
    · exact .inl ⟨j, g, by omega, rfl⟩
    · exact .inr (.inl ⟨j, p, by omega, rfl⟩)
    · exact .inr (.inr ⟨j, by omega, rfl⟩)
  rcases hlog with ⟨hlog, hf⟩ | ⟨e, v, -, hfin⟩ | ⟨hf, g', d2', ts, d3, hg', hts, hlog⟩
  · rw [hlog]; exact ⟨hevs, hf⟩
  · exact (fin_stop hfin hc' hg).elim
  · refine ⟨?_, hf⟩
    rw [hg] at hg'
    cases hg'
    rcases hlog with hlog | ⟨hlog, rfl, b4, hend⟩
    · rw [hlog]
      intro ev hm
      simp only [List.mem_append, List.mem_cons, List.mem_map] at hm
      rcases hm with hm | rfl | ⟨p, -, rfl⟩
      · exact hevs ev hm
      · exact .inl ⟨_, _, hle, rfl⟩
      · exact .inr (.inl ⟨_, _, hle, rfl⟩)
    · rw [hlog]
      intro ev hm
      simp only [List.mem_append, List.mem_cons, List.not_mem_nil, or_false] at hm
      rcases hm with hm | rfl
      · exact hevs ev hm
      · rcases Nat.lt_or_ge l'.length l.length with hlt | hge
        · exact .inr (.inr ⟨_, hlt, rfl⟩)
        · exfalso
          have := hd2 (by omega)
          subst this
          have := loop_complete hl hts hend
          simp at this

/-- **C109 (the full claim is false).** A consumer that receives packs but no packets gets no second pack, if the
first pack has a packet: `Packs()` yields at most the first pack, is not closed, and the done channel never yields
a value. -/
theorem C109_packs_only {b0 b2 b3 : BR} {h : PackHeader} {q : PES.Packet} (hh : newPackHeader b0 = (.ok h, b2))
    (hl : Loop b2 [q] b3) {s : DSt} (hr : Reach b0 s) (hn : ∀ j p, Ev.packet j p ∉ s.log) :
    (∀ ev ∈ s.log, ∃ g, ev = .pack 0 g) ∧ s.d ≠ .finished := by
  have h0 : packetsOf ([] : List (PackHeader × List PES.Packet)).length s.log = [] := by
    unfold packetsOf
    rw [List.filterMap_eq_nil_iff]
    intro ev hev
    cases ev <;> simp
    rename_i j p
    exact absurd hev (hn j p)
  have := C109_lockstep (qs := []) .nil (fun h => absurd rfl h) hh hl hr (by rw [h0]; exact Nat.le_refl _)
  refine ⟨fun ev hev => ?_, this.2⟩
  rcases this.1 ev hev with ⟨j, g, hj, rfl⟩ | ⟨j, p, hj, rfl⟩ | ⟨j, hj, rfl⟩
  · simp at hj; subst hj; exact ⟨g, rfl⟩
  · exact absurd hev (hn j p)
  · simp at hj

/-- The same for well-formed programs: if the first pack contains a packet, a consumer that receives no packets
never gets the second pack. -/
theorem C109_program (p : Pack) (ps : List Pack) (hw : ∀ r ∈ p :: ps, r.WF) (hne : p.items ≠ [])
    (tail : List Bool) (stop : Err) (later : List (List Bool × Err)) {s : DSt}
    (hr : Reach ⟨encProgram (p :: ps) ++ tail, 0, stop, later⟩ s) (hn : ∀ j q, Ev.packet j q ∉ s.log) :
    (∀ ev ∈ s.log, ∃ g, ev = .pack 0 g) ∧ s.d ≠ .finished := by
  have hb0 : (⟨encProgram (p :: ps) ++ tail, 0, stop, later⟩ : BR) = ⟨progBits [] (p :: ps) tail, 0, stop, later⟩ := by
    simp [progBits, encProgram]
  rw [hb0] at hr
  have hp := hw p (List.mem_cons_self ..)
  have hh := prog_header (tail := tail) (pos := 0) (stop := stop) (later := later) p ps hp
  cases hi : p.items with
  | nil => exact absurd hi hne
  | cons i is =>
    have hwi : ∀ j ∈ i :: is, j.WF := by rw [← hi]; exact hp.2
    rw [hi] at hh
    obtain ⟨q, n, -, -, hq⟩ := newPacket_item_id (pos := 0 + (encPHdr p.hdr).length) (stop := stop)
      (later := later) i (hwi i (List.mem_cons_self ..)) (r := progBits is ps tail)
    rw [← progBits_cons_item] at hq
    exact C109_packs_only hh (.snoc (qs := []) (.nil _) (prog_peek24 (i :: is) ps hwi)
      (prog_peek32 (i :: is) ps hwi) (headCode_item i is ps (hwi i (List.mem_cons_self ..))) hq) hr hn

/-- Such a program. -/
example : ∃ p ps, (∀ r ∈ p :: ps, r.WF) ∧ p.items ≠ [] ∧ exPacks = p :: ps :=
  ⟨exPacks.head (by decide +kernel), exPacks.tail, by simpa using exPacks_ok.1, by decide +kernel, by simp⟩

/-! ### liveness -/

theorem schedule_reach {b0 : BR} {σ : Nat → DSt} (h : Schedule b0 σ) : ∀ n, Reach b0 (σ n)
  | 0 => h.init ▸ .init
  | n + 1 => by
    rcases h.step n with hs | hs
    · exact .step (schedule_reach h n) hs
    · rw [hs]; exact schedule_reach h n

theorem weight_step {b0 : BR} {s s' : DSt} (hr : Reach b0 s) (hs : Step s s') : weight s' < weight s := by
  rcases reach_inv hr with ⟨_, hi⟩ | ⟨hc, _⟩
  · exact weight_dec hi hs
  · cases hs with
    | d h _ => rw [hc] at h; cases h
    | p h _ => rw [hc] at h; cases h

theorem weight_le {b0 : BR} {σ : Nat → DSt} (h : Schedule b0 σ) (n k : Nat) : weight (σ (n + k)) ≤ weight (σ n) := by
  induction k with
  | zero => exact Nat.le_refl _
  | succ k ih =>
    rcases h.step (n + k) with hs | hs
    · exact Nat.le_trans (Nat.le_of_lt (weight_step (schedule_reach h _) hs)) ih
    · show weight (σ (n + k + 1)) ≤ _
      rw [hs]; exact ih

/-- **C109.** Liveness, for every source: if the scheduler is fair and the consumer receives whatever is offered,
then after finite time the decoder has finished, or a goroutine has panicked. -/
theorem C109_live (b0 : BR) {σ : Nat → DSt} (hσ : Schedule b0 σ) (hf : Fair σ) :
    ∃ n, (σ n).d = .finished ∨ (σ n).crashed = true := by
  have key : ∀ w n, weight (σ n) ≤ w → ∃ n, (σ n).d = .finished ∨ (σ n).crashed = true := by
    intro w
    induction w with
    | zero =>
      intro n hn
      by_cases h1 : (σ n).d = .finished
      · exact ⟨n, .inl h1⟩
      by_cases h2 : (σ n).crashed = true
      · exact ⟨n, .inr h2⟩
      obtain ⟨s', hs'⟩ := C32_progress b0 _ (schedule_reach hσ n) (by simpa using h2) h1
      have := weight_step (schedule_reach hσ n) hs'
      omega
    | succ w ih =>
      intro n hn
      by_cases h1 : (σ n).d = .finished
      · exact ⟨n, .inl h1⟩
      by_cases h2 : (σ n).crashed = true
      · exact ⟨n, .inr h2⟩
      obtain ⟨m, hm, hst⟩ := hf n (C32_progress b0 _ (schedule_reach hσ n) (by simpa using h2) h1)
      obtain ⟨k, rfl⟩ := Nat.exists_eq_add_of_le hm
      have h3 := weight_step (schedule_reach hσ _) hst
      have h4 := weight_le hσ n k
      exact ih (n + k + 1) (by omega)
  exact key _ 0 (Nat.le_refl _)

/-- For well-formed programs: it has finished, and delivered all packs with all their packets. -/
theorem C109_live_program (ps : List Pack) (hne : ps ≠ []) (hw : ∀ p ∈ ps, p.WF) (tail : List Bool) (stop : Err)
    (later : List (List Bool × Err)) {σ : Nat → DSt} (hσ : Schedule ⟨encProgram ps ++ tail, 0, stop, later⟩ σ)
    (hf : Fair σ) :
    ∃ n, (σ n).d = .finished ∧ (σ n).err = none ∧
      ∃ l evs, ShowsAll l ps ∧ PacksEvs l evs ∧ (σ n).log = evs ++ endEvs true := by
  obtain ⟨n, hn⟩ := C109_live _ hσ hf
  obtain ⟨h1, h2⟩ := C32_stream ps hne hw tail stop later _ (schedule_reach hσ n)
  rcases hn with hn | hn
  · exact ⟨n, hn, h2 hn⟩
  · rw [h1] at hn; cases hn

open Classical in
/-- the schedule that always makes a step if there is one -/
noncomputable def eager (b0 : BR) : Nat → DSt
  | 0 => DSt.new b0
  | n + 1 => if h : ∃ s', Step (eager b0 n) s' then h.choose else eager b0 n

/-- Fair schedules exist for every source. -/
theorem C109_fair_exists (b0 : BR) : ∃ σ, Schedule b0 σ ∧ Fair σ := by
  refine ⟨eager b0, ⟨rfl, fun n => ?_⟩, fun n hex => ⟨n, Nat.le_refl _, ?_⟩⟩
  · rw [eager]
    split
    · rename_i h; exact .inl h.choose_spec
    · exact .inr rfl
  · rw [eager, dif_pos hex]
    exact hex.choose_spec

end Mpeg.PS
