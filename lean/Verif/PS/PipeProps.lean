/-
Property theorem C110: the payloads of a program stream through the decoder and `PayloadOnly`.
-/
import Verif.PS.PipeModel
import Verif.PS.FairProps
set_option linter.all false
namespace Mpeg.PS
open Spec

namespace Spec

/-- All packets received by anybody, in order. -/
def allPackets (log : List Ev) : List PES.Packet :=
  log.filterMap fun
    | .packet _ p => some p
    | _ => none

end Spec

theorem allPackets_append (a b : List Ev) : allPackets (a ++ b) = allPackets a ++ allPackets b := by
  simp [allPackets, List.filterMap_append]

theorem allPackets_map (k : Nat) (qs : List PES.Packet) : allPackets (qs.map (Ev.packet k)) = qs := by
  induction qs with
  | nil => rfl
  | cons q qs ih => simp only [allPackets, List.map_cons, List.filterMap_cons] at ih ⊢; rw [ih]

theorem allPackets_pack {k : Nat} {h : PackHeader} {qs : List PES.Packet} {o : List Ev} (hp : PackEvs k h qs o) :
    allPackets o = qs := by
  cases hp with
  | full =>
    rw [show Ev.pack k h :: (qs.map (Ev.packet k) ++ [Ev.closed k]) =
      [Ev.pack k h] ++ (qs.map (Ev.packet k) ++ [Ev.closed k]) from rfl, allPackets_append, allPackets_append,
      allPackets_map]
    simp [allPackets]
  | empty => simp [allPackets]

theorem allPackets_packs {l : List (PackHeader × List PES.Packet)} {evs : List Ev} (hp : PacksEvs l evs) :
    allPackets evs = l.flatMap Prod.snd := by
  induction hp with
  | nil => rfl
  | snoc h1 h2 ih => rw [allPackets_append, ih, allPackets_pack h2]; simp

/-! ### facts about the decoder's log -/

/-- complete packs are closed -/
theorem packs_closed {l : List (PackHeader × List PES.Packet)} {evs : List Ev} (hp : PacksEvs l evs) :
    ∀ j, j < l.length → Ev.closed j ∈ evs := by
  induction hp with
  | nil => intro j hj; simp at hj
  | @snoc l evs e g rs h1 h2 ih =>
    intro j hj
    rw [List.length_append, List.length_singleton] at hj
    rw [List.mem_append]
    by_cases h : j < l.length
    · exact .inl (ih j h)
    · have : j = l.length := by omega
      subst this
      right
      cases h2 <;> simp

theorem packs_pack_closed {l : List (PackHeader × List PES.Packet)} {evs : List Ev} (hp : PacksEvs l evs)
    {j : Nat} {g : PackHeader} (h : Ev.pack j g ∈ evs) : Ev.closed j ∈ evs :=
  packs_closed hp j (packsEvs_index hp h)

/-- while the decoder offers a pack, every pack received so far is closed -/
theorem send_closed {b0 : BR} {s : DSt} (hi : Inv b0 s) {h : PackHeader} (hd : s.d = .send h) {j : Nat}
    {g : PackHeader} (hj : Ev.pack j g ∈ s.log) : Ev.closed j ∈ s.log := by
  simp only [Inv, hd] at hi
  obtain ⟨l, evs, b2, ⟨b1, a1, a2, a3, a4, a5, a6, a7⟩, a8⟩ := hi
  rw [a8, List.mem_append] at hj ⊢
  rcases hj with hj | hj
  · exact .inl (packs_pack_closed a6 hj)
  · split at hj <;> simp at hj

/-- while a pack goroutine holds a packet, its channel is open -/
theorem holding_open {b0 : BR} {s : DSt} (hi : Inv b0 s) {q : PES.Packet} (hp : s.p = .send q) :
    Ev.closed (s.packs - 1) ∉ s.log := by
  have no : ∀ {l : List (PackHeader × List PES.Packet)} {evs : List Ev}, PacksEvs l evs → Ev.closed l.length ∉ evs := by
    intro l evs h hm
    rcases packs_events h _ hm with ⟨j, g, hj, e⟩ | ⟨j, p, hj, e⟩ | ⟨j, hj, e⟩
    · cases e
    · cases e
    · cases e; omega
  rcases busy_of_p hi (by simp [hp]) with ⟨h, hd⟩ | hd
  · simp only [Inv, hd] at hi
    obtain ⟨l, evs, b2, ⟨b1, a1, a2, a3, a4, a5, a6, a7⟩, a8⟩ := hi
    rw [a8, a4, if_neg (by simp [hp]), List.append_nil, Nat.add_sub_cancel]
    exact no a6
  · simp only [Inv, hd] at hi
    obtain ⟨h, l, evs, b2, qs, ⟨b1, a1, a2, a3, a4, a5, a6, a7⟩, a8, a9⟩ := hi
    rw [a8 (by simp [hp]), a4, Nat.add_sub_cancel]
    intro hm
    simp only [List.mem_append, List.mem_cons, List.mem_map] at hm
    rcases hm with hm | hm | ⟨p, -, hm⟩
    · exact no a6 hm
    · cases hm
    · cases hm

/-- the events at the end come after all packs -/
theorem ended {b0 : BR} {s : DSt} (hi : Inv b0 s) (h : Ev.packsClosed ∈ s.log) :
    s.d = .sendDone ∨ s.d = .closeDone ∨ s.d = .finished := by
  have no : ∀ {l : List (PackHeader × List PES.Packet)} {evs : List Ev}, PacksEvs l evs → Ev.packsClosed ∉ evs := by
    intro l evs h hm
    rcases packs_events h _ hm with ⟨j, g, hj, e⟩ | ⟨j, p, hj, e⟩ | ⟨j, hj, e⟩ <;> cases e
  cases hd : s.d with
  | readPack => simp only [Inv, hd] at hi; obtain ⟨l, _, a4, _⟩ := hi; exact (no a4 h).elim
  | send g =>
    simp only [Inv, hd] at hi
    obtain ⟨l, evs, b2, ⟨b1, a1, a2, a3, a4, a5, a6, a7⟩, a8⟩ := hi
    rw [a8, List.mem_append] at h
    rcases h with h | h
    · exact (no a6 h).elim
    · split at h <;> simp at h
  | wait =>
    simp only [Inv, hd] at hi
    obtain ⟨g, l, evs, b2, qs, ⟨b1, a1, a2, a3, a4, a5, a6, a7⟩, a8, a9⟩ := hi
    by_cases hp : s.p = .complete
    · obtain ⟨o, ho, hl⟩ := a9 hp
      rw [hl] at h
      exact (no (.snoc a6 ho) h).elim
    · rw [a8 hp] at h
      simp only [List.mem_append, List.mem_cons, List.mem_map] at h
      rcases h with h | h | ⟨p, -, h⟩
      · exact (no a6 h).elim
      · cases h
      · cases h
  | peekNext => simp only [Inv, hd] at hi; obtain ⟨l, _, a4, _⟩ := hi; exact (no a4 h).elim
  | peekEnd => simp only [Inv, hd] at hi; obtain ⟨l, _, a4, _⟩ := hi; exact (no a4 h).elim
  | closePacks => simp only [Inv, hd] at hi; obtain ⟨l, b, _, a4, _⟩ := hi; exact (no a4 h).elim
  | sendDone => exact .inl rfl
  | closeDone => exact .inr (.inl rfl)
  | finished => exact .inr (.inr rfl)

theorem sendDone_log {b0 : BR} {s : DSt} (hi : Inv b0 s) (hd : s.d = .sendDone) :
    Ev.packsClosed ∈ s.log ∧ ∀ j g, Ev.pack j g ∈ s.log → Ev.closed j ∈ s.log := by
  simp only [Inv, hd] at hi
  obtain ⟨l, b, evs, ⟨a1, -, -⟩, a4, a5, a6⟩ := hi
  rw [a6]
  refine ⟨by simp, fun j g hj => ?_⟩
  simp only [List.mem_append, List.mem_cons, List.not_mem_nil, or_false] at hj ⊢
  rcases hj with hj | hj
  · exact .inl (packs_pack_closed a4 hj)
  · cases hj

/-! ### the invariant of the pipeline -/

def pending : WPC → List (List UInt8)
  | .send x => [x]
  | _ => []

/-- a log only grows -/
theorem dstep_log {s s' : DSt} (h : DStep s s') : ∃ n, s'.log = s.log ++ n ∧
    (∀ j g, Ev.pack j g ∈ n → j = s.packs - 1 ∧ ∃ h, s.d = .send h) ∧ allPackets n = [] := by
  have triv : ∃ n, s.log = s.log ++ n ∧ (∀ j g, Ev.pack j g ∈ n → j = s.packs - 1 ∧ ∃ h, s.d = .send h) ∧
    allPackets n = [] := ⟨[], (List.append_nil _).symm, fun j g h => (by cases h), rfl⟩
  cases h with
  | announce hpc => exact ⟨_, rfl, fun j g h => (by simp at h; exact ⟨h.1, _, hpc⟩), rfl⟩
  | closePacks hpc => exact ⟨_, rfl, fun j g h => (by simp at h), rfl⟩
  | sendDone hpc => exact ⟨_, rfl, fun j g h => (by simp at h), rfl⟩
  | closeDone hpc => exact ⟨_, rfl, fun j g h => (by simp at h), rfl⟩
  | _ => exact triv

theorem pstep_log {s s' : DSt} (h : PStep s s') : ∃ n, s'.log = s.log ++ n ∧ (∀ j g, Ev.pack j g ∉ n) ∧
    ((∀ q, s.p ≠ .send q) → allPackets n = []) ∧ (∀ q, s.p = .send q → allPackets n = [q]) ∧ s'.d = s.d ∧
    s'.err = s.err := by
  have triv : (∀ q, s.p ≠ .send q) → ∃ n, s.log = s.log ++ n ∧ (∀ j g, Ev.pack j g ∉ n) ∧
    ((∀ q, s.p ≠ .send q) → allPackets n = []) ∧ (∀ q, s.p = .send q → allPackets n = [q]) ∧ s.d = s.d ∧
    s.err = s.err :=
    fun h => ⟨[], (List.append_nil _).symm, fun j g h => (by cases h), fun _ => rfl, fun q hq => absurd hq (h q), rfl, rfl⟩
  cases h with
  | @send q hpc ha =>
    refine ⟨_, rfl, fun j g h => (by simp at h), fun h => absurd hpc (h q), fun q' h => ?_, rfl, rfl⟩
    rw [hpc] at h; cases h; rfl
  | close hpc =>
    exact ⟨_, rfl, fun j g h => (by simp at h), fun h => rfl, fun q h => (by rw [hpc] at h; cases h), rfl, rfl⟩
  | peek_err hpc => exact triv (by simp [hpc])
  | no_prefix hpc => exact triv (by simp [hpc])
  | «prefix» hpc => exact triv (by simp [hpc])
  | code_err hpc => exact triv (by simp [hpc])
  | code_stop hpc => exact triv (by simp [hpc])
  | code_next hpc => exact triv (by simp [hpc])
  | packet_err hpc => exact triv (by simp [hpc])
  | packet_panic hpc => exact triv (by simp [hpc])
  | packet hpc => exact triv (by simp [hpc])

structure PipeInv (b0 : BR) (s : PipeSt) : Prop where
  reach : Reach b0 s.d
  out : s.out ++ pending s.w = (allPackets s.d.log).map PES.Packet.payload
  packs : s.m = .packs → s.w = .none ∧ (∀ j g, Ev.pack j g ∈ s.d.log → Ev.closed j ∈ s.d.log)
  payloads : ∀ k, s.m = .payloads k → s.w ≠ .none ∧ (∃ g, Ev.pack k g ∈ s.d.log) ∧
    (∀ j g, Ev.pack j g ∈ s.d.log → Ev.closed j ∈ s.d.log ∨ j = k) ∧ (s.w = .closed → Ev.closed k ∈ s.d.log)
  open_ : (∀ v, s.m ≠ .finished v) → s.d.d ≠ .closeDone ∧ s.d.d ≠ .finished
  ended : s.m = .waitDone → Ev.packsClosed ∈ s.d.log ∧ s.w = .none
  fin : ∀ v, s.m = .finished v → (s.d.d = .closeDone ∨ s.d.d = .finished) ∧ v = (s.d.err == Option.none) ∧ s.w = .none

theorem dstep_pc {s s' : DSt} (h : DStep s s') : (s'.d = .closeDone → s.d = .sendDone) ∧
    (s'.d = .finished → s.d = .closeDone) := by
  cases h <;> simp_all

theorem late_d {s s' : DSt} (h : DStep s s') (hd : s.d = .closeDone ∨ s.d = .finished) :
    s'.d = .finished ∧ s'.err = s.err := by
  cases h <;> simp_all

theorem pipe_inv {b0 : BR} {s : PipeSt} (h : PipeReach b0 s) : PipeInv b0 s := by
  induction h with
  | init =>
    refine ⟨.init, rfl, fun _ => ⟨rfl, fun j g h => (by cases h)⟩, fun k h => (by cases h), fun _ => ⟨by simp [PipeSt.new, DSt.new], by simp [PipeSt.new, DSt.new]⟩,
      fun h => (by cases h), fun v h => (by cases h)⟩
  | @step s s' hr hs ih =>
    obtain ⟨i1, i2, i3, i4, i5, i6, i7⟩ := ih
    cases hs with
    | @dec d' hc h h1 h2 =>
      obtain ⟨n, hl, hn, ha⟩ := dstep_log h
      have hp : ∀ j g, Ev.pack j g ∈ d'.log → Ev.pack j g ∈ s.d.log := by
        intro j g hj
        rw [hl, List.mem_append] at hj
        rcases hj with hj | hj
        · exact hj
        · obtain ⟨-, h', hh⟩ := hn j g hj
          exact absurd hh (h1 h')
      have hm : ∀ e, e ∈ s.d.log → e ∈ d'.log := fun e he => by rw [hl]; exact List.mem_append_left _ he
      refine ⟨.step i1 (.d hc h), ?_, ?_, ?_, ?_, ?_, ?_⟩
      · show s.out ++ pending s.w = _
        rw [i2, hl, allPackets_append, ha, List.append_nil]
      · intro h0
        exact ⟨(i3 h0).1, fun j g hj => hm _ ((i3 h0).2 j g (hp j g hj))⟩
      · intro k h0
        obtain ⟨a1, ⟨g, a2⟩, a3, a4⟩ := i4 k h0
        refine ⟨a1, ⟨g, hm _ a2⟩, fun j g hj => ?_, fun hw => hm _ (a4 hw)⟩
        rcases a3 j g (hp j g hj) with h | h
        · exact .inl (hm _ h)
        · exact .inr h
      · intro h0
        obtain ⟨a1, a2⟩ := i5 h0
        obtain ⟨p1, p2⟩ := dstep_pc h
        exact ⟨fun h => h2 (p1 h), fun h => a1 (p2 h)⟩
      · intro h0
        exact ⟨hm _ (i6 h0).1, (i6 h0).2⟩
      · intro v h0
        obtain ⟨a1, a2, a3⟩ := i7 v h0
        obtain ⟨b1, b2⟩ := late_d h a1
        exact ⟨.inr b1, by show v = (d'.err == none); rw [b2]; exact a2, a3⟩
    | @pck d' hc h h1 =>
      obtain ⟨n, hl, hn, ha, -, hd, he⟩ := pstep_log h
      have hp : ∀ j g, Ev.pack j g ∈ d'.log → Ev.pack j g ∈ s.d.log := by
        intro j g hj
        rw [hl, List.mem_append] at hj
        rcases hj with hj | hj
        · exact hj
        · exact absurd hj (hn j g)
      have hm : ∀ e, e ∈ s.d.log → e ∈ d'.log := fun e he => by rw [hl]; exact List.mem_append_left _ he
      refine ⟨.step i1 (.p hc h), ?_, ?_, ?_, ?_, ?_, ?_⟩
      · show s.out ++ pending s.w = _
        rw [i2, hl, allPackets_append, ha h1, List.append_nil]
      · intro h0
        exact ⟨(i3 h0).1, fun j g hj => hm _ ((i3 h0).2 j g (hp j g hj))⟩
      · intro k h0
        obtain ⟨a1, ⟨g, a2⟩, a3, a4⟩ := i4 k h0
        refine ⟨a1, ⟨g, hm _ a2⟩, fun j g hj => ?_, fun hw => hm _ (a4 hw)⟩
        rcases a3 j g (hp j g hj) with h | h
        · exact .inl (hm _ h)
        · exact .inr h
      · intro h0
        show d'.d ≠ _ ∧ d'.d ≠ _
        rw [hd]; exact i5 h0
      · intro h0
        exact ⟨hm _ (i6 h0).1, (i6 h0).2⟩
      · intro v h0
        show (d'.d = _ ∨ d'.d = _) ∧ v = (d'.err == none) ∧ _
        rw [hd, he]; exact i7 v h0
    | @announce hdr d' hc hm0 hd h =>
      cases h with
      | announce hpc =>
        rename_i h'
        refine ⟨.step i1 (.d hc (.announce hpc)), ?_, fun h0 => (by cases h0), ?_, fun _ => ⟨by simp, by simp⟩,
          fun h0 => (by cases h0), fun v h0 => (by cases h0)⟩
        · show s.out ++ pending .recv = _
          have := (i3 hm0).1
          rw [this] at i2
          rw [allPackets_append]
          simpa [pending, allPackets] using i2
        · intro k h0
          cases h0
          refine ⟨by simp, ⟨h', by simp⟩, fun j g hj => ?_, fun h0 => (by cases h0)⟩
          simp only [List.mem_append, List.mem_cons, List.not_mem_nil, or_false] at hj ⊢
          rcases hj with hj | hj
          · exact .inl (.inl ((i3 hm0).2 j g hj))
          · cases hj; exact .inr rfl
      | _ => simp_all
    | @packet k q d' hc hm0 hk hw hp0 h =>
      obtain ⟨n, hl, hn, -, ha, hd, he⟩ := pstep_log h
      have hp : ∀ j g, Ev.pack j g ∈ d'.log → Ev.pack j g ∈ s.d.log := by
        intro j g hj
        rw [hl, List.mem_append] at hj
        rcases hj with hj | hj
        · exact hj
        · exact absurd hj (hn j g)
      have hm : ∀ e, e ∈ s.d.log → e ∈ d'.log := fun e he => by rw [hl]; exact List.mem_append_left _ he
      refine ⟨.step i1 (.p hc h), ?_, fun h0 => (by rw [hm0] at h0; cases h0), ?_, ?_,
        fun h0 => (by rw [hm0] at h0; cases h0), fun v h0 => (by rw [hm0] at h0; cases h0)⟩
      · show s.out ++ pending (.send q.payload) = _
        rw [hw] at i2
        rw [hl, allPackets_append, ha q hp0, List.map_append, ← i2]
        simp [pending]
      · intro k' h0
        obtain ⟨a1, ⟨g, a2⟩, a3, a4⟩ := i4 k' h0
        refine ⟨by simp, ⟨g, hm _ a2⟩, fun j g hj => ?_, fun hw => (by cases hw)⟩
        rcases a3 j g (hp j g hj) with h | h
        · exact .inl (hm _ h)
        · exact .inr h
      · intro h0
        show d'.d ≠ _ ∧ d'.d ≠ _
        rw [hd]; exact i5 h0
    | @take k x hc hm0 hw =>
      refine ⟨i1, ?_, fun h0 => (by rw [hm0] at h0; cases h0), ?_, i5,
        fun h0 => (by rw [hm0] at h0; cases h0), fun v h0 => (by rw [hm0] at h0; cases h0)⟩
      · rw [hw] at i2
        simpa [pending] using i2
      · intro k' h0
        obtain ⟨a1, a2, a3, a4⟩ := i4 k' h0
        exact ⟨by simp, a2, a3, fun hw => (by cases hw)⟩
    | @wclose k hc hm0 hw h =>
      refine ⟨i1, ?_, fun h0 => (by rw [hm0] at h0; cases h0), ?_, i5,
        fun h0 => (by rw [hm0] at h0; cases h0), fun v h0 => (by rw [hm0] at h0; cases h0)⟩
      · rw [hw] at i2
        simpa [pending] using i2
      · intro k' h0
        obtain ⟨a1, a2, a3, a4⟩ := i4 k' h0
        rw [hm0] at h0
        cases h0
        exact ⟨by simp, a2, a3, fun _ => h⟩
    | @next k hc hm0 hw =>
      obtain ⟨a1, a2, a3, a4⟩ := i4 k hm0
      refine ⟨i1, ?_, fun _ => ⟨rfl, fun j g hj => ?_⟩, fun k' h0 => (by cases h0), fun _ => i5 (by simp [hm0]),
        fun h0 => (by cases h0), fun v h0 => (by cases h0)⟩
      · rw [hw] at i2
        simpa [pending] using i2
      · rcases a3 j g hj with h | rfl
        · exact h
        · exact a4 hw
    | packsEnd hc hm0 h =>
      exact ⟨i1, i2, fun h0 => (by cases h0), fun k h0 => (by cases h0), fun _ => i5 (by simp [hm0]),
        fun _ => ⟨h, (i3 hm0).1⟩, fun v h0 => (by cases h0)⟩
    | @done d' hc hm0 hd h =>
      cases h with
      | sendDone hpc =>
        refine ⟨.step i1 (.d hc (.sendDone hpc)), ?_, fun h0 => (by cases h0), fun k h0 => (by cases h0),
          fun h0 => absurd rfl (h0 _), fun h0 => (by cases h0), fun v h0 => ?_⟩
        · show s.out ++ pending s.w = _
          rw [i2, allPackets_append]
          simp [allPackets]
        · cases h0
          exact ⟨.inl rfl, rfl, (i6 hm0).2⟩
      | _ => simp_all

theorem pstep_send {u t : DSt} (h : PStep u t) {q : PES.Packet} (hq : u.p = .send q) : u.announced := by
  cases h with
  | send hpc ha => exact ha
  | peek_err hpc => rw [hq] at hpc; cases hpc
  | no_prefix hpc => rw [hq] at hpc; cases hpc
  | «prefix» hpc => rw [hq] at hpc; cases hpc
  | code_err hpc => rw [hq] at hpc; cases hpc
  | code_stop hpc => rw [hq] at hpc; cases hpc
  | code_next hpc => rw [hq] at hpc; cases hpc
  | packet_err hpc => rw [hq] at hpc; cases hpc
  | packet_panic hpc => rw [hq] at hpc; cases hpc
  | packet hpc => rw [hq] at hpc; cases hpc
  | close hpc => rw [hq] at hpc; cases hpc

theorem pstep_crash {u t : DSt} (h : PStep u t) (h0 : u.crashed = false) (hc : t.crashed = true) :
    u.p ≠ .none ∧ t.d = u.d := by
  cases h with
  | packet_panic hpc => exact ⟨fun h => (by rw [hpc] at h; cases h), rfl⟩
  | _ => exfalso; rw [show _ = u.crashed from rfl, h0] at hc; cases hc

/-- **C110.** For every source and every interleaving: the payloads that the program has received are those of the packets that
left the pack goroutines, in order, without the one that `PayloadOnly` holds.  When the program has finished, it has received
the payloads of all packets of all packs of the sequential reading of the source, each once and in order, and the value from the
done channel says whether the source ended with a program end code behind the last pack. -/
theorem C110_payloads (b0 : BR) {s : PipeSt} (hr : PipeReach b0 s) :
    s.out <+: (allPackets s.d.log).map PES.Packet.payload ∧
    ∀ v, s.m = .finished v → ∃ l b, Hist b0 l b ∧ s.out = (l.flatMap Prod.snd).map PES.Packet.payload ∧
      (v = true ↔ s.d.err = none) ∧ (v = true ↔ l ≠ [] ∧ BR.peek 32 b = (.ok programEndCode, b)) := by
  obtain ⟨i1, i2, i3, i4, i5, i6, i7⟩ := pipe_inv hr
  refine ⟨⟨_, i2⟩, fun v hv => ?_⟩
  obtain ⟨h1, h2, h3⟩ := i7 v hv
  rw [h3] at i2
  have hi : Inv b0 s.d := by
    rcases reach_inv i1 with ⟨_, hi⟩ | ⟨hc, _⟩
    · exact hi
    · exfalso
      have key : ∀ t, Reach b0 t → t.crashed = true → t.d = .wait ∨ ∃ h, t.d = .send h := by
        intro t ht
        cases ht with
        | init => intro h; cases h
        | @step u t hu hs =>
          intro hc
          cases hs with
          | d h0 hs => rw [d_crashed hs, h0] at hc; cases hc
          | p h0 hs =>
            rcases reach_inv hu with ⟨_, hi⟩ | ⟨h1, _⟩
            · obtain ⟨hp, hd'⟩ := pstep_crash hs h0 hc
              rw [hd']
              rcases busy_of_p hi hp with ⟨g, hd⟩ | hd
              · exact .inr ⟨g, hd⟩
              · exact .inl hd
            · rw [h0] at h1; cases h1
      rcases key _ i1 hc with h | ⟨g, h⟩ <;> rcases h1 with h1 | h1 <;> rw [h] at h1 <;> cases h1
  have hfin : ∃ l b evs tl, Hist b0 l b ∧ PacksEvs l evs ∧ Fin l b s.d.err ∧ s.d.log = evs ++ tl ∧ allPackets tl = [] := by
    rcases h1 with h1 | h1 <;> simp only [Inv, h1] at hi <;> obtain ⟨l, b, evs, ⟨a1, -, -⟩, a4, a5, a6⟩ := hi <;>
      exact ⟨l, b, evs, _, a1, a4, a5, a6, rfl⟩
  obtain ⟨l, b, evs, tl, a1, a2, a3, a4, a5⟩ := hfin
  have e : v = true ↔ s.d.err = none := by rw [h2]; simp
  refine ⟨l, b, a1, ?_, e, e.trans (fin_iff a3)⟩
  rw [a4, allPackets_append, a5, List.append_nil, allPackets_packs a2] at i2
  simpa [pending] using i2

/-- **C110.** No deadlock: until the program has finished, some goroutine can make a step, unless a packet made the decoder
panic. -/
theorem C110_progress (b0 : BR) {s : PipeSt} (hr : PipeReach b0 s) (hc : s.d.crashed = false)
    (hm : ∀ v, s.m ≠ .finished v) : ∃ s', PipeStep s s' := by
  obtain ⟨i1, i2, i3, i4, i5, i6, i7⟩ := pipe_inv hr
  have hi : Inv b0 s.d := by
    rcases reach_inv i1 with ⟨_, hi⟩ | ⟨h, _⟩
    · exact hi
    · rw [hc] at h; cases h
  obtain ⟨d', hst⟩ := C32_progress b0 s.d i1 hc (i5 hm).2
  -- the steps that need a receiver
  have split : (∃ s', PipeStep s s') ∨ (∃ h, s.d.d = .send h) ∨ s.d.d = .sendDone ∨
      (∃ q, s.d.p = .send q ∧ s.d.announced) := by
    cases hst with
    | d _ h =>
      by_cases h1 : ∃ g, s.d.d = .send g
      · exact .inr (.inl h1)
      by_cases h2 : s.d.d = .sendDone
      · exact .inr (.inr (.inl h2))
      · exact .inl ⟨_, .dec hc h (fun g hg => h1 ⟨g, hg⟩) h2⟩
    | p _ h =>
      by_cases h1 : ∃ q, s.d.p = .send q
      · obtain ⟨q, hq⟩ := h1
        exact .inr (.inr (.inr ⟨q, hq, pstep_send h hq⟩))
      · exact .inl ⟨_, .pck hc h (fun q hq => h1 ⟨q, hq⟩)⟩
  cases hmm : s.m with
  | finished v => exact absurd hmm (hm v)
  | packs =>
    obtain ⟨hw, hcl⟩ := i3 hmm
    rcases split with h | ⟨g, hd⟩ | hd | ⟨q, hq, g, ha⟩
    · exact h
    · exact ⟨_, .announce hc hmm hd (.announce hd)⟩
    · exact ⟨_, .packsEnd hc hmm (sendDone_log hi hd).1⟩
    · exact absurd (hcl _ g ha) (holding_open hi hq)
  | payloads k =>
    obtain ⟨hw, ⟨g0, hg0⟩, hcl, -⟩ := i4 k hmm
    cases hww : s.w with
    | none => exact absurd hww hw
    | send x => exact ⟨_, .take hc hmm hww⟩
    | closed => exact ⟨_, .next hc hmm hww⟩
    | recv =>
      by_cases hck : Ev.closed k ∈ s.d.log
      · exact ⟨_, .wclose hc hmm hww hck⟩
      rcases split with h | ⟨g, hd⟩ | hd | ⟨q, hq, g, ha⟩
      · exact h
      · exact absurd (send_closed hi hd hg0) hck
      · exact absurd ((sendDone_log hi hd).2 k g0 hg0) hck
      · rcases hcl _ g ha with h | h
        · exact absurd h (holding_open hi hq)
        · exact ⟨_, .packet hc hmm h.symm hww hq (.send hq ⟨g, ha⟩)⟩
  | waitDone =>
    obtain ⟨he, hw⟩ := i6 hmm
    rcases ended hi he with hd | hd | hd
    · exact ⟨_, .done hc hmm hd (.sendDone hd)⟩
    · exact absurd hd (i5 hm).1
    · exact absurd hd (i5 hm).2

/-- what is left to do for the two consumers -/
def wM : MPC → Nat
  | .packs => 1
  | .payloads _ => 2
  | _ => 0
def wW : WPC → Nat
  | .recv => 1
  | .send _ => 2
  | _ => 0

/-- **C110.** Every run ends, whatever the interleaving. -/
theorem C110_terminates (b0 : BR) (n : Nat) {s : PipeSt} (h : PipeSteps b0 n s) : n ≤ 80 * b0.size + 37 := by
  have reach : ∀ {n s}, PipeSteps b0 n s → PipeReach b0 s := by
    intro n s h
    induction h with
    | init => exact .init
    | step _ h2 ih => exact .step ih h2
  have key : n + (4 * weight s.d + wM s.m + wW s.w) ≤ 4 * (20 * b0.size + 9) + 1 := by
    induction h with
    | init => simp [PipeSt.new, weight, DSt.new, wD, wP, wM, wW]
    | @step n s s' h1 h2 ih =>
      have hi := pipe_inv (reach h1)
      have hd : ∀ {d'}, s.d.crashed = false → DStep s.d d' → weight d' < weight s.d :=
        fun hc h => weight_step hi.reach (.d hc h)
      have hp : ∀ {d'}, s.d.crashed = false → PStep s.d d' → weight d' < weight s.d :=
        fun hc h => weight_step hi.reach (.p hc h)
      cases h2 with
      | dec hc h _ _ => have := hd hc h; simp only; omega
      | pck hc h _ => have := hp hc h; simp only; omega
      | announce hc hm _ h => have := hd hc h; simp only [wM, wW, hm] at ih ⊢; omega
      | packet hc hm _ hw _ h => have := hp hc h; simp only [wM, wW, hm, hw] at ih ⊢; omega
      | take hc hm hw => simp only [wM, wW, hm, hw] at ih ⊢; omega
      | wclose hc hm hw h => simp only [wM, wW, hm, hw] at ih ⊢; omega
      | next hc hm hw => simp only [wM, wW, hm, hw] at ih ⊢; omega
      | packsEnd hc hm h => simp only [wM, wW, hm] at ih ⊢; omega
      | done hc hm _ h => have := hd hc h; simp only [wM, wW, hm] at ih ⊢; omega
  omega

theorem showsAll_payloads {l : List (PackHeader × List PES.Packet)} {ps : List Pack} (h : ShowsAll l ps) :
    (l.flatMap Prod.snd).map PES.Packet.payload = ps.flatMap (fun p => p.items.map Item.payload) := by
  induction h with
  | nil => rfl
  | snoc _ h2 ih => simp [ih, h2.2.2.2.2.1]

/-- **C110.** Well-formed programs: no crash, and in the end the program has received the payload of every packet of every pack,
each once and in order, and `true` from the done channel. -/
theorem C110_program (ps : List Pack) (hne : ps ≠ []) (hw : ∀ p ∈ ps, p.WF) (tail : List Bool) (stop : Err)
    (later : List (List Bool × Err)) {s : PipeSt} (hr : PipeReach ⟨encProgram ps ++ tail, 0, stop, later⟩ s) :
    s.d.crashed = false ∧
    ∀ v, s.m = .finished v → v = true ∧ s.out = ps.flatMap (fun p => p.items.map Item.payload) := by
  have hi := pipe_inv hr
  refine ⟨(C32_stream ps hne hw tail stop later _ hi.reach).1, fun v hv => ?_⟩
  obtain ⟨l, b, h1, h2, h3, h4⟩ := (C110_payloads _ hr).2 v hv
  obtain ⟨h5, h6, h7⟩ := hi.fin v hv
  have hI : Inv ⟨encProgram ps ++ tail, 0, stop, later⟩ s.d := by
    rcases reach_inv hi.reach with ⟨_, hI⟩ | ⟨hc, _⟩
    · exact hI
    · rw [(C32_stream ps hne hw tail stop later _ hi.reach).1] at hc; cases hc
  have hb0 : (⟨encProgram ps ++ tail, 0, stop, later⟩ : BR) = ⟨progBits [] ps tail, 0, stop, later⟩ := by
    simp [progBits, encProgram]
  have hfin : ∃ l' b', Hist ⟨progBits [] ps tail, 0, stop, later⟩ l' b' ∧ Fin l' b' s.d.err ∧
      s.out = (l'.flatMap Prod.snd).map PES.Packet.payload := by
    have io := hi.out
    rw [h7] at io
    rcases h5 with h5 | h5 <;> simp only [Inv, h5] at hI <;> obtain ⟨l', b', evs, ⟨a1, -, -⟩, a4, a5, a6⟩ := hI <;>
      rw [hb0] at a1 <;> refine ⟨l', b', a1, a5, ?_⟩ <;>
      rw [a6, allPackets_append, allPackets_packs a4] at io <;> simpa [pending, allPackets, endEvs] using io
  obtain ⟨l', b', c1, c2, c3⟩ := hfin
  obtain ⟨e1, e2⟩ := fin_wf hw hne rfl c1 c2
  exact ⟨by rw [h6, e1]; rfl, by rw [c3, showsAll_payloads e2]⟩

theorem pipeSteps_reach {b0 : BR} {n : Nat} {s : PipeSt} (h : PipeSteps b0 n s) : PipeReach b0 s := by
  induction h with
  | init => exact .init
  | step _ h2 ih => exact .step ih h2

/-- The end is reached: for every well-formed program there is a run that ends with all payloads received. -/
theorem C110_ends (ps : List Pack) (hne : ps ≠ []) (hw : ∀ p ∈ ps, p.WF) (tail : List Bool) (stop : Err)
    (later : List (List Bool × Err)) :
    ∃ s, PipeReach ⟨encProgram ps ++ tail, 0, stop, later⟩ s ∧ s.m = .finished true ∧
      s.out = ps.flatMap (fun p => p.items.map Item.payload) := by
  have key : ∀ n, (∃ s v, PipeReach ⟨encProgram ps ++ tail, 0, stop, later⟩ s ∧ s.m = .finished v) ∨
      ∃ s, PipeSteps ⟨encProgram ps ++ tail, 0, stop, later⟩ n s := by
    intro n
    induction n with
    | zero => exact .inr ⟨_, .init⟩
    | succ n ih =>
      rcases ih with ih | ⟨s, hs⟩
      · exact .inl ih
      · have hr := pipeSteps_reach hs
        by_cases hm : ∃ v, s.m = .finished v
        · obtain ⟨v, hv⟩ := hm
          exact .inl ⟨s, v, hr, hv⟩
        · obtain ⟨s', h'⟩ := C110_progress _ hr (C110_program ps hne hw tail stop later hr).1
            (fun v hv => hm ⟨v, hv⟩)
          exact .inr ⟨s', .step hs h'⟩
  rcases key (80 * (⟨encProgram ps ++ tail, 0, stop, later⟩ : BR).size + 38) with ⟨s, v, hr, hv⟩ | ⟨s, hs⟩
  · obtain ⟨rfl, ho⟩ := (C110_program ps hne hw tail stop later hr).2 v hv
    exact ⟨s, hr, hv, ho⟩
  · have := C110_terminates _ _ hs
    omega

/-- Two packs with three packets. -/
example : ∃ s, PipeReach ⟨encProgram exPacks ++ [], 0, .eof, []⟩ s ∧ s.m = .finished true ∧
    s.out = [[1, 2, 3], [], [4, 5]] :=
  C110_ends exPacks (by simp [exPacks]) exPacks_ok.1 [] .eof []

end Mpeg.PS
