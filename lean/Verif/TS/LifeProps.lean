/-
Property theorem C101: configuring the demuxer, panics of its goroutine, and `Go` called again.
-/
import Verif.TS.LifeModel
import Verif.TS.DemuxProps
set_option linter.all false
namespace Mpeg.TS
open Spec

namespace Spec

/-- The testers of the `Where` calls, in order. -/
def wheres : List Call → List Tester
  | [] => []
  | .where_ t :: cs => t :: wheres cs
  | _ :: cs => wheres cs

/-- The tester of the last `SkipUntil`, or `t`. -/
def lastSkip (t : Tester) : List Call → Tester
  | [] => t
  | .skipUntil u :: cs => lastSkip u cs
  | _ :: cs => lastSkip t cs

/-- The tester of the last `TakeWhile`, or `t`. -/
def lastTake (t : Tester) : List Call → Tester
  | [] => t
  | .takeWhile u :: cs => lastTake u cs
  | _ :: cs => lastTake t cs

/-- The demuxer after the calls `cs`. -/
def configured (cs : List Call) : Demuxer := ⟨wheres cs, lastSkip (fun _ => true) cs, lastTake (fun _ => true) cs⟩

/-- Any number of steps. -/
inductive LSteps : LSt → LSt → Prop
  | refl (s : LSt) : LSteps s s
  | tail {s s1 s2 : LSt} : LSteps s s1 → LStep s1 s2 → LSteps s s2

end Spec

theorem Spec.LSteps.trans {a b c : LSt} (h : LSteps a b) (h' : LSteps b c) : LSteps a c := by
  induction h' with
  | refl => exact h
  | tail _ hst ih => exact .tail ih hst

theorem foldl_call (cs : List Call) (d : Demuxer) :
    cs.foldl Demuxer.call d = ⟨d.chans ++ wheres cs, lastSkip d.skipUntil cs, lastTake d.takeWhile cs⟩ := by
  induction cs generalizing d with
  | nil => simp [wheres, lastSkip, lastTake]
  | cons c cs ih =>
    rw [List.foldl_cons, ih]
    cases c <;> simp [Demuxer.call, wheres, lastSkip, lastTake]

/-- **C101** (configuration) Whatever the calls and their order: `Where` adds its channel behind the others, and of several `SkipUntil`
or `TakeWhile` the last one counts. -/
theorem C101_config (br : BR) (cs : List Call) :
    LSteps (.new br) { LSt.new br with d := configured cs } := by
  have h : ∀ (cs : List Call) (s : LSt), s.running = false → LSteps s { s with d := cs.foldl Demuxer.call s.d } := by
    intro cs
    induction cs with
    | nil => intro s _; exact .refl s
    | cons c cs ih =>
      intro s hs
      exact (LSteps.tail (.refl s) (.call c hs)).trans (ih { s with d := s.d.call c } hs)
  have := h cs (.new br) rfl
  rw [foldl_call] at this
  exact this

/-! ### the packets so far -/

theorem Run.snoc {s s1 s2 : St} {ps : List Packet} (h : Run s ps s1) (h' : Packet.next s1 = (.ok (), s2)) :
    Run s (ps ++ [s2.pkt]) s2 := h.append (.cons h' (.nil _))

/-- the part of the packets that is in the window -/
def InWindow (d : Demuxer) (ps W : List Packet) : Prop :=
  ∃ pre q mid, ps = pre ++ q :: mid ∧ (∀ p ∈ pre, d.skipUntil p = false) ∧ d.skipUntil q = true ∧
    (∀ p ∈ mid, d.takeWhile p = true) ∧ W = q :: mid

theorem InWindow.window {d : Demuxer} {ps W : List Packet} (h : InWindow d ps W) : W = Spec.window d.skipUntil d.takeWhile ps := by
  obtain ⟨pre, q, mid, rfl, h1, h2, h3, rfl⟩ := h
  unfold Spec.window
  have : (pre ++ q :: mid).dropWhile (fun p => !d.skipUntil p) = q :: mid := by
    rw [List.dropWhile_append_of_pos (by intro x hx; simp [h1 x hx])]
    simp [List.dropWhile, h2]
  rw [this]
  simp only [List.cons.injEq, true_and]
  clear this
  induction mid with
  | nil => rfl
  | cons a l ih =>
    rw [List.takeWhile_cons_of_pos (h3 a (by simp)), ← ih fun p hp => h3 p (by simp [hp])]

theorem InWindow.snoc {d : Demuxer} {ps W : List Packet} {p : Packet} (h : InWindow d ps W) (hp : d.takeWhile p = true) :
    InWindow d (ps ++ [p]) (W ++ [p]) := by
  obtain ⟨pre, q, mid, rfl, h1, h2, h3, rfl⟩ := h
  refine ⟨pre, q, mid ++ [p], by simp, h1, h2, ?_, rfl⟩
  intro x hx
  rcases List.mem_append.mp hx with hx | hx
  · exact h3 x hx
  · simp at hx; rw [hx]; exact hp

/-- The log of a run that has not come to its end. -/
def Sofar (d : Demuxer) (br : BR) (s : DSt) : Prop :=
  match s.pc with
  | .fetch => s.lastErr = none ∧ ∃ ps, Run ⟨Packet.new, br⟩ ps s.st ∧
      if s.skipping then (∀ p ∈ ps, d.skipUntil p = false) ∧ s.log = []
      else ∃ W, InWindow d ps W ∧ s.log = W.flatMap (sends 0 d.chans)
  | .send i => s.lastErr = none ∧ s.skipping = false ∧ ∃ ps W, Run ⟨Packet.new, br⟩ ps s.st ∧ InWindow d ps (W ++ [s.st.pkt]) ∧
      s.log = W.flatMap (sends 0 d.chans) ++ sends 0 (d.chans.take i) s.st.pkt
  | _ => True

theorem sends_append (k : Nat) (p : Packet) : ∀ (a b : List Tester), sends k (a ++ b) p = sends k a p ++ sends (k + a.length) b p
  | [], b => by simp [sends]
  | t :: a, b => by
    rw [List.cons_append, sends, sends, sends_append (k + 1) p a b, List.append_assoc, List.length_cons]
    congr 3
    omega

theorem sends_take {d : Demuxer} {i : Nat} {t : Tester} (hi : d.chans[i]? = some t) (p : Packet) :
    sends 0 (d.chans.take (i + 1)) p = sends 0 (d.chans.take i) p ++ (if t p then [.recv i p] else []) := by
  obtain ⟨hlt, hget⟩ := List.getElem?_eq_some_iff.mp hi
  rw [List.take_succ_eq_append_getElem hlt, sends_append, hget, List.length_take]
  simp [sends, Nat.min_eq_left (Nat.le_of_lt hlt)]

theorem sofar_reach {d : Demuxer} {br : BR} {s : DSt} (h : Reach d br s) : Sofar d br s := by
  induction h with
  | init => exact ⟨rfl, [], .nil _, by simp [DSt.new]⟩
  | @demux s s' _ hst ih =>
    cases hst with
    | err hpc hn => exact trivial
    | panic hpc hn => exact trivial
    | @skip st hpc hn hs ht =>
      simp only [Sofar, hpc, hs, if_true] at ih ⊢
      obtain ⟨hl, ps, hr, h1, h2⟩ := ih
      refine ⟨hl, _, hr.snoc hn, ?_, h2⟩
      intro p hp
      rcases List.mem_append.mp hp with hp | hp
      · exact h1 p hp
      · simp at hp; rw [hp]; exact ht
    | @start st hpc hn hs ht =>
      simp only [Sofar, hpc, hs, if_true] at ih ⊢
      obtain ⟨hl, ps, hr, h1, h2⟩ := ih
      refine ⟨hl, trivial, _, [], hr.snoc hn, ⟨ps, st.pkt, [], rfl, h1, ht, by simp, rfl⟩, ?_⟩
      simp [h2, sends]
    | @take st hpc hn hs ht =>
      simp only [Sofar, hpc, hs] at ih ⊢
      obtain ⟨hl, ps, hr, W, hW, h2⟩ := ih
      exact ⟨hl, trivial, _, W, hr.snoc hn, hW.snoc ht, by simp [h2, sends]⟩
    | stop hpc hn hs ht => exact trivial
    | @pass i t hpc hi ht =>
      simp only [Sofar, hpc] at ih ⊢
      obtain ⟨hl, hs, ps, W, hr, hW, h2⟩ := ih
      exact ⟨hl, hs, ps, W, hr, hW, by rw [h2, sends_take hi, if_neg (by simp [ht]), List.append_nil]⟩
    | @deliver i t hpc hi ht hw =>
      simp only [Sofar, hpc] at ih ⊢
      obtain ⟨hl, hs, ps, W, hr, hW, h2⟩ := ih
      exact ⟨hl, hs, ps, W, hr, hW, by rw [h2, sends_take hi, if_pos ht, List.append_assoc]⟩
    | @loop i hpc hi =>
      simp only [Sofar, hpc] at ih ⊢
      obtain ⟨hl, hs, ps, W, hr, hW, h2⟩ := ih
      refine ⟨hl, ps, hr, ?_⟩
      rw [hs]
      refine ⟨_, hW, ?_⟩
      rw [h2, List.take_of_length_le (List.getElem?_eq_none_iff.mp hi), List.flatMap_append]
      simp
    | close hpc hi => exact trivial
    | closed hpc hi => exact trivial
    | done hpc hw => exact trivial
  | @env s s' _ hst ih =>
    cases hst with
    | ready i => exact ih
    | readyDone => exact ih

/-- the log in front of a call of `Next` -/
theorem sofar_fetch {d : Demuxer} {br : BR} {s : DSt} (h : Reach d br s) (hpc : s.pc = .fetch) :
    s.lastErr = none ∧ ∃ ps, Run ⟨Packet.new, br⟩ ps s.st ∧
      s.log = (window d.skipUntil d.takeWhile ps).flatMap (sends 0 d.chans) := by
  have := sofar_reach h
  simp only [Sofar, hpc] at this
  obtain ⟨hl, ps, hr, hc⟩ := this
  refine ⟨hl, ps, hr, ?_⟩
  split at hc
  · obtain ⟨h1, h2⟩ := hc
    have : ps.dropWhile (fun p => !d.skipUntil p) = [] := by
      clear hr h2
      induction ps with
      | nil => rfl
      | cons a l ih => simp [List.dropWhile, h1 a (by simp), ih (fun p hp => h1 p (by simp [hp]))]
    rw [h2]
    unfold window
    rw [this]
    rfl
  · obtain ⟨W, h1, h2⟩ := hc
    rw [h2, h1.window]

theorem run_unique {s s1 s2 t1 t2 : St} {ps qs : List Packet} (h : Run s ps s1) (h' : Run s qs s2)
    (e : Packet.next s1 = (.panic, t1)) (e' : Packet.next s2 = (.panic, t2)) : ps = qs := by
  induction h generalizing qs with
  | nil s =>
    cases h' with
    | nil => rfl
    | cons h1 _ => rw [h1] at e; cases e
  | cons h1 _ ih =>
    cases h' with
    | nil => rw [h1] at e'; cases e'
    | cons h2 h3 =>
      rw [h1] at h2
      cases h2
      rw [ih h3 e]

/-! ### the first run -/

/-- the goroutine started after the calls `cs` -/
def started (br : BR) (cs : List Call) : LSt := { LSt.new br with d := configured cs, running := true, gos := 1 }

theorem started_steps (br : BR) (cs : List Call) : LSteps (.new br) (started br cs) := .tail (C101_config br cs) (.go rfl)

/-- what is left of the events of the deferred function -/
def deferred (d : Demuxer) (pc : DPC) : List Ev :=
  match pc with
  | .closing i => closeAll i (d.chans.drop i) ++ [.done]
  | .doneSend => [.done]
  | _ => []

theorem LStep.gos_le {s s' : LSt} (h : LStep s s') : s.gos ≤ s'.gos := by cases h <;> simp

theorem gos_steps {a b : LSt} (h : LSteps a b) : a.gos ≤ b.gos := by
  induction h with
  | refl => exact Nat.le_refl _
  | tail _ h ih => exact Nat.le_trans ih h.gos_le

/-- the channels closed before and after a step of the goroutine -/
def Shut (n : Nat) (pc : DPC) (i : Nat) : Prop :=
  i < n ∧ (pc = .doneSend ∨ pc = .finished ∨ pc = .crashed ∨ ∃ k, pc = .closing k ∧ i < k)

theorem shut_step {s : LSt} {r : DSt} (h : DStep s.d s.run r) (hp : r.pc ≠ .crashed)
    (hs : ∀ i, s.closed i = true ↔ Shut s.d.chans.length s.run.pc i) :
    ∀ i, s.closedAfter i = true ↔ Shut s.d.chans.length r.pc i := by
  intro i
  cases h with
  | err hpc hn => simp only [LSt.closedAfter, hpc]; rw [hs]; simp [Shut, hpc]
  | panic hpc hn => exact absurd rfl hp
  | skip hpc hn h1 ht => simp only [LSt.closedAfter, hpc]; rw [hs, hpc]
  | start hpc hn h1 ht => simp only [LSt.closedAfter, hpc]; rw [hs]; simp [Shut, hpc]
  | take hpc hn h1 ht => simp only [LSt.closedAfter, hpc]; rw [hs]; simp [Shut, hpc]
  | stop hpc hn h1 ht => simp only [LSt.closedAfter, hpc]; rw [hs]; simp [Shut, hpc]
  | pass hpc hi ht => simp only [LSt.closedAfter, hpc]; rw [hs]; simp [Shut, hpc]
  | deliver hpc hi ht hw => simp only [LSt.closedAfter, hpc]; rw [hs]; simp [Shut, hpc]
  | loop hpc hi => simp only [LSt.closedAfter, hpc]; rw [hs]; simp [Shut, hpc]
  | @close k t hpc hi =>
    have hlt := (List.getElem?_eq_some_iff.mp hi).1
    simp only [LSt.closedAfter, hpc, hlt, if_true, setW]
    by_cases hik : i = k
    · subst hik; simp [Shut, hlt]
    · rw [if_neg hik, hs]
      simp only [Shut, hpc]
      constructor
      · rintro ⟨h1, h | h | h | ⟨k', h, h2⟩⟩ <;> cases h
        exact ⟨h1, .inr (.inr (.inr ⟨_, rfl, by omega⟩))⟩
      · rintro ⟨h1, h | h | h | ⟨k', h, h2⟩⟩ <;> cases h
        exact ⟨h1, .inr (.inr (.inr ⟨_, rfl, by omega⟩))⟩
  | @closed k hpc hi =>
    have hge := List.getElem?_eq_none_iff.mp hi
    simp only [LSt.closedAfter, hpc, show ¬ k < s.d.chans.length by omega, if_false]
    rw [hs]
    simp only [Shut, hpc]
    constructor
    · rintro ⟨h1, -⟩; exact ⟨h1, .inl trivial⟩
    · rintro ⟨h1, -⟩; exact ⟨h1, .inr (.inr (.inr ⟨_, rfl, by omega⟩))⟩
  | done hpc hw =>
    simp only [LSt.closedAfter, hpc]
    rw [hs]
    simp [Shut, hpc]

structure First (br : BR) (cs : List Call) (s : LSt) : Prop where
  calm : s.panicking = false → Reach (configured cs) br s.run ∧ (s.running = true → s.d = configured cs) ∧
    (s.running = false → s.run.pc = .finished) ∧ (s.running = true → s.run.pc ≠ .finished)
  wild : s.panicking = true → s.running = true ∧ s.d = configured cs ∧
    ((∃ i, s.run.pc = .closing i) ∨ s.run.pc = .doneSend ∨ s.run.pc = .crashed) ∧
    ∃ r st, Reach (configured cs) br r ∧ r.pc = .fetch ∧ Packet.next r.st = (.panic, st) ∧ s.run.lastErr = r.lastErr ∧
      s.run.log ++ deferred (configured cs) s.run.pc = r.log ++ (closeAll 0 (wheres cs) ++ [.done])
  shut : ∀ i, s.closed i = true ↔ Shut (wheres cs).length s.run.pc i

theorem first_steps {br : BR} {cs : List Call} {s : LSt} (h : LSteps (started br cs) s) : s.gos = 1 → First br cs s := by
  generalize hs : started br cs = s0 at h
  induction h with
  | refl =>
    subst hs
    intro _
    refine ⟨fun _ => ⟨.init, (fun _ => rfl), (fun h => by cases h), (fun _ h => by cases h)⟩, (fun h => by cases h), ?_⟩
    intro i
    constructor
    · intro h; cases h
    · rintro ⟨-, h | h | h | ⟨k, h, -⟩⟩ <;> cases h
  | @tail s1 s2 hss hst ih =>
    subst hs
    intro hg
    have hpos : 1 ≤ s1.gos := gos_steps hss
    have hg1 : s1.gos = 1 := by have := hst.gos_le; omega
    obtain ⟨hc, hw, hsh⟩ := ih hg1
    cases hst with
    | call c h =>
      cases hp : s1.panicking with
      | true => have := (hw hp).1; rw [h] at this; cases this
      | false =>
        obtain ⟨a, b, c', d'⟩ := hc hp
        exact ⟨fun _ => ⟨a, (fun h' => by dsimp only at h'; rw [h] at h'; cases h'), c', d'⟩,
          (fun h' => by cases h'), hsh⟩
    | go h => simp only at hg; omega
    | @step r hr h hpc hf ho =>
      cases hp : s1.panicking with
      | false =>
        obtain ⟨a, b, c', d'⟩ := hc hp
        have hd := b hr
        refine ⟨fun _ => ⟨.demux a (hd ▸ h), (fun _ => hd), (fun h' => by dsimp only at h'; rw [hr] at h'; cases h'), (fun _ => hf)⟩,
          (fun h' => by cases h'), ?_⟩
        have := shut_step h hpc (by rw [hd]; exact hsh)
        rw [hd] at this
        exact this
      | true =>
        obtain ⟨a, hd, hi0, r0, st, h1, h2, h3, h4, h5⟩ := hw hp
        refine ⟨(fun h' => by cases h'), fun _ => ⟨hr, hd, ?_⟩, ?_⟩
        · rcases hi0 with ⟨i, hi0⟩ | hi0 | hi0
          · cases h with
            | @close k t hpc' hi =>
              rw [hpc'] at hi0 h5
              cases hi0
              refine ⟨.inl ⟨_, rfl⟩, r0, st, h1, h2, h3, h4, ?_⟩
              rw [hd] at hi
              rw [← h5]
              simp only [deferred, drop_some hi, closeAll, List.append_assoc, List.cons_append, List.nil_append]
            | @closed k hpc' hi =>
              rw [hpc'] at hi0 h5
              cases hi0
              refine ⟨.inr (.inl rfl), r0, st, h1, h2, h3, h4, ?_⟩
              rw [hd] at hi
              rw [← h5]
              simp only [deferred, drop_none hi, closeAll, List.nil_append]
            | err hpc' hn => rw [hpc'] at hi0; cases hi0
            | panic hpc' hn => rw [hpc'] at hi0; cases hi0
            | skip hpc' => rw [hpc'] at hi0; cases hi0
            | start hpc' => rw [hpc'] at hi0; cases hi0
            | take hpc' => rw [hpc'] at hi0; cases hi0
            | stop hpc' => rw [hpc'] at hi0; cases hi0
            | pass hpc' => rw [hpc'] at hi0; cases hi0
            | deliver hpc' => rw [hpc'] at hi0; cases hi0
            | loop hpc' => rw [hpc'] at hi0; cases hi0
            | done hpc' => rw [hpc'] at hi0; cases hi0
          · cases h with
            | done hpc' => exact absurd rfl hf
            | err hpc' hn => rw [hpc'] at hi0; cases hi0
            | panic hpc' hn => rw [hpc'] at hi0; cases hi0
            | skip hpc' => rw [hpc'] at hi0; cases hi0
            | start hpc' => rw [hpc'] at hi0; cases hi0
            | take hpc' => rw [hpc'] at hi0; cases hi0
            | stop hpc' => rw [hpc'] at hi0; cases hi0
            | pass hpc' => rw [hpc'] at hi0; cases hi0
            | deliver hpc' => rw [hpc'] at hi0; cases hi0
            | loop hpc' => rw [hpc'] at hi0; cases hi0
            | close hpc' => rw [hpc'] at hi0; cases hi0
            | closed hpc' => rw [hpc'] at hi0; cases hi0
          · cases h with
            | done hpc' => exact absurd rfl hf
            | err hpc' hn => rw [hpc'] at hi0; cases hi0
            | panic hpc' hn => rw [hpc'] at hi0; cases hi0
            | skip hpc' => rw [hpc'] at hi0; cases hi0
            | start hpc' => rw [hpc'] at hi0; cases hi0
            | take hpc' => rw [hpc'] at hi0; cases hi0
            | stop hpc' => rw [hpc'] at hi0; cases hi0
            | pass hpc' => rw [hpc'] at hi0; cases hi0
            | deliver hpc' => rw [hpc'] at hi0; cases hi0
            | loop hpc' => rw [hpc'] at hi0; cases hi0
            | close hpc' => rw [hpc'] at hi0; cases hi0
            | closed hpc' => rw [hpc'] at hi0; cases hi0
        · have := shut_step h hpc (by rw [hd]; exact hsh)
          rw [hd] at this
          exact this
    | @finish r hr h hf =>
      have hdone : s1.run.pc = .doneSend ∧ r.log = s1.run.log ++ [.done] ∧ r.lastErr = s1.run.lastErr := by
        cases h with
        | done hpc' => exact ⟨hpc', rfl, rfl⟩
        | skip hpc' => rw [hpc'] at hf; cases hf
        | _ => cases hf
      have hshut : ∀ i pc, pc = DPC.finished ∨ pc = DPC.crashed → (s1.closed i = true ↔ Shut (wheres cs).length pc i) := by
        intro i pc hpc
        rw [hsh, hdone.1]
        rcases hpc with rfl | rfl <;> simp [Shut]
      cases hp : s1.panicking with
      | false =>
        obtain ⟨a, b, c', d'⟩ := hc hp
        have hd := b hr
        simp only [if_false, Bool.false_eq_true]
        refine ⟨fun _ => ⟨.demux a (hd ▸ h), (fun h' => by cases h'), (fun _ => hf), (fun h' => by cases h')⟩,
          (fun h' => by cases h'), fun i => ?_⟩
        exact hshut i _ (.inl hf)
      | true =>
        obtain ⟨a, hd, hi0, r0, st, h1, h2, h3, h4, h5⟩ := hw hp
        simp only [if_true]
        refine ⟨(fun h' => by cases h'), fun _ => ⟨rfl, hd, .inr (.inr rfl), r0, st, h1, h2, h3, ?_, ?_⟩, ?_⟩
        · exact hdone.2.2.trans h4
        · rw [hdone.1] at h5
          simp only [deferred, List.append_nil] at h5 ⊢
          rw [hdone.2.1]
          exact h5
        · exact fun i => hshut i _ (.inr rfl)
    | @nextPanic st hr hpc h =>
      have hshut : ∀ i, s1.closed i = true ↔ Shut (wheres cs).length (.closing 0) i := by
        intro i
        rw [hsh, hpc]
        simp [Shut]
      cases hp : s1.panicking with
      | true =>
        obtain ⟨-, -, ⟨i, h0⟩ | h0 | h0, -⟩ := hw hp <;> rw [hpc] at h0 <;> cases h0
      | false =>
        obtain ⟨a, b, c', d'⟩ := hc hp
        exact ⟨(fun h' => by cases h'), fun _ => ⟨hr, b hr, .inl ⟨0, rfl⟩, s1.run, st, a, hpc, h, rfl, rfl⟩, hshut⟩
    | @sendClosed i t hr hpc hi ht hcl =>
      obtain ⟨-, h | h | h | ⟨k, h, -⟩⟩ := (hsh i).1 hcl <;> rw [hpc] at h <;> cases h
    | @closeClosed i t hr hpc hi hcl =>
      obtain ⟨-, h | h | h | ⟨k, h, hk⟩⟩ := (hsh i).1 hcl <;> rw [hpc] at h <;> cases h
      omega
    | @env r h hcr =>
      have e : r.pc = s1.run.pc ∧ r.log = s1.run.log ∧ r.lastErr = s1.run.lastErr := by cases h <;> exact ⟨rfl, rfl, rfl⟩
      refine ⟨fun h' => ?_, fun h' => ?_, ?_⟩
      · obtain ⟨a, b, c', d'⟩ := hc h'
        exact ⟨.env a h, b, (fun h'' => by rw [e.1]; exact c' h''), (fun h'' => by rw [e.1]; exact d' h'')⟩
      · have := hw h'
        rw [e.1, e.2.1, e.2.2]
        exact this
      · rw [e.1]
        exact hsh

/-- **C101** (first run) After any calls `cs` and `Go`, on a source that yields the packets `ps` and then the error `e`: whatever the
interleaving, the goroutine does not panic, the channel of the `i`-th `Where` has received a prefix of the packets that its tester
accepts of those in the window of the last `SkipUntil` and the last `TakeWhile`; after the end it has received all of them, every
channel is closed, and `Err` is the error, or nil if `TakeWhile` rejected a packet. -/
theorem C101_first {br : BR} {cs : List Call} {ps : List Packet} {e : Err} {s' : St} (h : Ends ⟨Packet.new, br⟩ ps e s')
    {s : LSt} (hs : LSteps (started br cs) s) (hg : s.gos = 1) :
    s.panicking = false ∧ s.run.pc ≠ .crashed ∧
    (∀ i t, (wheres cs)[i]? = some t →
      received i s.run.log <+: (window (lastSkip (fun _ => true) cs) (lastTake (fun _ => true) cs) ps).filter t ∧
      (s.running = false → received i s.run.log =
        (window (lastSkip (fun _ => true) cs) (lastTake (fun _ => true) cs) ps).filter t)) ∧
    (s.running = false → (∀ i, s.closed i = true ↔ i < (wheres cs).length) ∧ dones s.run.log = 1 ∧
      s.run.lastErr = finalErr (lastSkip (fun _ => true) cs) (lastTake (fun _ => true) cs) e ps) := by
  obtain ⟨hc, hw, hsh⟩ := first_steps hs hg
  have hp : s.panicking = false := by
    cases hp : s.panicking with
    | false => rfl
    | true =>
      obtain ⟨-, -, -, r, st, h1, h2, h3, -⟩ := hw hp
      obtain ⟨rest, -, h4⟩ := reach_inv _ br h h1
      simp only [Rest, h2] at h4
      obtain ⟨qs, s1, s2, hr, he, -⟩ := h4
      exact (run_panic hr he h3).elim
  obtain ⟨h1, h2, h3, h4⟩ := hc hp
  have ht := C18_termination _ br h h1
  refine ⟨hp, ht.1, fun i t hi => ?_, fun hr => ⟨fun i => ?_, (ht.2.2.2.2.2 (h3 hr)).2.1, (ht.2.2.2.2.2 (h3 hr)).2.2⟩⟩
  · have := C16_filtered_delivery _ br h h1 (i := i) (t := t) hi
    exact ⟨this.1, fun hr => this.2 (h3 hr)⟩
  · rw [hsh, h3 hr]
    simp [Shut]

/-- **C101** (panic) If instead a call of `Next` panics after the packets `ps`, and the goroutine came so far: the channels get
exactly their packets of the window, and then the run ends like any other, before the program crashes: the channels are closed, `Err`
is nil, and the program crashes only when somebody has received from `done`. -/
theorem C101_panic {br : BR} {cs : List Call} {ps : List Packet} {s1 s2 : St} (h : Run ⟨Packet.new, br⟩ ps s1)
    (h' : Packet.next s1 = (.panic, s2)) {s : LSt} (hs : LSteps (started br cs) s) (hg : s.gos = 1) (hp : s.panicking = true) :
    s.running = true ∧ s.run.lastErr = none ∧
    (∀ i t, (wheres cs)[i]? = some t → received i s.run.log =
      (window (lastSkip (fun _ => true) cs) (lastTake (fun _ => true) cs) ps).filter t) ∧
    (s.run.pc = .doneSend ∨ s.run.pc = .crashed → ∀ i, i < (wheres cs).length → s.closed i = true ∧ closes i s.run.log = 1) ∧
    dones s.run.log = if s.run.pc = .crashed then 1 else 0 := by
  obtain ⟨-, hw, hsh⟩ := first_steps hs hg
  obtain ⟨h1, h2, h3, r, st, h4, h5, h6, h7, h8⟩ := hw hp
  obtain ⟨he, ps', hr, hlog⟩ := sofar_fetch h4 h5
  have : ps' = ps := run_unique hr h h6 h'
  subst this
  have hcan : s.run.log ++ deferred (configured cs) s.run.pc = canonical (configured cs) ps' := by
    rw [h8, hlog]
    rfl
  refine ⟨h1, h7.trans he, fun i t hi => ?_, fun hpc i hi => ⟨?_, ?_⟩, ?_⟩
  · have := received_canonical (configured cs) ps' (i := i) (t := t) hi
    rw [← hcan, received_append] at this
    have hd : received i (deferred (configured cs) s.run.pc) = [] := by
      rcases h3 with ⟨k, h3⟩ | h3 | h3 <;> rw [h3]
      · simp only [deferred, received_append, received_closeAll]; rfl
      · rfl
      · rfl
    rw [hd, List.append_nil] at this
    exact this
  · rw [hsh]
    exact ⟨hi, hpc.elim .inl fun h => .inr (.inr (.inl h))⟩
  · have := closes_canonical (configured cs) ps' i
    rw [← hcan, closes_append, if_pos (show i < (configured cs).chans.length from hi)] at this
    have hd : closes i (deferred (configured cs) s.run.pc) = 0 := by
      rcases hpc with hpc | hpc <;> rw [hpc] <;> rfl
    omega
  · have := dones_canonical (configured cs) ps'
    rw [← hcan, dones_append] at this
    rcases h3 with ⟨k, h3⟩ | h3 | h3
    · rw [if_neg (by rw [h3]; exact fun h => by cases h)]
      rw [h3] at this
      simp only [deferred, dones_append, dones_closeAll] at this
      have : dones [Ev.done] = 1 := rfl
      omega
    · rw [if_neg (by rw [h3]; exact fun h => by cases h)]
      rw [h3] at this
      have h9 : dones (deferred (configured cs) .doneSend) = 1 := rfl
      omega
    · rw [if_pos h3]
      rw [h3] at this
      have h9 : dones (deferred (configured cs) .crashed) = 0 := rfl
      omega

/-- While nobody receives from `done`, a goroutine that has panicked waits, and the panic does not show: no step but those of the
consumers is possible. -/
theorem C101_hidden {s s' : LSt} (hr : s.running = true) (hpc : s.run.pc = .doneSend) (hw : s.run.waitDone = false) (h : LStep s s') :
    s'.run.pc = .doneSend ∧ s'.panicking = s.panicking := by
  have no : ∀ {r : DSt}, DStep s.d s.run r → False := by
    intro r h
    cases h with
    | done hpc' hw' => rw [hw] at hw'; cases hw'
    | err hpc' hn => rw [hpc] at hpc'; cases hpc'
    | panic hpc' hn => rw [hpc] at hpc'; cases hpc'
    | skip hpc' => rw [hpc] at hpc'; cases hpc'
    | start hpc' => rw [hpc] at hpc'; cases hpc'
    | take hpc' => rw [hpc] at hpc'; cases hpc'
    | stop hpc' => rw [hpc] at hpc'; cases hpc'
    | pass hpc' => rw [hpc] at hpc'; cases hpc'
    | deliver hpc' => rw [hpc] at hpc'; cases hpc'
    | loop hpc' => rw [hpc] at hpc'; cases hpc'
    | close hpc' => rw [hpc] at hpc'; cases hpc'
    | closed hpc' => rw [hpc] at hpc'; cases hpc'
  cases h with
  | call c h => rw [hr] at h; cases h
  | go h => rw [hr] at h; cases h
  | step _ h => exact (no h).elim
  | finish _ h => exact (no h).elim
  | nextPanic _ hpc' => rw [hpc] at hpc'; cases hpc'
  | sendClosed _ hpc' => rw [hpc] at hpc'; cases hpc'
  | closeClosed _ hpc' => rw [hpc] at hpc'; cases hpc'
  | env h => cases h <;> exact ⟨hpc, rfl⟩

/-! ### `Go` again -/

/-- what holds in a run that begins with closed channels, `c` and `log` being the closed channels and the log at its beginning -/
structure Again (c : Nat → Bool) (log : List Ev) (s : LSt) : Prop where
  running : s.running = true
  chan : s.d.chans ≠ []
  closed : ∀ i, c i = true → s.closed i = true
  zero : c 0 = true
  pc : s.run.pc = .fetch ∨ (∃ i, s.run.pc = .send i) ∨ s.run.pc = .closing 0 ∨ s.run.pc = .crashed
  log : ∃ new, s.run.log = log ++ new ∧ ∀ x ∈ new, ∃ i p, x = .recv i p ∧ c i = false

theorem again_step {c : Nat → Bool} {log : List Ev} {s s' : LSt} (h : Again c log s) (hst : LStep s s') : Again c log s' := by
  obtain ⟨h1, h2, h3, h4, h5, new, h6, h7⟩ := h
  cases hst with
  | call c h => rw [h1] at h; cases h
  | go h => rw [h1] at h; cases h
  | @step r hr h hp hf ho =>
    have hcl : ∀ i, c i = true → s.closedAfter i = true := by
      intro i hi
      have h3i := h3 i hi
      cases hpc : s.run.pc <;> simp only [LSt.closedAfter, hpc] <;> try exact h3i
      split
      · unfold setW; split
        · rfl
        · exact h3i
      · exact h3i
    cases h with
    | err hpc hn => exact ⟨h1, h2, hcl, h4, .inr (.inr (.inl rfl)), new, h6, h7⟩
    | panic hpc hn => exact absurd rfl hp
    | skip hpc hn => exact ⟨h1, h2, hcl, h4, .inl hpc, new, h6, h7⟩
    | start hpc hn => exact ⟨h1, h2, hcl, h4, .inr (.inl ⟨_, rfl⟩), new, h6, h7⟩
    | take hpc hn => exact ⟨h1, h2, hcl, h4, .inr (.inl ⟨_, rfl⟩), new, h6, h7⟩
    | stop hpc hn => exact ⟨h1, h2, hcl, h4, .inr (.inr (.inl rfl)), new, h6, h7⟩
    | pass hpc hi => exact ⟨h1, h2, hcl, h4, .inr (.inl ⟨_, rfl⟩), new, h6, h7⟩
    | @deliver i t hpc hi ht hw =>
      refine ⟨h1, h2, hcl, h4, .inr (.inl ⟨_, rfl⟩), new ++ [.recv i s.run.st.pkt], by rw [h6, List.append_assoc], ?_⟩
      intro x hx
      rcases List.mem_append.mp hx with hx | hx
      · exact h7 x hx
      · simp at hx
        refine ⟨i, _, hx, ?_⟩
        have := ho i ⟨t, hi, .inl ⟨hpc, ht⟩⟩
        cases hci : c i with
        | false => rfl
        | true => rw [h3 i hci] at this; cases this
    | loop hpc hi => exact ⟨h1, h2, hcl, h4, .inl rfl, new, h6, h7⟩
    | @close i t hpc hi =>
      rcases h5 with h | ⟨k, h⟩ | h | h <;> rw [hpc] at h <;> cases h
      have := ho 0 ⟨t, hi, .inr hpc⟩
      rw [h3 0 h4] at this
      cases this
    | @closed i hpc hi =>
      rcases h5 with h | ⟨k, h⟩ | h | h <;> rw [hpc] at h <;> cases h
      have := List.getElem?_eq_none_iff.mp hi
      exact absurd (List.length_eq_zero_iff.mp (by omega)) h2
    | done hpc hw => rcases h5 with h | ⟨k, h⟩ | h | h <;> rw [hpc] at h <;> cases h
  | @finish r hr h hf =>
    cases h with
    | done hpc hw => rcases h5 with h | ⟨k, h⟩ | h | h <;> rw [hpc] at h <;> cases h
    | skip hpc => rw [hpc] at hf; cases hf
    | _ => cases hf
  | nextPanic => exact ⟨h1, h2, h3, h4, .inr (.inr (.inl rfl)), new, h6, h7⟩
  | sendClosed => exact ⟨h1, h2, h3, h4, .inr (.inr (.inl rfl)), new, h6, h7⟩
  | closeClosed => exact ⟨h1, h2, h3, h4, .inr (.inr (.inr rfl)), new, h6, h7⟩
  | env h => cases h <;> exact ⟨h1, h2, h3, h4, h5, new, h6, h7⟩

theorem again_of {br : BR} {cs : List Call} (hcs : wheres cs ≠ []) {s s1 s2 : LSt} (hs : LSteps (started br cs) s) (hg : s.gos = 1)
    (hr : s.running = false) (hgo : LStep s s1) (hg1 : s1.gos = 2) (h : LSteps s1 s2) :
    Again s.closed s.run.log s2 ∧ ∀ i, s.closed i = true ↔ i < (wheres cs).length := by
  obtain ⟨hc, hw, hsh⟩ := first_steps hs hg
  have hp : s.panicking = false := by
    cases hp : s.panicking with
    | false => rfl
    | true => have := (hw hp).1; rw [hr] at this; cases this
  obtain ⟨-, -, h3, -⟩ := hc hp
  have hcl : ∀ i, s.closed i = true ↔ i < (wheres cs).length := fun i => by rw [hsh, h3 hr]; simp [Shut]
  have hlen : (wheres cs).length ≠ 0 := fun h => hcs (List.length_eq_zero_iff.mp h)
  have hchan : ∀ {a : LSt}, LSteps (started br cs) a → a.d.chans ≠ [] := by
    intro a ha
    generalize hs0 : started br cs = s0 at ha
    induction ha with
    | refl => subst hs0; exact hcs
    | tail _ hst ih =>
      have ih := ih
      cases hst with
      | call c h =>
        cases c with
        | where_ t => simp [Demuxer.call]
        | skipUntil t => exact ih
        | takeWhile t => exact ih
      | _ => exact ih
  have h0 : Again s.closed s.run.log s1 := by
    have hch := hchan hs
    cases hgo with
    | go h => exact ⟨rfl, hch, fun _ h => h, (hcl 0).2 (by omega), .inl rfl, [], by simp, by simp⟩
    | _ => simp only at hg1; omega
  refine ⟨?_, hcl⟩
  induction h with
  | refl => exact h0
  | tail _ hst ih => exact again_step ih hst

/-- **C101** (again) When the first run, with at least one channel, is over, and `Go` is called again (after any further calls): in
every interleaving this run never comes to its end - `done` has yielded one value and never yields another -, none of the channels of
the first run receives anything, and every packet received is received on a channel made in between. -/
theorem C101_again {br : BR} {cs : List Call} (hcs : wheres cs ≠ []) {s s1 s2 : LSt} (hs : LSteps (started br cs) s) (hg : s.gos = 1)
    (hr : s.running = false) (hgo : LStep s s1) (hg1 : s1.gos = 2) (h : LSteps s1 s2) :
    s2.running = true ∧ s2.run.pc ≠ .doneSend ∧ s2.run.pc ≠ .finished ∧
    ∃ new, s2.run.log = s.run.log ++ new ∧ ∀ x ∈ new, ∃ i p, x = .recv i p ∧ (wheres cs).length ≤ i := by
  obtain ⟨hA, hcl⟩ := again_of hcs hs hg hr hgo hg1 h
  obtain ⟨a1, a2, a3, a4, a5, new, a6, a7⟩ := hA
  refine ⟨a1, ?_, ?_, new, a6, fun x hx => ?_⟩
  · intro h; rcases a5 with h' | ⟨k, h'⟩ | h' | h' <;> rw [h] at h' <;> cases h'
  · intro h; rcases a5 with h' | ⟨k, h'⟩ | h' | h' <;> rw [h] at h' <;> cases h'
  · obtain ⟨i, p, hx, hi⟩ := a7 x hx
    refine ⟨i, p, hx, ?_⟩
    rcases Nat.lt_or_ge i (wheres cs).length with hlt | hge
    · rw [(hcl i).2 hlt] at hi; cases hi
    · exact hge

theorem again_progress {c : Nat → Bool} {log : List Ev} {s : LSt} (h : Again c log s) :
    s.run.pc = .crashed ∨ (∃ s', LStep s s' ∧ s'.run.work s'.d < s.run.work s.d) ∨
    ∃ i t, s.run.pc = .send i ∧ s.d.chans[i]? = some t ∧ t s.run.st.pkt = true ∧ s.run.waiting i = false ∧ c i = false := by
  obtain ⟨h1, h2, h3, h4, h5, new, h6, h7⟩ := h
  have run : ∀ {r : DSt}, DStep s.d s.run r → r.pc ≠ .crashed → r.pc ≠ .finished → (∀ i, s.uses i → s.closed i = false) →
      ∃ s', LStep s s' ∧ s'.run.work s'.d < s.run.work s.d :=
    fun h a b c => ⟨_, .step h1 h a b c, C18_finitely_many_steps s.d h⟩
  have nouse : s.run.pc = .fetch → ∀ i, s.uses i → s.closed i = false := by
    rintro hpc i ⟨t, -, ⟨h, -⟩ | h⟩ <;> rw [hpc] at h <;> cases h
  rcases h5 with hpc | ⟨i, hpc⟩ | hpc | hpc
  · right; left
    cases hn : Packet.next s.run.st with
    | mk r st =>
      cases r with
      | err e' => exact run (.err hpc hn) (fun h => by cases h) (fun h => by cases h) (nouse hpc)
      | panic =>
        refine ⟨_, .nextPanic h1 hpc hn, ?_⟩
        simp only [DSt.work, hpc]
        omega
      | hang => exact absurd (by rw [hn]) (next_ne_hang s.run.st)
      | ok u =>
        cases hs : s.run.skipping with
        | true =>
          cases ht : s.d.skipUntil st.pkt with
          | true => exact run (.start hpc hn hs ht) (fun h => by cases h) (fun h => by cases h) (nouse hpc)
          | false =>
            refine run (.skip hpc hn hs ht) ?_ ?_ (nouse hpc)
            · dsimp only; rw [hpc]; exact fun h => by cases h
            · dsimp only; rw [hpc]; exact fun h => by cases h
        | false =>
          cases ht : s.d.takeWhile st.pkt with
          | true => exact run (.take hpc hn hs ht) (fun h => by cases h) (fun h => by cases h) (nouse hpc)
          | false => exact run (.stop hpc hn hs ht) (fun h => by cases h) (fun h => by cases h) (nouse hpc)
  · cases hi : s.d.chans[i]? with
    | none =>
      right; left
      refine run (.loop hpc hi) (fun h => by cases h) (fun h => by cases h) ?_
      rintro j ⟨t, hj, ⟨h, -⟩ | h⟩ <;> rw [hpc] at h <;> cases h
      rw [hi] at hj; cases hj
    | some t =>
      cases ht : t s.run.st.pkt with
      | false =>
        right; left
        refine run (.pass hpc hi ht) (fun h => by cases h) (fun h => by cases h) ?_
        rintro j ⟨t', hj, ⟨h, h'⟩ | h⟩ <;> rw [hpc] at h <;> cases h
        rw [hi] at hj; cases hj; rw [ht] at h'; cases h'
      | true =>
        cases hcl : s.closed i with
        | true =>
          right; left
          refine ⟨_, .sendClosed h1 hpc hi ht hcl, ?_⟩
          simp only [DSt.work, hpc]
          omega
        | false =>
          have hci : c i = false := by
            cases hci : c i with
            | false => rfl
            | true => rw [h3 i hci] at hcl; cases hcl
          cases hw : s.run.waiting i with
          | true =>
            right; left
            refine run (.deliver hpc hi ht hw) (fun h => by cases h) (fun h => by cases h) ?_
            rintro j ⟨t', hj, ⟨h, h'⟩ | h⟩ <;> rw [hpc] at h <;> cases h
            exact hcl
          | false => right; right; exact ⟨i, t, hpc, hi, ht, hw, hci⟩
  · right; left
    cases hi : s.d.chans[0]? with
    | none => exact absurd (List.length_eq_zero_iff.mp (by have := List.getElem?_eq_none_iff.mp hi; omega)) h2
    | some t =>
      refine ⟨_, .closeClosed h1 hpc hi (h3 0 h4), ?_⟩
      simp only [DSt.work, hpc]
      omega
  · exact .inl hpc

/-- **C101** (crash) And it runs into its crash: unless it waits for the receiver of a channel made in between, the goroutine has a
step that decreases the work left. -/
theorem C101_crash {br : BR} {cs : List Call} (hcs : wheres cs ≠ []) {s s1 s2 : LSt} (hs : LSteps (started br cs) s) (hg : s.gos = 1)
    (hr : s.running = false) (hgo : LStep s s1) (hg1 : s1.gos = 2) (h : LSteps s1 s2) :
    s2.run.pc = .crashed ∨ (∃ s', LStep s2 s' ∧ s'.run.work s'.d < s2.run.work s2.d) ∨
    ∃ i t, s2.run.pc = .send i ∧ s2.d.chans[i]? = some t ∧ t s2.run.st.pkt = true ∧ s2.run.waiting i = false ∧
      (wheres cs).length ≤ i := by
  obtain ⟨hA, hcl⟩ := again_of hcs hs hg hr hgo hg1 h
  rcases again_progress hA with h | h | ⟨i, t, h1, h2, h3, h4, h5⟩
  · exact .inl h
  · exact .inr (.inl h)
  · refine .inr (.inr ⟨i, t, h1, h2, h3, h4, ?_⟩)
    rcases Nat.lt_or_ge i (wheres cs).length with hlt | hge
    · rw [(hcl i).2 hlt] at h5; cases h5
    · exact hge

/-- `Go` does not clear the error of an earlier run, and neither does anything else: once `Err` has reported an error it reports one
for ever, also if a later run was ended by `TakeWhile`. -/
theorem C101_err_kept {s s' : LSt} (h : LSteps s s') (he : s.run.lastErr ≠ none) : s'.run.lastErr ≠ none := by
  have dstep : ∀ {d : Demuxer} {a b : DSt}, DStep d a b → a.lastErr ≠ none → b.lastErr ≠ none := by
    intro d a b h
    cases h <;> first | exact fun h => h | exact fun _ h => by cases h
  induction h with
  | refl => exact he
  | tail _ hst ih =>
    cases hst with
    | step _ h => exact dstep h ih
    | finish _ h =>
      have := dstep h ih
      dsimp only
      split <;> exact this
    | env h => cases h <;> exact ih
    | _ => exact ih

/-! ### examples -/

/-- The situation of `C101_again` and its end: one channel, an empty source; the first run finishes, the second one crashes. -/
theorem C101_again_false : ∃ s s1 s2 : LSt, LSteps (started (.ofBits []) [.where_ alwaysTrue]) s ∧ s.gos = 1 ∧ s.running = false ∧
    LStep s s1 ∧ s1.gos = 2 ∧ LSteps s1 s2 ∧ s2.run.pc = .crashed := by
  have hn : ∀ p, Packet.next ⟨p, .ofBits []⟩ = (.err .eof, ⟨p, .ofBits []⟩) := fun p => next_at_end rfl rfl rfl
  have ho : ∀ (s : LSt), (∀ i, s.closed i = false) → ∀ i, s.uses i → s.closed i = false := fun s h i _ => h i
  refine ⟨_, _, _, .tail (.tail (.tail (.tail (.tail (.refl _)
    (.step rfl (.err rfl (hn _)) (fun h => by cases h) (fun h => by cases h) (ho _ fun _ => rfl)))
    (.step rfl (.close (i := 0) (t := alwaysTrue) rfl rfl) (fun h => by cases h) (fun h => by cases h) (ho _ fun _ => rfl)))
    (.step rfl (.closed (i := 1) rfl rfl) (fun h => by cases h) (fun h => by cases h) ?_))
    (.env (.readyDone _) (fun h => by cases h)))
    (.finish rfl (.done rfl rfl) rfl), rfl, rfl, .go rfl, rfl,
    .tail (.tail (.refl _) (.step rfl (.err rfl (hn _)) (fun h => by cases h) (fun h => by cases h) ?_))
      (.closeClosed (i := 0) (t := alwaysTrue) rfl rfl rfl rfl), rfl⟩
  · rintro i ⟨t, h1, ⟨h, -⟩ | h⟩
    · cases h
    · cases h; cases h1
  · rintro i ⟨t, h1, ⟨h, -⟩ | h⟩ <;> cases h

/-- The situation of `C101_panic`, its first packet being the one of `C06_panics`. -/
theorem C101_panic_reached {br : BR} {st : St} (h : Packet.next ⟨Packet.new, br⟩ = (.panic, st)) :
    ∃ s, LSteps (started br [.where_ alwaysTrue]) s ∧ s.gos = 1 ∧ s.panicking = true ∧ s.run.pc = .crashed := by
  refine ⟨_, .tail (.tail (.tail (.tail (.tail (.refl _)
    (.nextPanic rfl rfl h))
    (.step rfl (.close (i := 0) (t := alwaysTrue) rfl rfl) (fun h => by cases h) (fun h => by cases h) (fun _ _ => rfl)))
    (.step rfl (.closed (i := 1) rfl rfl) (fun h => by cases h) (fun h => by cases h) ?_))
    (.env (.readyDone _) (fun h => by cases h)))
    (.finish rfl (.done rfl rfl) rfl), rfl, rfl, rfl⟩
  rintro i ⟨t, h1, ⟨h, -⟩ | h⟩
  · cases h
  · cases h; cases h1

end Mpeg.TS
