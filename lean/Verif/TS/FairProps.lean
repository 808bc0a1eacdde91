/-
Property theorem C108: the demuxer under fair schedules, and what a consumer that stops receiving does to the
others.
-/
import Verif.TS.DemuxProps
set_option linter.all false
namespace Mpeg.TS
open Spec

namespace Spec

/-- An infinite run: it starts where `Go` starts the goroutine, and at every moment the goroutine makes a step, or
a consumer starts a receive, or nothing happens. -/
structure Schedule (d : Demuxer) (br : BR) (σ : Nat → DSt) : Prop where
  init : σ 0 = DSt.new br
  step : ∀ n, DStep d (σ n) (σ (n + 1)) ∨ EStep (σ n) (σ (n + 1)) ∨ σ (n + 1) = σ n

/-- The goroutine is not starved: if it can make a step, then it makes one at that time or later. -/
def Fair (d : Demuxer) (σ : Nat → DSt) : Prop :=
  ∀ n, (∃ s', DStep d (σ n) s') → ∃ m, n ≤ m ∧ DStep d (σ m) (σ (m + 1))

/-- The consumer of channel `i` keeps receiving until the channel is closed. -/
def Keen (i : Nat) (σ : Nat → DSt) : Prop :=
  ∀ n, ∃ m, n ≤ m ∧ ((σ m).waiting i = true ∨ closes i (σ m).log ≠ 0)

/-- Somebody receives from `done`. -/
def KeenDone (σ : Nat → DSt) : Prop :=
  ∀ n, ∃ m, n ≤ m ∧ ((σ m).waitDone = true ∨ dones (σ m).log ≠ 0)

/-- Runs in which the consumer of channel `i` starts no further receive. -/
inductive Without (d : Demuxer) (i : Nat) : DSt → DSt → Prop
  | refl (s : DSt) : Without d i s s
  | demux {s s1 s2 : DSt} : Without d i s s1 → DStep d s1 s2 → Without d i s s2
  | ready {s s1 : DSt} (j : Nat) : Without d i s s1 → j ≠ i →
      Without d i s { s1 with waiting := setW s1.waiting j true }
  | readyDone {s s1 : DSt} : Without d i s s1 → Without d i s { s1 with waitDone := true }

end Spec

/-! ### schedules -/

theorem schedule_reach {d : Demuxer} {br : BR} {σ : Nat → DSt} (h : Schedule d br σ) :
    ∀ n, Reach d br (σ n)
  | 0 => h.init ▸ .init
  | n + 1 => by
    rcases h.step n with hs | hs | hs
    · exact .demux (schedule_reach h n) hs
    · exact .env (schedule_reach h n) hs
    · rw [hs]; exact schedule_reach h n

theorem work_env (d : Demuxer) {s s' : DSt} (h : EStep s s') : s'.work d = s.work d := by
  cases h <;> rfl

theorem work_le {d : Demuxer} {br : BR} {σ : Nat → DSt} (h : Schedule d br σ) (n k : Nat) :
    (σ (n + k)).work d ≤ (σ n).work d := by
  induction k with
  | zero => exact Nat.le_refl _
  | succ k ih =>
    rcases h.step (n + k) with hs | hs | hs
    · exact Nat.le_trans (Nat.le_of_lt (C18_finitely_many_steps d hs)) ih
    · exact Nat.le_trans (Nat.le_of_eq (work_env d hs)) ih
    · show (σ (n + k + 1)).work d ≤ _
      rw [hs]; exact ih

/-- between two moments the goroutine makes a step, or its own state stays what it was -/
theorem quiet {d : Demuxer} {br : BR} {σ : Nat → DSt} (h : Schedule d br σ) (n k : Nat) :
    (∃ m, n ≤ m ∧ DStep d (σ m) (σ (m + 1))) ∨
    ((σ (n + k)).pc = (σ n).pc ∧ (σ (n + k)).st = (σ n).st ∧ (σ (n + k)).log = (σ n).log) := by
  induction k with
  | zero => exact .inr ⟨rfl, rfl, rfl⟩
  | succ k ih =>
    rcases ih with ih | ⟨h1, h2, h3⟩
    · exact .inl ih
    rcases h.step (n + k) with hs | hs | hs
    · exact .inl ⟨_, Nat.le_add_right _ _, hs⟩
    · right
      show (σ (n + k + 1)).pc = _ ∧ (σ (n + k + 1)).st = _ ∧ (σ (n + k + 1)).log = _
      rw [← h1, ← h2, ← h3]
      generalize σ (n + k) = a at hs ⊢
      generalize σ (n + k + 1) = b at hs ⊢
      cases hs <;> exact ⟨rfl, rfl, rfl⟩
    · right
      show (σ (n + k + 1)).pc = _ ∧ (σ (n + k + 1)).st = _ ∧ (σ (n + k + 1)).log = _
      rw [hs]; exact ⟨h1, h2, h3⟩

/-- while packets are being sent no channel has been closed -/
theorem send_open (d : Demuxer) (br : BR) {ps : List Packet} {e : Err} {s' : St}
    (h : Ends ⟨Packet.new, br⟩ ps e s') {s : DSt} (hr : Reach d br s) {i : Nat} (hpc : s.pc = .send i) (j : Nat) :
    closes j s.log = 0 := by
  obtain ⟨rest, h1, h2⟩ := reach_inv d br h hr
  simp only [Rest, hpc] at h2
  obtain ⟨qs, s1, s2, -, -, -, -, -, hrest⟩ := h2
  have h3 := closes_canonical d ps j
  rw [← h1, hrest, closes_append, closes_append, closes_append, closes_append, closes_closeAll] at h3
  simp only [Nat.zero_le, true_and, Nat.zero_add] at h3
  split at h3 <;> omega

theorem doneSend_open (d : Demuxer) (br : BR) {ps : List Packet} {e : Err} {s' : St}
    (h : Ends ⟨Packet.new, br⟩ ps e s') {s : DSt} (hr : Reach d br s) (hpc : s.pc = .doneSend) :
    dones s.log = 0 := by
  obtain ⟨rest, h1, h2⟩ := reach_inv d br h hr
  simp only [Rest, hpc] at h2
  have h3 := dones_canonical d ps
  rw [← h1, h2.2, dones_append] at h3
  have : dones [Ev.done] = 1 := rfl
  omega

/-- the goroutine does not rest before all channels are closed -/
theorem moves {d : Demuxer} {br : BR} {ps : List Packet} {e : Err} {s' : St}
    (h : Ends ⟨Packet.new, br⟩ ps e s') {σ : Nat → DSt} (hσ : Schedule d br σ) (hf : Fair d σ)
    (hk : ∀ i, i < d.chans.length → Keen i σ) (n : Nat) :
    (σ n).pc = .finished ∨ (σ n).pc = .doneSend ∨ ∃ m, n ≤ m ∧ DStep d (σ m) (σ (m + 1)) := by
  rcases C18_progress d br h (schedule_reach hσ n) with hp | hp | ⟨i, t, hpc, hi, ht, hw⟩ | ⟨hp, -⟩
  · exact .inl hp
  · exact .inr (.inr (hf n hp))
  · obtain ⟨m, hm, hm'⟩ := hk i (List.getElem?_eq_some_iff.mp hi).1 n
    obtain ⟨k, rfl⟩ := Nat.exists_eq_add_of_le hm
    rcases quiet hσ n k with hq | ⟨h1, h2, h3⟩
    · exact .inr (.inr hq)
    · rcases hm' with hm' | hm'
      · obtain ⟨m, hmm, hst⟩ := hf (n + k) ⟨_, .deliver (h1.trans hpc) hi (by rw [h2]; exact ht) hm'⟩
        exact .inr (.inr ⟨m, Nat.le_trans hm hmm, hst⟩)
      · rw [h3] at hm'
        exact absurd (send_open d br h (schedule_reach hσ n) hpc i) hm'
  · exact .inr (.inl hp)

theorem live_aux {d : Demuxer} {br : BR} {ps : List Packet} {e : Err} {s' : St}
    (h : Ends ⟨Packet.new, br⟩ ps e s') {σ : Nat → DSt} (hσ : Schedule d br σ) (hf : Fair d σ)
    (hk : ∀ i, i < d.chans.length → Keen i σ) : ∀ w n, (σ n).work d ≤ w →
    ∃ m, n ≤ m ∧ ((σ m).pc = .finished ∨ (σ m).pc = .doneSend) := by
  intro w
  induction w with
  | zero =>
    intro n hn
    rcases moves h hσ hf hk n with h1 | h1 | ⟨m, hm, hst⟩
    · exact ⟨n, Nat.le_refl _, .inl h1⟩
    · exact ⟨n, Nat.le_refl _, .inr h1⟩
    · obtain ⟨k, rfl⟩ := Nat.exists_eq_add_of_le hm
      have := C18_finitely_many_steps d hst
      have := work_le hσ n k
      omega
  | succ w ih =>
    intro n hn
    rcases moves h hσ hf hk n with h1 | h1 | ⟨m, hm, hst⟩
    · exact ⟨n, Nat.le_refl _, .inl h1⟩
    · exact ⟨n, Nat.le_refl _, .inr h1⟩
    · obtain ⟨k, rfl⟩ := Nat.exists_eq_add_of_le hm
      have := C18_finitely_many_steps d hst
      have := work_le hσ n k
      obtain ⟨m', hm', hx⟩ := ih (n + k + 1) (by omega)
      exact ⟨m', by omega, hx⟩

/-- once past the packets, always past them -/
theorem late_step {d : Demuxer} {br : BR} {σ : Nat → DSt} (hσ : Schedule d br σ) {n : Nat}
    (h : (σ n).pc = .finished ∨ (σ n).pc = .doneSend) :
    (σ (n + 1)).pc = .finished ∨ (σ (n + 1)).pc = .doneSend := by
  rcases hσ.step n with hs | hs | hs
  · generalize σ n = a at h hs
    generalize σ (n + 1) = b at hs ⊢
    cases hs <;> rename_i hpc _ <;> first | (rw [hpc] at h; simp at h; done) | skip
    all_goals first | exact .inl rfl | (simp_all; done)
  · generalize σ n = a at h hs
    generalize σ (n + 1) = b at hs ⊢
    cases hs <;> exact h
  · rw [hs]; exact h

theorem late {d : Demuxer} {br : BR} {σ : Nat → DSt} (hσ : Schedule d br σ) {n : Nat}
    (h : (σ n).pc = .finished ∨ (σ n).pc = .doneSend) (k : Nat) :
    (σ (n + k)).pc = .finished ∨ (σ (n + k)).pc = .doneSend := by
  induction k with
  | zero => exact h
  | succ k ih => exact late_step hσ ih

theorem fin_step {d : Demuxer} {br : BR} {σ : Nat → DSt} (hσ : Schedule d br σ) {n : Nat}
    (h : (σ n).pc = .finished) : (σ (n + 1)).pc = .finished := by
  rcases hσ.step n with hs | hs | hs
  · generalize σ n = a at h hs
    generalize σ (n + 1) = b at hs ⊢
    cases hs <;> simp_all
  · generalize σ n = a at h hs
    generalize σ (n + 1) = b at hs ⊢
    cases hs <;> exact h
  · rw [hs]; exact h

theorem fin {d : Demuxer} {br : BR} {σ : Nat → DSt} (hσ : Schedule d br σ) {n : Nat}
    (h : (σ n).pc = .finished) (k : Nat) : (σ (n + k)).pc = .finished := by
  induction k with
  | zero => exact h
  | succ k ih => exact fin_step hσ ih

/-- past the packets everything is delivered and every channel is closed -/
theorem late_log (d : Demuxer) (br : BR) {ps : List Packet} {e : Err} {s' : St}
    (h : Ends ⟨Packet.new, br⟩ ps e s') {s : DSt} (hr : Reach d br s)
    (hpc : s.pc = .finished ∨ s.pc = .doneSend) :
    (∀ i t, d.chans[i]? = some t → received i s.log = (window d.skipUntil d.takeWhile ps).filter t) ∧
    (∀ i, i < d.chans.length → closes i s.log = 1) ∧
    s.lastErr = finalErr d.skipUntil d.takeWhile e ps := by
  obtain ⟨rest, h1, h2⟩ := reach_inv d br h hr
  have hrest : (rest = [] ∨ rest = [Ev.done]) ∧ s.lastErr = finalErr d.skipUntil d.takeWhile e ps := by
    rcases hpc with hpc | hpc <;> simp only [Rest, hpc] at h2
    · exact ⟨.inl h2.2, h2.1⟩
    · exact ⟨.inr h2.2, h2.1⟩
  refine ⟨fun i t hi => ?_, fun i hi => ?_, hrest.2⟩
  · have h3 := received_canonical d ps hi
    rw [← h1, received_append] at h3
    rcases hrest.1 with rfl | rfl <;> simpa [received] using h3
  · have h3 := closes_canonical d ps i
    rw [← h1, closes_append, if_pos hi] at h3
    rcases hrest.1 with rfl | rfl <;> simpa [closes] using h3

/-- **C108.** Liveness.  If the goroutine is not starved and every consumer keeps receiving until its channel is
closed, then from some moment on every channel has delivered all its packets and is closed, and `Err()` is the
final one; and if somebody receives from `done`, the goroutine ends and `done` has yielded its value. -/
theorem C108_live (d : Demuxer) (br : BR) {ps : List Packet} {e : Err} {s' : St}
    (h : Ends ⟨Packet.new, br⟩ ps e s') {σ : Nat → DSt} (hσ : Schedule d br σ) (hf : Fair d σ)
    (hk : ∀ i, i < d.chans.length → Keen i σ) :
    (∃ n, ∀ m, n ≤ m →
      (∀ i t, d.chans[i]? = some t → received i (σ m).log = (window d.skipUntil d.takeWhile ps).filter t) ∧
      (∀ i, i < d.chans.length → closes i (σ m).log = 1) ∧
      (σ m).lastErr = finalErr d.skipUntil d.takeWhile e ps) ∧
    (KeenDone σ → ∃ n, ∀ m, n ≤ m → (σ m).pc = .finished ∧ dones (σ m).log = 1) := by
  obtain ⟨n, -, hn⟩ := live_aux h hσ hf hk _ 0 (Nat.le_refl _)
  refine ⟨⟨n, fun m hm => ?_⟩, fun hd => ?_⟩
  · obtain ⟨k, rfl⟩ := Nat.exists_eq_add_of_le hm
    exact late_log d br h (schedule_reach hσ _) (late hσ hn k)
  · have key : ∃ n, (σ n).pc = .finished := by
      rcases hn with hn | hn
      · exact ⟨n, hn⟩
      obtain ⟨m, hm, hm'⟩ := hd n
      obtain ⟨k, rfl⟩ := Nat.exists_eq_add_of_le hm
      rcases late hσ (.inr hn) k with hl | hl
      · exact ⟨_, hl⟩
      · rcases hm' with hm' | hm'
        · obtain ⟨m, hmm, hst⟩ := hf (n + k) ⟨_, .done hl hm'⟩
          obtain ⟨k', rfl⟩ := Nat.exists_eq_add_of_le hmm
          refine ⟨n + k + k' + 1, ?_⟩
          rcases late hσ (.inr hl) k' with hl' | hl'
          · exact fin_step hσ hl'
          · generalize σ (n + k + k') = a at hst hl'
            generalize σ (n + k + k' + 1) = b at hst ⊢
            cases hst <;> simp_all
        · exact absurd (doneSend_open d br h (schedule_reach hσ _) hl) hm'
    obtain ⟨n, hn⟩ := key
    refine ⟨n, fun m hm => ?_⟩
    obtain ⟨k, rfl⟩ := Nat.exists_eq_add_of_le hm
    have hfin := fin hσ hn k
    exact ⟨hfin, ((C18_termination d br h (schedule_reach hσ _)).2.2.2.2.2 hfin).2.1⟩

/-! ### fair schedules exist -/

/-- a receive that starts does not take away a step of the goroutine -/
theorem enabled_env {d : Demuxer} {s s1 s' : DSt} (h : DStep d s s1) (he : EStep s s') : ∃ s2, DStep d s' s2 := by
  have hmono : ∀ i j, s.waiting i = true → setW s.waiting j true i = true := by
    intro i j hw; unfold setW; split <;> simp [hw]
  cases he with
  | ready j =>
    cases h with
    | err hpc hn => exact ⟨_, .err hpc hn⟩
    | panic hpc hn => exact ⟨_, .panic hpc hn⟩
    | skip hpc hn hs ht => exact ⟨_, .skip hpc hn hs ht⟩
    | start hpc hn hs ht => exact ⟨_, .start hpc hn hs ht⟩
    | take hpc hn hs ht => exact ⟨_, .take hpc hn hs ht⟩
    | stop hpc hn hs ht => exact ⟨_, .stop hpc hn hs ht⟩
    | pass hpc hi ht => exact ⟨_, .pass hpc hi ht⟩
    | deliver hpc hi ht hw => exact ⟨_, .deliver hpc hi ht (hmono _ _ hw)⟩
    | loop hpc hi => exact ⟨_, .loop hpc hi⟩
    | close hpc hi => exact ⟨_, .close hpc hi⟩
    | closed hpc hi => exact ⟨_, .closed hpc hi⟩
    | done hpc hw => exact ⟨_, .done hpc hw⟩
  | readyDone =>
    cases h with
    | err hpc hn => exact ⟨_, .err hpc hn⟩
    | panic hpc hn => exact ⟨_, .panic hpc hn⟩
    | skip hpc hn hs ht => exact ⟨_, .skip hpc hn hs ht⟩
    | start hpc hn hs ht => exact ⟨_, .start hpc hn hs ht⟩
    | take hpc hn hs ht => exact ⟨_, .take hpc hn hs ht⟩
    | stop hpc hn hs ht => exact ⟨_, .stop hpc hn hs ht⟩
    | pass hpc hi ht => exact ⟨_, .pass hpc hi ht⟩
    | deliver hpc hi ht hw => exact ⟨_, .deliver hpc hi ht hw⟩
    | loop hpc hi => exact ⟨_, .loop hpc hi⟩
    | close hpc hi => exact ⟨_, .close hpc hi⟩
    | closed hpc hi => exact ⟨_, .closed hpc hi⟩
    | done hpc hw => exact ⟨_, .done hpc rfl⟩

open Classical in
/-- what happens at moment `n` of the schedule that serves everybody in turn: the goroutine at even moments, at
odd moments the `done` receiver or the consumer whose turn it is -/
noncomputable def turn (d : Demuxer) (n : Nat) (s : DSt) : DSt :=
  if n % 2 = 0 then (if h : ∃ s', DStep d s s' then h.choose else s)
  else if n / 2 % (d.chans.length + 1) = d.chans.length then { s with waitDone := true }
  else { s with waiting := setW s.waiting (n / 2 % (d.chans.length + 1)) true }

noncomputable def inTurn (d : Demuxer) (br : BR) : Nat → DSt
  | 0 => DSt.new br
  | n + 1 => turn d n (inTurn d br n)

theorem inTurn_schedule (d : Demuxer) (br : BR) : Schedule d br (inTurn d br) := by
  refine ⟨rfl, fun n => ?_⟩
  show DStep d _ (turn d n _) ∨ EStep _ (turn d n _) ∨ turn d n _ = _
  generalize inTurn d br n = s
  unfold turn
  split
  · split
    · rename_i h; exact .inl h.choose_spec
    · exact .inr (.inr rfl)
  · split
    · exact .inr (.inl (.readyDone s))
    · exact .inr (.inl (.ready s _))

theorem inTurn_fair (d : Demuxer) (br : BR) : Fair d (inTurn d br) := by
  have even : ∀ n, n % 2 = 0 → (∃ s', DStep d (inTurn d br n) s') →
      DStep d (inTurn d br n) (inTurn d br (n + 1)) := by
    intro n hn hex
    show DStep d _ (turn d n _)
    unfold turn
    rw [if_pos hn, dif_pos hex]
    exact hex.choose_spec
  intro n hex
  by_cases hn : n % 2 = 0
  · exact ⟨n, Nat.le_refl _, even n hn hex⟩
  · refine ⟨n + 1, Nat.le_succ _, even (n + 1) (by omega) ?_⟩
    obtain ⟨s', hs'⟩ := hex
    have he : EStep (inTurn d br n) (inTurn d br (n + 1)) := by
      show EStep _ (turn d n _)
      unfold turn
      rw [if_neg hn]
      split
      · exact .readyDone _
      · exact .ready _ _
    exact enabled_env hs' he

theorem turn_arith (n i N : Nat) (h : i < N) :
    ∃ m, n ≤ m ∧ m % 2 ≠ 0 ∧ m / 2 % N = i := by
  refine ⟨2 * (N * n + i) + 1, ?_, by omega, ?_⟩
  · have : n ≤ N * n := Nat.le_mul_of_pos_left n (by omega)
    omega
  · rw [show (2 * (N * n + i) + 1) / 2 = N * n + i by omega, Nat.mul_add_mod, Nat.mod_eq_of_lt h]

/-- Every demuxer on every source has a fair schedule in which all consumers keep receiving: the hypotheses of
`C108_live` can always be met. -/
theorem C108_fair_exists (d : Demuxer) (br : BR) :
    ∃ σ, Schedule d br σ ∧ Fair d σ ∧ (∀ i, i < d.chans.length → Keen i σ) ∧ KeenDone σ := by
  refine ⟨inTurn d br, inTurn_schedule d br, inTurn_fair d br, fun i hi n => ?_, fun n => ?_⟩
  · obtain ⟨m, hm, ho, hm'⟩ := turn_arith n i (d.chans.length + 1) (by omega)
    refine ⟨m + 1, by omega, .inl ?_⟩
    show (turn d m _).waiting i = true
    unfold turn
    rw [if_neg ho, if_neg (by omega), hm']
    simp [setW]
  · obtain ⟨m, hm, ho, hm'⟩ := turn_arith n d.chans.length (d.chans.length + 1) (by omega)
    refine ⟨m + 1, by omega, .inl ?_⟩
    show (turn d m _).waitDone = true
    unfold turn
    rw [if_neg ho, if_pos hm']

/-! ### a consumer that stops receiving -/

theorem sends_app (p : Packet) : ∀ (a b : List Tester) (k : Nat),
    sends k (a ++ b) p = sends k a p ++ sends (k + a.length) b p
  | [], b, k => by simp [sends]
  | t :: a, b, k => by
    rw [List.cons_append, sends, sends, sends_app p a b (k + 1), List.append_assoc, List.length_cons,
      show k + 1 + a.length = k + (a.length + 1) by omega]

theorem received_flat (d : Demuxer) {i : Nat} {t : Tester} (hi : d.chans[i]? = some t) (l : List Packet) :
    received i (l.flatMap (sends 0 d.chans)) = l.filter t := by
  induction l with
  | nil => rfl
  | cons p l ih =>
    rw [List.flatMap_cons, received_append, ih, received_sends]
    simp only [Nat.zero_le, if_true, Nat.sub_zero, hi]
    by_cases h : t p <;> simp [h]

/-- **C108.** The demuxer runs in lockstep with its slowest consumer.  Let `q` be a packet of the window that
channel `i` takes.  As long as the consumer of channel `i` has not received `q`, the channels before `i` have
received nothing after `q`, the channels after `i` nothing from `q` on, no channel is closed, `done` has yielded
nothing and the goroutine has not ended. -/
theorem C108_lockstep (d : Demuxer) (br : BR) {ps : List Packet} {e : Err} {s' : St}
    (h : Ends ⟨Packet.new, br⟩ ps e s') {s : DSt} (hr : Reach d br s) {i : Nat} {t : Tester}
    (hi : d.chans[i]? = some t) {pre post : List Packet} {q : Packet}
    (hw : window d.skipUntil d.takeWhile ps = pre ++ q :: post) (ht : t q = true)
    (hn : (received i s.log).length ≤ (pre.filter t).length) :
    (∀ j tj, d.chans[j]? = some tj →
      received j s.log <+: (if j < i then pre ++ [q] else pre).filter tj) ∧
    (∀ j, closes j s.log = 0) ∧ dones s.log = 0 ∧ s.pc ≠ .finished := by
  obtain ⟨rest, h1, h2⟩ := reach_inv d br h hr
  have hil := (List.getElem?_eq_some_iff.mp hi).1
  have hch : d.chans = d.chans.take i ++ t :: d.chans.drop (i + 1) := by
    rw [← drop_some hi, List.take_append_drop]
  have hq : sends 0 d.chans q =
      sends 0 (d.chans.take i) q ++ (Ev.recv i q :: sends (i + 1) (d.chans.drop (i + 1)) q) := by
    conv => lhs; rw [hch]
    rw [sends_app, sends, List.length_take, Nat.min_eq_left (Nat.le_of_lt hil), if_pos ht, Nat.zero_add]
    rfl
  have hcan : canonical d ps = (pre.flatMap (sends 0 d.chans) ++ sends 0 (d.chans.take i) q) ++
      ([Ev.recv i q] ++ (sends (i + 1) (d.chans.drop (i + 1)) q ++ (post.flatMap (sends 0 d.chans) ++
        (closeAll 0 d.chans ++ [.done])))) := by
    unfold canonical
    rw [hw, List.flatMap_append, List.flatMap_cons, hq]
    simp only [List.append_assoc, List.cons_append, List.nil_append]
  have recvA : ∀ j tj, d.chans[j]? = some tj →
      received j (pre.flatMap (sends 0 d.chans) ++ sends 0 (d.chans.take i) q) =
        (if j < i then pre ++ [q] else pre).filter tj := by
    intro j tj hj
    rw [received_append, received_flat d hj, received_sends]
    simp only [Nat.zero_le, if_true, Nat.sub_zero]
    by_cases hji : j < i
    · rw [if_pos hji, List.getElem?_take_of_lt hji, hj, List.filter_append]
      by_cases htq : tj q <;> simp [htq]
    · rw [if_neg hji, List.getElem?_take_eq_none (by omega)]
      simp
  rw [hcan] at h1
  have hpre : ∃ l, pre.flatMap (sends 0 d.chans) ++ sends 0 (d.chans.take i) q = s.log ++ l ∧ rest ≠ [] := by
    rcases List.append_eq_append_iff.mp h1 with ⟨l, a, b⟩ | ⟨l, a, b⟩
    · exact ⟨l, a, by rw [b]; simp⟩
    · cases l with
      | nil => exact ⟨[], by rw [a]; simp, by intro h0; rw [h0] at b; simp at b⟩
      | cons x l =>
        exfalso
        simp only [List.cons_append, List.nil_append, List.cons.injEq] at b
        have e1 : received i (x :: l) = q :: received i l := by rw [← b.1]; simp [received]
        rw [a, received_append, recvA i t hi, if_neg (Nat.lt_irrefl i), e1, List.length_append,
          List.length_cons] at hn
        omega
  obtain ⟨l, hl, hne⟩ := hpre
  refine ⟨fun j tj hj => ?_, fun j => ?_, ?_, fun hf => hne (finished_rest h2 hf).1⟩
  · rw [← recvA j tj hj, hl, received_append]
    exact List.prefix_append _ _
  · have : closes j (pre.flatMap (sends 0 d.chans) ++ sends 0 (d.chans.take i) q) = 0 := by
      rw [closes_append, closes_flat, closes_sends]
    rw [hl, closes_append] at this
    omega
  · have : dones (pre.flatMap (sends 0 d.chans) ++ sends 0 (d.chans.take i) q) = 0 := by
      rw [dones_append, dones_flat, dones_sends]
    rw [hl, dones_append] at this
    omega

/-- nothing arrives on a channel whose consumer has stopped -/
theorem without_inv {d : Demuxer} {br : BR} {i : Nat} {s s1 : DSt} (h : Without d i s s1) (hr : Reach d br s)
    (hw : s.waiting i = false) :
    Reach d br s1 ∧ s1.waiting i = false ∧ received i s1.log = received i s.log := by
  induction h with
  | refl => exact ⟨hr, hw, rfl⟩
  | @demux s1 s2 _ hst ih =>
    obtain ⟨h1, h2, h3⟩ := ih
    refine ⟨.demux h1 hst, ?_⟩
    cases hst <;> try exact ⟨h2, h3⟩
    · rename_i k t hpc hk ht hwk
      have hki : k ≠ i := by rintro rfl; rw [h2] at hwk; exact absurd hwk (by simp)
      refine ⟨?_, ?_⟩
      · simp [setW, h2]
      · rw [received_append, h3]; simp [received, hki]
    · exact ⟨h2, by rw [received_append, h3]; simp [received]⟩
    · exact ⟨h2, by rw [received_append, h3]; simp [received]⟩
  | ready j _ hj ih =>
    obtain ⟨h1, h2, h3⟩ := ih
    refine ⟨.env h1 (.ready _ j), ?_, h3⟩
    simp [setW, h2, Ne.symm hj]
  | readyDone _ ih => exact ⟨.env ih.1 (.readyDone _), ih.2⟩

/-- **C108 (the full claim is false).** One consumer that stops receiving stops everybody: if the consumer of
channel `i` starts no further receive although `q` is still to come, then in all of the rest of the run, however
ready the other consumers are, they get nothing beyond `q`, no channel is ever closed (so a consumer that ranges over its
channel never ends), `done` never yields a value and the goroutine never ends. -/
theorem C108_abandoned (d : Demuxer) (br : BR) {ps : List Packet} {e : Err} {s' : St}
    (h : Ends ⟨Packet.new, br⟩ ps e s') {s : DSt} (hr : Reach d br s) {i : Nat} {t : Tester}
    (hi : d.chans[i]? = some t) (hwt : s.waiting i = false) {pre post : List Packet} {q : Packet}
    (hw : window d.skipUntil d.takeWhile ps = pre ++ q :: post) (ht : t q = true)
    (hn : (received i s.log).length ≤ (pre.filter t).length) {s1 : DSt} (hs1 : Without d i s s1) :
    (∀ j tj, d.chans[j]? = some tj →
      received j s1.log <+: (if j < i then pre ++ [q] else pre).filter tj) ∧
    (∀ j, closes j s1.log = 0) ∧ dones s1.log = 0 ∧ s1.pc ≠ .finished := by
  obtain ⟨h1, -, h3⟩ := without_inv hs1 hr hwt
  exact C108_lockstep d br h h1 hi hw ht (by rw [h3]; exact hn)

/-- **C108.** And the goroutine does not end either if nobody receives from `done`. -/
theorem C108_done_unread (d : Demuxer) (br : BR) {ps : List Packet} {e : Err} {s' : St}
    (h : Ends ⟨Packet.new, br⟩ ps e s') {s : DSt} (hr : Reach d br s) (hd : dones s.log = 0) :
    s.pc ≠ .finished := by
  intro hf
  have := ((C18_termination d br h hr).2.2.2.2.2 hf).2.1
  omega

/-- The hypotheses of `C108_abandoned` are met at the very start: two packets on two PIDs, two channels that take
everything, the consumer of channel 0 never receives; then channel 1 never gets anything. -/
example : ∃ (br : BR), ∀ s1, Without ⟨[alwaysTrue, alwaysTrue], alwaysTrue, alwaysTrue⟩ 0 (DSt.new br) s1 →
    received 1 s1.log = [] ∧ closes 1 s1.log = 0 := by
  refine ⟨BR.ofBits ([pkt0, pkt1].map encPkt).flatten, fun s1 hs1 => ?_⟩
  have h1 := run_enc (stop := .eof) (later := []) [pkt0, pkt1] Packet.new 0 (by
    intro p hp
    simp only [List.mem_cons, List.not_mem_nil, or_false] at hp
    rcases hp with rfl | rfl
    · exact ⟨pkt0_wf, trivial⟩
    · exact pkt1_wf) rfl
  have hE : ∃ q post e s', Ends ⟨Packet.new, BR.ofBits ([pkt0, pkt1].map encPkt).flatten⟩ (q :: post) e s' ∧
      post.length = 1 := ⟨_, _, _, _, ⟨_, h1, next_at_end rfl rfl rfl⟩, rfl⟩
  obtain ⟨q, post, e, s', hE, -⟩ := hE
  have hwin : ∀ l : List Packet, l.takeWhile alwaysTrue = l := by
    intro l
    induction l with
    | nil => rfl
    | cons a l ih => simp [List.takeWhile, alwaysTrue]; exact ih
  have := C108_abandoned ⟨[alwaysTrue, alwaysTrue], alwaysTrue, alwaysTrue⟩ _ hE .init (i := 0)
    (t := alwaysTrue) rfl rfl (pre := []) (q := q) (post := post)
    (by simp [window, alwaysTrue]; exact hwin post) rfl (Nat.le_refl _) hs1
  exact ⟨by simpa using this.1 1 alwaysTrue rfl, this.2.1 1⟩

end Mpeg.TS
