/-
Property theorems C16-C20: the demuxer under all interleavings, packet channels.
-/
import Verif.TS.DemuxModel
import Verif.TS.DeliverLemmas
import Verif.TS.Props
set_option linter.all false
namespace Mpeg.TS
open Spec

namespace Spec

/-- The packets between the skip and take bounds: from the first one accepted by `su` (unconditionally) up to,
not including, the first later one rejected by `tw`. -/
def window (su tw : Packet → Bool) (ps : List Packet) : List Packet :=
  match ps.dropWhile (fun p => !su p) with
  | [] => []
  | q :: r => q :: r.takeWhile tw

/-- The error reported in the end: none if a packet was rejected by `tw`. -/
def finalErr (su tw : Packet → Bool) (e : Err) (ps : List Packet) : Option Err :=
  match ps.dropWhile (fun p => !su p) with
  | [] => some e
  | _ :: r => if r.all tw then some e else none

/-- The packets received on channel `i`, in order. -/
def received (i : Nat) (log : List Ev) : List Packet :=
  log.filterMap fun
    | .recv j p => if j = i then some p else none
    | _ => none

/-- How often channel `i` was closed. -/
def closes (i : Nat) (log : List Ev) : Nat := (log.filter (· == .close i)).length

/-- How many values were received from `done`. -/
def dones (log : List Ev) : Nat := (log.filter (· == .done)).length

end Spec

/-! ### the canonical event sequence -/

def sends (i : Nat) : List Tester → Packet → List Ev
  | [], _ => []
  | t :: ts, p => (if t p then [.recv i p] else []) ++ sends (i + 1) ts p

def closeAll (i : Nat) : List Tester → List Ev
  | [] => []
  | _ :: ts => .close i :: closeAll (i + 1) ts

def canonical (d : Demuxer) (ps : List Packet) : List Ev :=
  (window d.skipUntil d.takeWhile ps).flatMap (sends 0 d.chans) ++ (closeAll 0 d.chans ++ [.done])

def win (d : Demuxer) (skipping : Bool) (ps : List Packet) : List Packet :=
  if skipping then window d.skipUntil d.takeWhile ps else ps.takeWhile d.takeWhile
def ferr (d : Demuxer) (e : Err) (skipping : Bool) (ps : List Packet) : Option Err :=
  if skipping then finalErr d.skipUntil d.takeWhile e ps else if ps.all d.takeWhile then some e else none

/-- the events still to come -/
def Rest (d : Demuxer) (e : Err) (fe : Option Err) (s : DSt) (rest : List Ev) : Prop :=
  match s.pc with
  | .fetch => ∃ qs s1 s2, Run s.st qs s1 ∧ Packet.next s1 = (.err e, s2) ∧ s.lastErr = none ∧
      fe = ferr d e s.skipping qs ∧
      rest = (win d s.skipping qs).flatMap (sends 0 d.chans) ++ (closeAll 0 d.chans ++ [.done])
  | .send i => ∃ qs s1 s2, Run s.st qs s1 ∧ Packet.next s1 = (.err e, s2) ∧ s.lastErr = none ∧
      s.skipping = false ∧ fe = ferr d e false qs ∧
      rest = sends i (d.chans.drop i) s.st.pkt ++
        ((win d false qs).flatMap (sends 0 d.chans) ++ (closeAll 0 d.chans ++ [.done]))
  | .closing i => s.lastErr = fe ∧ rest = closeAll i (d.chans.drop i) ++ [.done]
  | .doneSend => s.lastErr = fe ∧ rest = [.done]
  | .finished => s.lastErr = fe ∧ rest = []
  | .crashed => False

theorem run_ok {s s1 s2 st : St} {qs : List Packet} {e : Err} (h : Run s qs s1)
    (he : Packet.next s1 = (.err e, s2)) (h' : Packet.next s = (.ok (), st)) :
    ∃ qs', qs = st.pkt :: qs' ∧ Run st qs' s1 := by
  cases h with
  | nil => rw [he] at h'; simp at h'
  | cons h1 h2 =>
    rw [h1] at h'
    simp only [Prod.mk.injEq, true_and] at h'
    subst h'
    exact ⟨_, rfl, h2⟩

theorem run_err {s s1 s2 st : St} {qs : List Packet} {e e' : Err} (h : Run s qs s1)
    (he : Packet.next s1 = (.err e, s2)) (h' : Packet.next s = (.err e', st)) : qs = [] ∧ e' = e := by
  cases h with
  | nil => rw [he] at h'; simp at h'; exact ⟨rfl, h'.1.symm⟩
  | cons h1 h2 => rw [h1] at h'; simp at h'

theorem run_panic {s s1 s2 st : St} {qs : List Packet} {e : Err} (h : Run s qs s1)
    (he : Packet.next s1 = (.err e, s2)) (h' : Packet.next s = (.panic, st)) : False := by
  cases h with
  | nil => rw [he] at h'; simp at h'
  | cons h1 h2 => rw [h1] at h'; simp at h'

theorem drop_some {α : Type} {l : List α} {i : Nat} {a : α} (h : l[i]? = some a) :
    l.drop i = a :: l.drop (i + 1) := by
  obtain ⟨hi, h⟩ := List.getElem?_eq_some_iff.mp h
  rw [List.drop_eq_getElem_cons hi, h]
theorem drop_none {α : Type} {l : List α} {i : Nat} (h : l[i]? = none) : l.drop i = [] :=
  List.drop_eq_nil_of_le (List.getElem?_eq_none_iff.mp h)

theorem rest_step {d : Demuxer} {e : Err} {fe : Option Err} {s s' : DSt} {rest : List Ev}
    (h : Rest d e fe s rest) (hst : DStep d s s') :
    ∃ new rest', s'.log = s.log ++ new ∧ rest = new ++ rest' ∧ Rest d e fe s' rest' := by
  cases hst with
  | @err st e' hpc hn =>
    simp only [Rest, hpc] at h
    obtain ⟨qs, s1, s2, hr, he, hl, hfe, hrest⟩ := h
    obtain ⟨rfl, rfl⟩ := run_err hr he hn
    refine ⟨[], rest, by simp, by simp, ?_⟩
    simp only [Rest]
    refine ⟨?_, ?_⟩
    · rw [hfe]; unfold ferr; split <;> simp [finalErr]
    · rw [hrest]; unfold win; split <;> simp [window]
  | panic hpc hn =>
    simp only [Rest, hpc] at h
    obtain ⟨qs, s1, s2, hr, he, _⟩ := h
    exact (run_panic hr he hn).elim
  | @skip st hpc hn hs ht =>
    simp only [Rest, hpc] at h
    obtain ⟨qs, s1, s2, hr, he, hl, hfe, hrest⟩ := h
    obtain ⟨qs', rfl, hr'⟩ := run_ok hr he hn
    refine ⟨[], rest, by simp, by simp, ?_⟩
    simp only [Rest, hpc]
    refine ⟨qs', s1, s2, hr', he, hl, ?_, ?_⟩
    · rw [hfe]; simp [ferr, hs, finalErr, List.dropWhile, ht]
    · rw [hrest]; simp [win, hs, window, List.dropWhile, ht]
  | @start st hpc hn hs ht =>
    simp only [Rest, hpc] at h
    obtain ⟨qs, s1, s2, hr, he, hl, hfe, hrest⟩ := h
    obtain ⟨qs', rfl, hr'⟩ := run_ok hr he hn
    refine ⟨[], rest, by simp, by simp, ?_⟩
    simp only [Rest]
    refine ⟨qs', s1, s2, hr', he, hl, by trivial, ?_, ?_⟩
    · rw [hfe]; simp [ferr, hs, finalErr, List.dropWhile, ht]
    · rw [hrest]; simp [win, hs, window, List.dropWhile, ht]
  | @take st hpc hn hs ht =>
    simp only [Rest, hpc] at h
    obtain ⟨qs, s1, s2, hr, he, hl, hfe, hrest⟩ := h
    obtain ⟨qs', rfl, hr'⟩ := run_ok hr he hn
    refine ⟨[], rest, by simp, by simp, ?_⟩
    simp only [Rest]
    refine ⟨qs', s1, s2, hr', he, hl, hs, ?_, ?_⟩
    · rw [hfe]; simp [ferr, hs, ht]
    · rw [hrest]; simp [win, hs, List.takeWhile, ht]
  | @stop st hpc hn hs ht =>
    simp only [Rest, hpc] at h
    obtain ⟨qs, s1, s2, hr, he, hl, hfe, hrest⟩ := h
    obtain ⟨qs', rfl, hr'⟩ := run_ok hr he hn
    refine ⟨[], rest, by simp, by simp, ?_⟩
    simp only [Rest]
    refine ⟨?_, ?_⟩
    · rw [hfe]; simp [ferr, hs, ht, hl]
    · rw [hrest]; simp [win, hs, List.takeWhile, ht]
  | @pass i t hpc hi ht =>
    simp only [Rest, hpc] at h
    obtain ⟨qs, s1, s2, hr, he, hl, hs, hfe, hrest⟩ := h
    refine ⟨[], rest, by simp, by simp, ?_⟩
    simp only [Rest]
    refine ⟨qs, s1, s2, hr, he, hl, hs, hfe, ?_⟩
    rw [hrest, drop_some hi]
    simp [sends, ht]
  | @deliver i t hpc hi ht hw =>
    simp only [Rest, hpc] at h
    obtain ⟨qs, s1, s2, hr, he, hl, hs, hfe, hrest⟩ := h
    refine ⟨[.recv i s.st.pkt], sends (i + 1) (d.chans.drop (i + 1)) s.st.pkt ++
        ((win d false qs).flatMap (sends 0 d.chans) ++ (closeAll 0 d.chans ++ [.done])), rfl, ?_, ?_⟩
    · rw [hrest, drop_some hi]; simp [sends, ht]
    · simp only [Rest]
      exact ⟨qs, s1, s2, hr, he, hl, hs, hfe, rfl⟩
  | @loop i hpc hi =>
    simp only [Rest, hpc] at h
    obtain ⟨qs, s1, s2, hr, he, hl, hs, hfe, hrest⟩ := h
    refine ⟨[], rest, by simp, by simp, ?_⟩
    simp only [Rest]
    refine ⟨qs, s1, s2, hr, he, hl, by rw [hs]; exact hfe, ?_⟩
    rw [hrest, drop_none hi, hs]
    simp [sends]
  | @close i t hpc hi =>
    simp only [Rest, hpc] at h
    refine ⟨[.close i], closeAll (i + 1) (d.chans.drop (i + 1)) ++ [.done], rfl, ?_, ?_⟩
    · rw [h.2, drop_some hi]; rfl
    · simp only [Rest]; exact ⟨h.1, by trivial⟩
  | @closed i hpc hi =>
    simp only [Rest, hpc] at h
    refine ⟨[], rest, by simp, by simp, ?_⟩
    simp only [Rest]
    exact ⟨h.1, by rw [h.2, drop_none hi]; rfl⟩
  | done hpc hw =>
    simp only [Rest, hpc] at h
    refine ⟨[.done], [], rfl, h.2, ?_⟩
    simp only [Rest]
    exact ⟨h.1, by trivial⟩

theorem reach_inv (d : Demuxer) (br : BR) {ps : List Packet} {e : Err} {s' : St}
    (h : Ends ⟨Packet.new, br⟩ ps e s') {s : DSt} (hr : Reach d br s) :
    ∃ rest, s.log ++ rest = canonical d ps ∧
      Rest d e (finalErr d.skipUntil d.takeWhile e ps) s rest := by
  obtain ⟨s1, h1, h2⟩ := h
  induction hr with
  | init =>
    refine ⟨canonical d ps, rfl, ?_⟩
    simp only [Rest, DSt.new]
    exact ⟨ps, s1, s', h1, h2, by trivial, rfl, rfl⟩
  | demux _ hst ih =>
    obtain ⟨rest, hl, hr⟩ := ih
    obtain ⟨new, rest', a, b, c⟩ := rest_step hr hst
    exact ⟨rest', by rw [a, ← hl, b, List.append_assoc], c⟩
  | env _ hst ih =>
    obtain ⟨rest, hl, hr⟩ := ih
    cases hst with
    | ready i => exact ⟨rest, hl, hr⟩
    | readyDone => exact ⟨rest, hl, hr⟩

/-! ### facts about the canonical sequence -/

theorem received_append (i : Nat) (a b : List Ev) : received i (a ++ b) = received i a ++ received i b := by
  simp [received, List.filterMap_append]

theorem received_closeAll (i : Nat) : ∀ (ts : List Tester) (k : Nat), received i (closeAll k ts) = []
  | [], _ => rfl
  | t :: ts, k => by
    have := received_closeAll i ts (k + 1)
    simpa [closeAll, received] using this

theorem received_sends (i : Nat) (p : Packet) : ∀ (ts : List Tester) (k : Nat),
    received i (sends k ts p) =
      if k ≤ i then (match ts[i - k]? with | some t => if t p then [p] else [] | none => []) else []
  | [], k => by simp [sends, received]
  | t :: ts, k => by
    have ih := received_sends i p ts (k + 1)
    rw [sends, received_append, ih]
    rcases Nat.lt_trichotomy k i with hk | hk | hk
    · have e1 : i - k = (i - (k + 1)) + 1 := by omega
      have e2 : received i (if t p then [Ev.recv k p] else []) = [] := by
        split <;> simp [received, show k ≠ i by omega]
      rw [e2, if_pos (by omega), if_pos (by omega), e1]
      simp
    · subst hk
      have e2 : received k (if t p then [Ev.recv k p] else []) = if t p then [p] else [] := by
        split <;> simp [received]
      rw [e2, if_neg (Nat.not_succ_le_self k), if_pos (Nat.le_refl k)]
      simp
    · have e2 : received i (if t p then [Ev.recv k p] else []) = [] := by
        split <;> simp [received, show k ≠ i by omega]
      rw [e2, if_neg (by omega), if_neg (by omega)]
      rfl

theorem received_canonical (d : Demuxer) (ps : List Packet) {i : Nat} {t : Tester} (hi : d.chans[i]? = some t) :
    received i (canonical d ps) = (window d.skipUntil d.takeWhile ps).filter t := by
  unfold canonical
  rw [received_append, received_append, received_closeAll]
  have : ∀ l : List Packet, received i (l.flatMap (sends 0 d.chans)) = l.filter t := by
    intro l
    induction l with
    | nil => rfl
    | cons p l ih =>
      rw [List.flatMap_cons, received_append, ih, received_sends]
      simp only [Nat.zero_le, if_true, Nat.sub_zero, hi]
      by_cases h : t p <;> simp [h]
  rw [this]
  simp [received]

theorem closes_append (i : Nat) (a b : List Ev) : closes i (a ++ b) = closes i a + closes i b := by
  simp [closes]
theorem dones_append (a b : List Ev) : dones (a ++ b) = dones a + dones b := by
  simp [dones]

theorem closes_sends (i : Nat) (p : Packet) : ∀ (ts : List Tester) (k : Nat), closes i (sends k ts p) = 0
  | [], _ => rfl
  | t :: ts, k => by
    rw [sends, closes_append, closes_sends i p ts (k + 1)]
    split <;> simp [closes]
theorem dones_sends (p : Packet) : ∀ (ts : List Tester) (k : Nat), dones (sends k ts p) = 0
  | [], _ => rfl
  | t :: ts, k => by
    rw [sends, dones_append, dones_sends p ts (k + 1)]
    split <;> simp [dones]

theorem closes_flat (d : Demuxer) (i : Nat) (l : List Packet) :
    closes i (l.flatMap (sends 0 d.chans)) = 0 := by
  induction l with
  | nil => rfl
  | cons p l ih => rw [List.flatMap_cons, closes_append, ih, closes_sends]
theorem dones_flat (d : Demuxer) (l : List Packet) :
    dones (l.flatMap (sends 0 d.chans)) = 0 := by
  induction l with
  | nil => rfl
  | cons p l ih => rw [List.flatMap_cons, dones_append, ih, dones_sends]

theorem closes_closeAll (i : Nat) : ∀ (ts : List Tester) (k : Nat),
    closes i (closeAll k ts) = if k ≤ i ∧ i < k + ts.length then 1 else 0
  | [], k => by
    rw [if_neg (by simp only [List.length_nil]; omega)]; rfl
  | t :: ts, k => by
    have : closes i (Ev.close k :: closeAll (k + 1) ts) = (if k = i then 1 else 0) + closes i (closeAll (k + 1) ts) := by
      by_cases h : k = i <;> simp [closes, h, Nat.add_comm]
    rw [closeAll, this, closes_closeAll i ts (k + 1)]
    simp only [List.length_cons]
    split <;> split <;> split <;> omega
theorem dones_closeAll : ∀ (ts : List Tester) (k : Nat), dones (closeAll k ts) = 0
  | [], k => rfl
  | t :: ts, k => by
    have := dones_closeAll ts (k + 1)
    simpa [closeAll, dones] using this

theorem closes_canonical (d : Demuxer) (ps : List Packet) (i : Nat) :
    closes i (canonical d ps) = if i < d.chans.length then 1 else 0 := by
  unfold canonical
  rw [closes_append, closes_append, closes_flat, closes_closeAll]
  simp [closes]
theorem dones_canonical (d : Demuxer) (ps : List Packet) : dones (canonical d ps) = 1 := by
  unfold canonical
  rw [dones_append, dones_append, dones_flat, dones_closeAll]
  simp [dones]

theorem finished_rest {d : Demuxer} {e : Err} {fe : Option Err} {s : DSt} {rest : List Ev}
    (h : Rest d e fe s rest) (hf : s.pc = .finished) : rest = [] ∧ s.lastErr = fe := by
  simp only [Rest, hf] at h
  exact ⟨h.2, h.1⟩

/-! ### the properties -/

/-- **C16.** Under every interleaving each channel has received a prefix of the packets of the window that
its tester accepts, in order, each once; and all of them when the demuxer has finished. -/
theorem C16_filtered_delivery (d : Demuxer) (br : BR) {ps : List Packet} {e : Err} {s' : St}
    (h : Ends ⟨Packet.new, br⟩ ps e s') {s : DSt} (hr : Reach d br s) {i : Nat} {t : Tester}
    (hi : d.chans[i]? = some t) :
    received i s.log <+: (window d.skipUntil d.takeWhile ps).filter t ∧
    (s.pc = .finished → received i s.log = (window d.skipUntil d.takeWhile ps).filter t) := by
  obtain ⟨rest, h1, h2⟩ := reach_inv d br h hr
  have h3 := received_canonical d ps hi
  rw [← h1, received_append] at h3
  refine ⟨⟨received i rest, h3⟩, fun hf => ?_⟩
  rw [(finished_rest h2 hf).1] at h3
  simpa [received] using h3

/-- **C17.** The window, spelled out: if `su` rejects all of `pre` and accepts `q`, `tw` accepts all of `mid`, and
`mid` is followed by nothing or by a packet rejected by `tw`, then exactly `q :: mid` is delivered, i.e. a
channel that takes everything has received `q :: mid` when the demuxer has finished; if `su` accepts nothing,
nothing is delivered. -/
theorem C17_window (d : Demuxer) (br : BR) {ps : List Packet} {e : Err} {s' : St}
    (h : Ends ⟨Packet.new, br⟩ ps e s') {s : DSt} (hr : Reach d br s) (hf : s.pc = .finished)
    {i : Nat} {t : Tester} (hi : d.chans[i]? = some t) (ht : ∀ p, t p = true) :
    ((∀ p ∈ ps, d.skipUntil p = false) → received i s.log = []) ∧
    ∀ (pre mid post : List Packet) (q : Packet), ps = pre ++ q :: (mid ++ post) →
      (∀ p ∈ pre, d.skipUntil p = false) → d.skipUntil q = true → (∀ p ∈ mid, d.takeWhile p = true) →
      (∀ p, post.head? = some p → d.takeWhile p = false) →
      received i s.log = q :: mid := by
  have h1 := (C16_filtered_delivery d br h hr hi).2 hf
  rw [List.filter_eq_self.mpr (fun p _ => ht p)] at h1
  refine ⟨fun hn => ?_, ?_⟩
  · rw [h1, window]
    have : ps.dropWhile (fun p => !d.skipUntil p) = [] := by
      
      clear h h1
      induction ps with
      | nil => rfl
      | cons a l ih => simp [List.dropWhile, hn a (by simp), ih (fun p hp => hn p (by simp [hp]))]
    rw [this]
  · intro pre mid post q hps hpre hq hmid hpost
    rw [h1, window]
    have : ps.dropWhile (fun p => !d.skipUntil p) = q :: (mid ++ post) := by
      rw [hps, List.dropWhile_append_of_pos (by intro x hx; simp [hpre x hx])]
      simp [List.dropWhile, hq]
    rw [this]
    simp only [List.cons.injEq, true_and]
    rw [List.takeWhile_append_of_pos hmid]
    cases post with
    | nil => simp
    | cons a l => simp [List.takeWhile, hpost a rfl]

/-- no packet after a close, nothing after `done`: the shape of every log prefix -/
theorem canonical_order (d : Demuxer) (ps : List Packet) {a b : List Ev} (h : a ++ b = canonical d ps) :
    (∀ i, Ev.close i ∈ a → ∀ j p, Ev.recv j p ∉ b) ∧ (Ev.done ∈ a → b = []) := by
  have mem_sends : ∀ (ts : List Tester) k p x, x ∈ sends k ts p → ∃ j q, x = Ev.recv j q := by
    intro ts
    induction ts with
    | nil => intro k p x hx; simp [sends] at hx
    | cons t ts ih =>
      intro k p x hx
      rw [sends, List.mem_append] at hx
      rcases hx with hx | hx
      · split at hx
        · simp at hx; exact ⟨k, p, hx⟩
        · simp at hx
      · exact ih _ _ _ hx
  have mem_close : ∀ (ts : List Tester) k x, x ∈ closeAll k ts → ∃ j, x = Ev.close j := by
    intro ts
    induction ts with
    | nil => intro k x hx; simp [closeAll] at hx
    | cons t ts ih =>
      intro k x hx
      rw [closeAll, List.mem_cons] at hx
      rcases hx with hx | hx
      · exact ⟨k, hx⟩
      · exact ih _ _ hx
  have mem_flat : ∀ x ∈ (window d.skipUntil d.takeWhile ps).flatMap (sends 0 d.chans), ∃ j q, x = Ev.recv j q := by
    intro x hx
    obtain ⟨p, _, hp⟩ := List.mem_flatMap.mp hx
    exact mem_sends _ _ _ _ hp
  unfold canonical at h
  rcases List.append_eq_append_iff.mp h with ⟨l, h1, h2⟩ | ⟨l, h1, h2⟩
  · -- a is within the packets
    constructor
    · intro i hi
      obtain ⟨j, q, hj⟩ := mem_flat _ (h1 ▸ List.mem_append_left l hi)
      simp at hj
    · intro hd
      obtain ⟨j, q, hj⟩ := mem_flat _ (h1 ▸ List.mem_append_left l hd)
      simp at hj
  · -- h2 : closes ++ [done] = l ++ b
    constructor
    · intro i _ j p hb
      have : Ev.recv j p ∈ closeAll 0 d.chans ++ [Ev.done] := h2 ▸ List.mem_append_right l hb
      rw [List.mem_append] at this
      rcases this with this | this
      · obtain ⟨k, hk⟩ := mem_close _ _ _ this; simp at hk
      · simp at this
    · intro hd
      rw [h1, List.mem_append] at hd
      rcases hd with hd | hd
      · obtain ⟨j, q, hj⟩ := mem_flat _ hd; simp at hj
      · rcases List.append_eq_append_iff.mp h2.symm with ⟨m, h3, h4⟩ | ⟨m, h3, h4⟩
        · -- l within closes
          obtain ⟨k, hk⟩ := mem_close _ _ _ (h3 ▸ List.mem_append_left m hd)
          simp at hk
        · -- [done] = m ++ b
          cases b with
          | nil => rfl
          | cons x b =>
            have hm : m = [] := by
              cases m with
              | nil => rfl
              | cons y m => simp at h4
            subst hm
            rw [h3, List.append_nil] at hd
            obtain ⟨k, hk⟩ := mem_close _ _ _ hd
            simp at hk

/-- **C18.** In every reachable state: a channel is closed at most once and nothing is received on any channel
after the first close; `done` yields at most one value, and it is the last event.  When the goroutine has
finished, every channel has been closed exactly once, `done` has yielded exactly one value, and `Err()` is the
error of the stream, or nil if `TakeWhile` rejected a packet. -/
theorem C18_termination (d : Demuxer) (br : BR) {ps : List Packet} {e : Err} {s' : St}
    (h : Ends ⟨Packet.new, br⟩ ps e s') {s : DSt} (hr : Reach d br s) :
    s.pc ≠ .crashed ∧
    (∀ i, closes i s.log ≤ 1) ∧ dones s.log ≤ 1 ∧
    (∀ a b i, s.log = a ++ b → Ev.close i ∈ a → ∀ j p, Ev.recv j p ∉ b) ∧
    (∀ a b, s.log = a ++ b → Ev.done ∈ a → b = []) ∧
    (s.pc = .finished →
      (∀ i, closes i s.log = if i < d.chans.length then 1 else 0) ∧ dones s.log = 1 ∧
      s.lastErr = finalErr d.skipUntil d.takeWhile e ps) := by
  obtain ⟨rest, h1, h2⟩ := reach_inv d br h hr
  have hc := fun i => closes_canonical d ps i
  have hd := dones_canonical d ps
  refine ⟨?_, ?_, ?_, ?_, ?_, ?_⟩
  · intro hpc; simp [Rest, hpc] at h2
  · intro i
    have := hc i
    rw [← h1, closes_append] at this
    split at this <;> omega
  · rw [← h1, dones_append] at hd; omega
  · intro a b i hab hi j p hb
    have := (canonical_order d ps (a := a) (b := b ++ rest) (by rw [← h1, hab, List.append_assoc])).1 i hi j p
    exact this (List.mem_append_left _ hb)
  · intro a b hab hdn
    have := (canonical_order d ps (a := a) (b := b ++ rest) (by rw [← h1, hab, List.append_assoc])).2 hdn
    exact (List.append_eq_nil_iff.mp this).1
  · intro hf
    obtain ⟨h3, h4⟩ := finished_rest h2 hf
    rw [h3, List.append_nil] at h1
    rw [h1]
    exact ⟨hc, hd, h4⟩

/-- The goroutine is never stuck except while it waits for a receiver. -/
theorem C18_progress (d : Demuxer) (br : BR) {ps : List Packet} {e : Err} {s' : St}
    (h : Ends ⟨Packet.new, br⟩ ps e s') {s : DSt} (hr : Reach d br s) :
    s.pc = .finished ∨ (∃ s1, DStep d s s1) ∨
    (∃ i t, s.pc = .send i ∧ d.chans[i]? = some t ∧ t s.st.pkt = true ∧ s.waiting i = false) ∨
    (s.pc = .doneSend ∧ s.waitDone = false) := by
  obtain ⟨rest, h1, h2⟩ := reach_inv d br h hr
  cases hpc : s.pc with
  | fetch =>
    right; left
    cases hn : Packet.next s.st with
    | mk r st =>
      cases r with
      | err e' => exact ⟨_, .err hpc hn⟩
      | panic => exact ⟨_, .panic hpc hn⟩
      | hang => exact absurd (by rw [hn]) (next_ne_hang s.st)
      | ok u =>
        cases hs : s.skipping with
        | true =>
          cases ht : d.skipUntil st.pkt with
          | true => exact ⟨_, .start hpc hn hs ht⟩
          | false => exact ⟨_, .skip hpc hn hs ht⟩
        | false =>
          cases ht : d.takeWhile st.pkt with
          | true => exact ⟨_, .take hpc hn hs ht⟩
          | false => exact ⟨_, .stop hpc hn hs ht⟩
  | send i =>
    cases hi : d.chans[i]? with
    | none => right; left; exact ⟨_, .loop hpc hi⟩
    | some t =>
      cases ht : t s.st.pkt with
      | false => right; left; exact ⟨_, .pass hpc hi ht⟩
      | true =>
        cases hw : s.waiting i with
        | true => right; left; exact ⟨_, .deliver hpc hi ht hw⟩
        | false => right; right; left; exact ⟨i, t, by simp [*]⟩
  | closing i =>
    right; left
    cases hi : d.chans[i]? with
    | none => exact ⟨_, .closed hpc hi⟩
    | some t => exact ⟨_, .close hpc hi⟩
  | doneSend =>
    cases hw : s.waitDone with
    | true => right; left; exact ⟨_, .done hpc hw⟩
    | false => right; right; right; exact ⟨rfl, rfl⟩
  | finished => left; rfl
  | crashed => simp [Rest, hpc] at h2

/-- work left for the goroutine -/
def DSt.work (d : Demuxer) (s : DSt) : Nat :=
  match s.pc with
  | .fetch => s.st.size * (d.chans.length + 3) + (d.chans.length + 3)
  | .send i => s.st.size * (d.chans.length + 3) + (d.chans.length + 3) + (d.chans.length - i + 1)
  | .closing i => d.chans.length - i + 2
  | .doneSend => 1
  | .finished => 0
  | .crashed => 0

/-- Every step of the goroutine decreases the work left, so no run has more than `work` goroutine steps. -/
theorem C18_finitely_many_steps (d : Demuxer) {s s1 : DSt} (h : DStep d s s1) :
    s1.work d < s.work d := by
  have lt_of : ∀ {i : Nat} {t : Tester}, d.chans[i]? = some t → i < d.chans.length :=
    fun h => (List.getElem?_eq_some_iff.mp h).1
  cases h with
  | err hpc hn => simp only [DSt.work, hpc]; omega
  | panic hpc hn => simp only [DSt.work, hpc]; omega
  | @skip st hpc hn hs ht =>
    have := next_dec hn
    simp only [DSt.work, hpc]
    have := Nat.mul_lt_mul_of_pos_right (show st.size < s.st.size by omega) (show 0 < d.chans.length + 3 by omega)
    omega
  | @start st hpc hn hs ht =>
    have := next_dec hn
    simp only [DSt.work, hpc]
    have := Nat.mul_le_mul_right (d.chans.length + 3) (show st.size + 1 ≤ s.st.size by omega)
    rw [Nat.add_mul] at this
    omega
  | @take st hpc hn hs ht =>
    have := next_dec hn
    simp only [DSt.work, hpc]
    have := Nat.mul_le_mul_right (d.chans.length + 3) (show st.size + 1 ≤ s.st.size by omega)
    rw [Nat.add_mul] at this
    omega
  | stop hpc hn hs ht => simp only [DSt.work, hpc]; omega
  | pass hpc hi ht => have := lt_of hi; simp only [DSt.work, hpc]; omega
  | deliver hpc hi ht hw => have := lt_of hi; simp only [DSt.work, hpc]; omega
  | loop hpc hi => simp only [DSt.work, hpc]; omega
  | close hpc hi => have := lt_of hi; simp only [DSt.work, hpc]; omega
  | closed hpc hi => simp only [DSt.work, hpc]; omega
  | done hpc hw => simp only [DSt.work, hpc]; omega

/-- The hypotheses are satisfiable: two packets, one channel per PID, everything received. -/
example : ∃ (ps : List Packet) (e : Err) (s' : St),
    Ends ⟨Packet.new, BR.ofBits ([pkt0, pkt1].map encPkt).flatten⟩ ps e s' ∧ ps.length = 2 := by
  have h1 := run_enc (stop := .eof) (later := []) [pkt0, pkt1] Packet.new 0 (by
    intro p hp
    simp only [List.mem_cons, List.not_mem_nil, or_false] at hp
    rcases hp with rfl | rfl
    · exact ⟨pkt0_wf, trivial⟩
    · exact pkt1_wf) rfl
  exact ⟨_, _, _, ⟨_, h1, next_at_end rfl rfl rfl⟩, rfl⟩

/-! ### C19 -/

/-- A stretch of execution in which the goroutine does not call `Next`. -/
inductive Quiet (d : Demuxer) : DSt → DSt → Prop
  | refl (s : DSt) : Quiet d s s
  | demux {s s1 s2 : DSt} : s.pc ≠ .fetch → DStep d s s1 → Quiet d s1 s2 → Quiet d s s2
  | env {s s1 s2 : DSt} : EStep s s1 → Quiet d s1 s2 → Quiet d s s2

/-- **C19 (partial).** A consumer that has received `p` (all consumers hold the same pointer) sees the contents
it received as long as the goroutine has not started to parse the next packet.  The full claim is false:
`C19_overwritten`, `C19_false`. -/
theorem C19_stable_partial (d : Demuxer) {s s1 s2 : DSt} {i : Nat} {p : Packet}
    (hdel : DStep d s s1) (hlog : s1.log = s.log ++ [.recv i p]) (hq : Quiet d s1 s2) :
    s2.st.pkt = p := by
  have h0 : s1.st.pkt = p := by
    cases hdel with
    | deliver hpc hi ht hw => simp at hlog; exact hlog.2
    | _ => simp at hlog
  have hq' : ∀ {a b : DSt}, Quiet d a b → b.st = a.st := by
    intro a b h
    induction h with
    | refl => rfl
    | demux hpc hst _ ih =>
      rw [ih]
      cases hst with
      | err h1 _ => exact absurd h1 hpc
      | panic h1 _ => exact absurd h1 hpc
      | skip h1 _ _ _ => exact absurd h1 hpc
      | start h1 _ _ _ => exact absurd h1 hpc
      | take h1 _ _ _ => exact absurd h1 hpc
      | stop h1 _ _ _ => exact absurd h1 hpc
      | _ => rfl
    | env hst _ ih => rw [ih]; cases hst <;> rfl
  rw [hq' hq, h0]

/-- Whenever two consecutive packets pass, there is an interleaving in which the consumer holds the first one,
has received nothing else, and its contents have become those of the second. -/
theorem C19_overwritten (t : Tester) (br : BR) {p1 p2 : Packet} {ps : List Packet} {s' : St}
    (h : Run ⟨Packet.new, br⟩ (p1 :: p2 :: ps) s') (ht : t p1 = true) :
    ∃ s, Reach { chans := [t] } br s ∧ s.log = [.recv 0 p1] ∧ s.st.pkt = p2 := by
  obtain ⟨sa, ha, rfl, hA⟩ := h.cons_inv
  obtain ⟨sb, hb, rfl, hB⟩ := hA.cons_inv
  refine ⟨_, .demux (.demux (.demux (.demux (.env .init (.ready _ 0)) (.start rfl ha rfl rfl))
    (.deliver (i := 0) (t := t) rfl rfl ht (by simp [setW]))) (.loop rfl rfl)) (.take rfl hb rfl rfl), ?_, rfl⟩
  simp [DSt.new]

/-- **C19** is false as stated. -/
theorem C19_false : ∃ (d : Demuxer) (br : BR) (s : DSt) (i : Nat) (p : Packet),
    Reach d br s ∧ s.log = [.recv i p] ∧ p.pid = 0x1fff ∧ s.st.pkt.pid = 0x21 := by
  have hh : Hdr.WF { hdr0 with pid := 0x21 } := by decide
  have h1 := run_enc (stop := .eof) (later := []) [pkt0, ⟨{ hdr0 with pid := 0x21 }, .payload (List.replicate 184 7)⟩]
    Packet.new 0 (by
      intro p hp
      simp only [List.mem_cons, List.not_mem_nil, or_false] at hp
      rcases hp with rfl | rfl
      · exact ⟨pkt0_wf, trivial⟩
      · exact ⟨⟨hh, List.length_replicate⟩, trivial⟩) rfl
  obtain ⟨s, a, b, c⟩ := C19_overwritten alwaysTrue _ h1 rfl
  exact ⟨_, _, s, 0, _, a, b, rfl, by rw [c]; rfl⟩

/-! ### C20 -/

/-- **C20 (PayloadOnly).** Under every interleaving the output is a prefix of the payloads of the packets sent, one
for one and in order; when the goroutine has finished it is all of them and the output has been closed exactly
once. -/
theorem C20_payload_only (ps : List Packet) {s : CSt} (h : CReach ps s) :
    s.out <+: ps.map Packet.payload ∧
    (s.pc ≠ .finished → s.closed = 0) ∧
    (s.pc = .finished → s.out = ps.map Packet.payload ∧ s.closed = 1) := by
  have inv : ∃ mid, s.out ++ mid ++ s.input.map Packet.payload = ps.map Packet.payload ∧
      mid = (match s.pc with | .send d => [d] | _ => []) ∧
      s.closed = (if s.pc = .finished then 1 else 0) ∧ (s.pc = .finished → s.input = []) := by
    induction h with
    | init => exact ⟨[], by simp, rfl, rfl, by simp⟩
    | step _ hst ih =>
      obtain ⟨mid, h1, h2, h3, h4⟩ := ih
      cases hst with
      | recv hpc h =>
        rw [hpc] at h2 h3
        simp only at h2
        subst h2
        exact ⟨_, by rw [← h1, h]; simp, rfl, by simpa using h3, by simp⟩
      | send hpc =>
        rw [hpc] at h2 h3
        simp only at h2
        subst h2
        exact ⟨[], by rw [← h1]; simp, rfl, by simpa using h3, by simp⟩
      | close hpc h =>
        rw [hpc] at h2 h3
        simp only at h2
        subst h2
        refine ⟨[], h1, rfl, ?_, fun _ => h⟩
        simp at h3 ⊢
        exact h3
  obtain ⟨mid, h1, h2, h3, h4⟩ := inv
  refine ⟨⟨mid ++ s.input.map Packet.payload, by rw [← List.append_assoc]; exact h1⟩, ?_, ?_⟩
  · intro hne; rw [h3, if_neg hne]
  · intro hf
    rw [hf] at h2
    simp only at h2
    subst h2
    rw [h4 hf] at h1
    exact ⟨by simpa using h1, by rw [h3, if_pos hf]⟩

/-- `PayloadOnly` can always finish: it only waits for its two partners. -/
theorem C20_payload_only_progress (ps : List Packet) {s : CSt} (h : CReach ps s) :
    s.pc = .finished ∨ ∃ s', CStep s s' := by
  cases hpc : s.pc with
  | finished => left; rfl
  | send d => right; exact ⟨_, .send hpc⟩
  | recv =>
    right
    cases hi : s.input with
    | nil => exact ⟨_, .close hpc hi⟩
    | cons p l => exact ⟨_, .recv hpc hi⟩

/-- **C20 (PayloadUnit)** is false: whatever it receives, `PayloadUnit` never sends anything. -/
theorem C20_payload_unit_silent (ps : List Packet) {s : USt} (h : UReach ps s) : s.out = [] := by
  have : s.out = [] ∧ ∀ d, s.pc ≠ .send d := by
    induction h with
    | init => exact ⟨rfl, by simp⟩
    | step _ hst ih =>
      cases hst with
      | recv hpc h hn => exact ⟨ih.1, ih.2⟩
      | unit hpc h hn => exact ⟨ih.1, by simp [readAllBuffer]⟩
      | send hpc => exact absurd hpc (ih.2 _)
      | close hpc h => exact ⟨ih.1, by simp⟩
  exact this.1

/-- Two complete units are sent in, the goroutine finishes, and nothing came out. -/
theorem C20_false : ∃ (ps : List Packet) (s : USt), UReach ps s ∧ s.pc = .finished ∧ s.out = [] ∧
    (ps.filter (·.payloadUnitStartIndicator)).length = 3 := by
  let q : Packet := { Packet.new with payloadUnitStartIndicator := true, payloadLen := 3 }
  refine ⟨[q, q, q], _, .step (.step (.step (.step .init (.recv rfl rfl rfl)) (.unit rfl rfl rfl))
    (.unit rfl rfl rfl)) (.close rfl rfl), rfl, rfl, rfl⟩

end Mpeg.TS
