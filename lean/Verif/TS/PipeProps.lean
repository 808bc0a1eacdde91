/-
Property theorem C99: payloads delivered through the demuxer and `PayloadOnly`.
-/
import Verif.TS.PipeModel
set_option linter.all false
namespace Mpeg.TS
open Spec

theorem PipeReach.demux {c : Demuxer} {k : Nat} {br : BR} {s : PipeSt} (h : PipeReach c k br s) : Reach c br s.d := by
  induction h with
  | init => exact .init
  | step _ hst ih =>
    cases hst with
    | demux h _ => exact .demux ih h
    | handoff _ h _ => exact .demux ih h
    | ready _ => exact .env ih (.ready _ k)
    | _ => exact ih
  | env _ he _ ih => exact .env ih he

theorem FastReach.reach {c : Demuxer} {k : Nat} {br : BR} {s : PipeSt} (h : FastReach c k br s) : PipeReach c k br s := by
  induction h with
  | init => exact .init
  | step _ hst _ ih => exact .step ih hst
  | env _ he hw ih => exact .env ih he hw

/-- What a step of the demuxer sends on channel `k`. -/
theorem step_received {c : Demuxer} {s s' : DSt} (k : Nat) (h : DStep c s s') :
    received k s'.log = received k s.log ∨
    (received k s'.log = received k s.log ++ [s.st.pkt] ∧ s'.st = s.st ∧ s.waiting k = true) := by
  cases h with
  | @deliver i t hpc hi ht hw =>
    by_cases e : i = k
    · right
      subst e
      exact ⟨by simp [received_append, received], rfl, hw⟩
    · left
      simp [received_append, received, e]
  | close hpc hi => left; simp [received_append, received]
  | done hpc hw => left; simp [received_append, received]
  | _ => left; rfl

theorem step_quiet {c : Demuxer} {s s' : DSt} (h : DStep c s s') (hpc : s.pc ≠ .fetch) : s'.st = s.st := by
  cases h with
  | err h1 _ => exact absurd h1 hpc
  | panic h1 _ => exact absurd h1 hpc
  | skip h1 _ _ _ => exact absurd h1 hpc
  | start h1 _ _ _ => exact absurd h1 hpc
  | take h1 _ _ _ => exact absurd h1 hpc
  | stop h1 _ _ _ => exact absurd h1 hpc
  | _ => rfl

theorem closed_received {c : Demuxer} {br : BR} {ps : List Packet} {e : Err} {s' : St}
    (h : Ends ⟨Packet.new, br⟩ ps e s') {s : DSt} (hr : Reach c br s) {k : Nat} {t : Tester}
    (hk : c.chans[k]? = some t) (hc : closes k s.log ≠ 0) :
    received k s.log = (window c.skipUntil c.takeWhile ps).filter t := by
  obtain ⟨rest, h1, h2⟩ := reach_inv c br h hr
  have h3 := received_canonical c ps hk
  have hm : Ev.close k ∈ s.log := by
    unfold closes at hc
    obtain ⟨x, hx⟩ := List.exists_mem_of_length_pos (Nat.pos_of_ne_zero hc)
    simp only [List.mem_filter, beq_iff_eq] at hx
    exact hx.2 ▸ hx.1
  have h4 := (canonical_order c ps h1).1 k hm
  have h5 : received k rest = [] := by
    unfold received
    rw [List.filterMap_eq_nil_iff]
    intro x hx
    cases x with
    | recv j p => exact absurd hx (h4 j p)
    | _ => rfl
  rw [← h1, received_append, h5, List.append_nil] at h3
  exact h3

/-- slices under way -/
def WPC.pending : WPC → Nat
  | .got => 1
  | .send _ => 1
  | _ => 0

theorem step_log {c : Demuxer} {s s' : DSt} (h : DStep c s s') : ∃ new, s'.log = s.log ++ new := by
  cases h with
  | deliver hpc hi ht hw => exact ⟨_, rfl⟩
  | close hpc hi => exact ⟨_, rfl⟩
  | done hpc hw => exact ⟨_, rfl⟩
  | _ => exact ⟨[], by simp⟩

theorem step_waiting {c : Demuxer} {s s' : DSt} {k : Nat} (h : DStep c s s') :
    s'.waiting k = s.waiting k ∨ (s'.waiting k = false ∧ received k s'.log = received k s.log ++ [s.st.pkt]) := by
  cases h with
  | @deliver i t hpc hi ht hw =>
    by_cases e : i = k
    · right
      subst e
      exact ⟨by simp [setW], by simp [received_append, received]⟩
    · left
      simp [setW, show k ≠ i from fun h => e h.symm]
  | _ => left; rfl

theorem env_log {s s' : DSt} (h : EStep s s') : s'.log = s.log ∧ s'.st = s.st ∧ s'.pc = s.pc := by
  cases h <;> exact ⟨rfl, rfl, rfl⟩

theorem pipe_count {c : Demuxer} {k : Nat} {br : BR} {s : PipeSt} (h : PipeReach c k br s) :
    s.out.length + s.pc.pending = (received k s.d.log).length ∧
    s.closed = (if s.pc = .finished then 1 else 0) ∧ (s.pc = .finished → closes k s.d.log ≠ 0) ∧
    (s.d.waiting k = true → s.pc = .recv ∨ s.pc = .finished) := by
  induction h with
  | init => exact ⟨rfl, rfl, by simp, by simp [DSt.new]⟩
  | @step s s' _ hst ih =>
    obtain ⟨h1, h2, h3, h4⟩ := ih
    cases hst with
    | demux h hl =>
      obtain ⟨new, hn⟩ := step_log h
      refine ⟨by rw [hl]; exact h1, h2, fun hf => ?_, fun hw => ?_⟩
      · have := h3 hf
        simp only [hn, closes_append]
        omega
      · rcases step_waiting (k := k) h with e | ⟨e, _⟩
        · exact h4 (e ▸ hw)
        · simp only [e] at hw
          simp at hw
    | handoff hpc h hl =>
      rcases step_received k h with e | ⟨e, _, _⟩
      · exact absurd e hl
      · rw [hpc] at h1 h2
        refine ⟨?_, by simpa using h2, by simp, fun hw => ?_⟩
        · simp only [e, List.length_append, List.length_singleton, WPC.pending]
          simp only [WPC.pending] at h1
          omega
        · rcases step_waiting (k := k) h with e' | ⟨e', _⟩
          · exfalso
            cases h with
            | @deliver i t hpc' hi ht hw' =>
              by_cases ei : i = k
              · subst ei
                simp [setW] at hw
              · exact hl (by simp [received_append, received, ei])
            | close _ _ => exact hl (by simp [received_append, received])
            | done _ _ => exact hl (by simp [received_append, received])
            | _ => exact hl rfl
          · simp only [e'] at hw
            simp at hw
    | ready hpc =>
      rw [hpc] at h1 h2
      exact ⟨h1, by simpa using h2, by simp, fun _ => .inl rfl⟩
    | eval hpc =>
      rw [hpc] at h1 h2 h4
      exact ⟨h1, by simpa using h2, by simp, fun hw => by simpa using h4 hw⟩
    | take hpc =>
      rw [hpc] at h1 h2 h4
      refine ⟨?_, by simpa using h2, by simp, fun hw => by simpa using h4 hw⟩
      simp only [List.length_append, List.length_singleton, WPC.pending]
      simp only [WPC.pending] at h1
      omega
    | close hpc h =>
      rw [hpc] at h1 h2
      exact ⟨h1, by simpa using h2, fun _ => h, fun _ => .inr rfl⟩
  | env _ he hw ih =>
    obtain ⟨h1, h2, h3, h4⟩ := ih
    obtain ⟨e1, _, _⟩ := env_log he
    exact ⟨by rw [e1]; exact h1, h2, by rw [e1]; exact h3, by rw [hw]; exact h4⟩

theorem pipe_waits {c : Demuxer} {k : Nat} {br : BR} {s : PipeSt} (h : PipeReach c k br s) :
    s.pc = .recv → s.d.waiting k = true := by
  induction h with
  | init => simp
  | @step s s' _ hst ih =>
    cases hst with
    | demux h hl =>
      intro hpc
      rcases step_waiting (k := k) h with e | ⟨_, e⟩
      · exact e.trans (ih hpc)
      · rw [e] at hl
        simp at hl
    | ready hpc => intro _; simp [setW]
    | _ => simp
  | env _ he hw ih => intro hpc; exact hw.trans (ih hpc)

theorem fast_inv {c : Demuxer} {k : Nat} {br : BR} {s : PipeSt} (h : FastReach c k br s) :
    (received k s.d.log).map Packet.payload = s.out ++ (match s.pc with
      | .got => [s.d.st.pkt.payload]
      | .send _ => [s.d.st.pkt.payload]
      | _ => []) ∧ ∀ n, s.pc = .send n → n = s.d.st.pkt.payloadLen := by
  induction h with
  | init => exact ⟨rfl, by simp⟩
  | @step s s' _ hst hq ih =>
    obtain ⟨h1, h2⟩ := ih
    cases hst with
    | @demux d' h hl =>
      have hst : (s.pc = .got ∨ ∃ n, s.pc = .send n) → d'.st = s.d.st := by
        intro hp
        refine step_quiet h fun hf => ?_
        obtain ⟨a, b⟩ := hq hf h
        rcases hp with hp | ⟨n, hp⟩
        · exact a hp
        · exact b n hp
      refine ⟨?_, ?_⟩
      · simp only [hl, h1]
        congr 1
        cases hpc : s.pc with
        | got => simp only [hst (.inl hpc)]
        | send n => simp only [hst (.inr ⟨n, hpc⟩)]
        | _ => rfl
      · intro n hn
        rw [h2 n hn]
        simp only [hst (.inr ⟨n, hn⟩)]
    | handoff hpc h hl =>
      rcases step_received k h with e | ⟨e, e2, _⟩
      · exact absurd e hl
      · rw [hpc] at h1
        refine ⟨?_, by simp⟩
        simp only [e, List.map_append, h1, e2]
        simp
    | ready hpc => rw [hpc] at h1; exact ⟨h1, by simp⟩
    | eval hpc => rw [hpc] at h1; exact ⟨h1, fun n hn => by simpa using hn.symm⟩
    | take hpc =>
      have := h2 _ hpc
      subst this
      rw [hpc] at h1
      exact ⟨by simpa [Packet.payload] using h1, by simp⟩
    | close hpc h => rw [hpc] at h1; exact ⟨h1, by simp⟩
  | env _ he hw ih =>
    obtain ⟨e1, e2, _⟩ := env_log he
    rw [e1, e2]
    exact ih

/-! ### the property -/

/-- **C99 (partial).** Under every interleaving the consumer of `PayloadOnly` has received no more slices than packets of the window
pass the tester; when `PayloadOnly` has finished it has received as many, and the output has been closed exactly once.  That
they hold the payloads of these packets is false: `C99_overwritten`, `C99_false`. -/
theorem C99_count_partial (c : Demuxer) (k : Nat) (br : BR) {ps : List Packet} {e : Err} {s' : St}
    (h : Ends ⟨Packet.new, br⟩ ps e s') {t : Tester} (hk : c.chans[k]? = some t) {s : PipeSt} (hr : PipeReach c k br s) :
    s.out.length ≤ ((window c.skipUntil c.takeWhile ps).filter t).length ∧ s.closed ≤ 1 ∧
    (s.pc = .finished → s.out.length = ((window c.skipUntil c.takeWhile ps).filter t).length ∧ s.closed = 1) := by
  obtain ⟨h1, h2, h3, _⟩ := pipe_count hr
  have h4 := (C16_filtered_delivery c br h hr.demux hk).1.length_le
  refine ⟨by omega, by rw [h2]; split <;> omega, fun hf => ⟨?_, by rw [h2, if_pos hf]⟩⟩
  rw [← closed_received h hr.demux hk (h3 hf), ← h1, hf]
  rfl

/-- **C99 (partial).** With a consumer so fast that the demuxer never parses a packet while a slice is under way, the slices hold
the payloads of the packets of the window that pass the tester, in order, and all of them in the end. -/
theorem C99_fast_partial (c : Demuxer) (k : Nat) (br : BR) {ps : List Packet} {e : Err} {s' : St}
    (h : Ends ⟨Packet.new, br⟩ ps e s') {t : Tester} (hk : c.chans[k]? = some t) {s : PipeSt} (hr : FastReach c k br s) :
    s.out <+: ((window c.skipUntil c.takeWhile ps).filter t).map Packet.payload ∧
    (s.pc = .finished → s.out = ((window c.skipUntil c.takeWhile ps).filter t).map Packet.payload ∧ s.closed = 1) := by
  have h1 := (fast_inv hr).1
  have hp := (C16_filtered_delivery c br h hr.reach.demux hk).1
  refine ⟨(List.IsPrefix.trans ⟨_, h1.symm⟩ (hp.map Packet.payload)), fun hf => ?_⟩
  obtain ⟨_, h2, h3, _⟩ := pipe_count hr.reach
  rw [hf] at h1
  rw [← closed_received h hr.reach.demux hk (h3 hf), h1]
  exact ⟨by simp, by rw [h2, if_pos hf]⟩

/-- The two goroutines are never stuck except while they wait for a consumer of another channel or of `done`: a slice under way
can always be taken by the consumer, and `PayloadOnly` finishes once its channel is closed. -/
theorem C99_progress (c : Demuxer) (k : Nat) (br : BR) {ps : List Packet} {e : Err} {s' : St}
    (h : Ends ⟨Packet.new, br⟩ ps e s') {t : Tester} (hk : c.chans[k]? = some t) {s : PipeSt} (hr : PipeReach c k br s) :
    s.pc = .finished ∨ (∃ s1, PipeStep c k s s1) ∨
    (∃ i u, i ≠ k ∧ s.d.pc = .send i ∧ c.chans[i]? = some u ∧ u s.d.st.pkt = true ∧ s.d.waiting i = false) := by
  have hcl : s.d.pc = .finished ∨ s.d.pc = .doneSend → closes k s.d.log ≠ 0 := by
    intro hpc
    obtain ⟨rest, h1, h2⟩ := reach_inv c br h hr.demux
    have h3 := closes_canonical c ps k
    have hlt : k < c.chans.length := (List.getElem?_eq_some_iff.mp hk).1
    rw [if_pos hlt, ← h1, closes_append] at h3
    have : closes k rest = 0 := by
      rcases hpc with hpc | hpc <;> simp only [Rest, hpc] at h2 <;> rw [h2.2] <;> rfl
    omega
  cases hpc : s.pc with
  | finished => exact .inl rfl
  | idle => exact .inr (.inl ⟨_, .ready hpc⟩)
  | got => exact .inr (.inl ⟨_, .eval hpc⟩)
  | send n => exact .inr (.inl ⟨_, .take hpc⟩)
  | recv =>
    right
    rcases C18_progress c br h hr.demux with hf | ⟨d1, hd⟩ | ⟨i, u, a1, a2, a3, a4⟩ | ⟨hf, _⟩
    · exact .inl ⟨_, .close hpc (hcl (.inl hf))⟩
    · by_cases hl : received k d1.log = received k s.d.log
      · exact .inl ⟨_, .demux hd hl⟩
      · exact .inl ⟨_, .handoff hpc hd hl⟩
    · refine .inr ⟨i, u, ?_, a1, a2, a3, a4⟩
      rintro rfl
      rw [pipe_waits hr hpc] at a4
      simp at a4
    · exact .inl ⟨_, .close hpc (hcl (.inr hf))⟩

/-- Whenever the two packets of a stream pass, there is an interleaving in which the consumer receives the payload of the second
one twice and that of the first never. -/
theorem C99_overwritten (t : Tester) (br : BR) {p1 p2 : Packet} {e : Err} {s' : St}
    (h : Ends ⟨Packet.new, br⟩ [p1, p2] e s') (h1 : t p1 = true) (h2 : t p2 = true) :
    ∃ s, PipeReach { chans := [t] } 0 br s ∧ s.pc = .finished ∧ s.out = [p2.payload, p2.payload] ∧ s.closed = 1 ∧
      received 0 s.d.log = [p1, p2] := by
  obtain ⟨sc, hr, he⟩ := h
  obtain ⟨sa, ha, rfl, hA⟩ := hr.cons_inv
  obtain ⟨sb, hb, rfl, hB⟩ := hA.cons_inv
  cases hB
  have r0 : PipeReach { chans := [t] } 0 br { d := DSt.new br } := .init
  -- `PayloadOnly` waits, the first packet is parsed and sent
  have r1 := PipeReach.step r0 (.ready rfl)
  have r2 := PipeReach.step r1 (.demux (.start rfl ha rfl rfl) rfl)
  have r3 := PipeReach.step r2 (.handoff rfl (.deliver (i := 0) (t := t) rfl rfl h1 (by simp [setW]))
    (by simp [received, DSt.new]))
  -- the second packet is parsed before the payload is taken
  have r4 := PipeReach.step r3 (.demux (.loop rfl rfl) rfl)
  have r5 := PipeReach.step r4 (.demux (.take rfl hb rfl rfl) rfl)
  have r6 := PipeReach.step r5 (.eval rfl)
  have r7 := PipeReach.step r6 (.take rfl)
  -- the second packet is sent and taken
  have r8 := PipeReach.step r7 (.ready rfl)
  have r9 := PipeReach.step r8 (.handoff rfl (.deliver (i := 0) (t := t) rfl rfl h2 (by simp [setW]))
    (by simp [received, DSt.new]))
  have r10 := PipeReach.step r9 (.eval rfl)
  have r11 := PipeReach.step r10 (.take rfl)
  have r12 := PipeReach.step r11 (.ready rfl)
  -- the end of the stream
  have r13 := PipeReach.step r12 (.demux (.loop rfl rfl) rfl)
  have r14 := PipeReach.step r13 (.demux (.err rfl he) rfl)
  have r15 := PipeReach.step r14 (.demux (.close (i := 0) (t := t) rfl rfl) (by simp [received, DSt.new]))
  have r16 := PipeReach.step r15 (.close rfl (by simp [closes, DSt.new]))
  exact ⟨_, r16, rfl, rfl, rfl, by simp [received, DSt.new]⟩

/-- A stream of two packets with different payloads. -/
theorem pipePackets : ∃ (ps : List Packet) (s' : St), Ends ⟨Packet.new,
      BR.ofBits ([pkt0, ⟨hdr0, .payload (List.replicate 184 7)⟩].map encPkt).flatten⟩ ps .eof s' ∧
    ∃ p q, ps = [p, q] ∧ p.payload = List.replicate 184 0xab ∧ q.payload = List.replicate 184 7 := by
  have h1 := run_enc (stop := .eof) (later := []) [pkt0, ⟨hdr0, .payload (List.replicate 184 7)⟩] Packet.new 0 (by
    intro p hp
    simp only [List.mem_cons, List.not_mem_nil, or_false] at hp
    rcases hp with rfl | rfl
    · exact ⟨pkt0_wf, trivial⟩
    · exact ⟨⟨hdr0_wf, List.length_replicate⟩, trivial⟩) rfl
  exact ⟨_, _, ⟨_, h1, next_at_end rfl rfl rfl⟩, _, _, rfl, by decide +kernel, by decide +kernel⟩

/-- **C99** is false as stated: 184 bytes 0xab followed by 184 bytes 7 may be received as 368 bytes 7. -/
theorem C99_false : ∃ (t : Tester) (br : BR) (ps : List Packet) (e : Err) (s' : St) (s : PipeSt),
    Ends ⟨Packet.new, br⟩ ps e s' ∧ PipeReach { chans := [t] } 0 br s ∧ s.pc = .finished ∧
    (ps.filter t).map Packet.payload = [List.replicate 184 0xab, List.replicate 184 7] ∧
    s.out = [List.replicate 184 7, List.replicate 184 7] := by
  obtain ⟨ps, s', h, p, q, rfl, hp, hq⟩ := pipePackets
  obtain ⟨s, a, b, c, _, _⟩ := C99_overwritten alwaysTrue _ h rfl rfl
  exact ⟨alwaysTrue, _, _, _, _, s, h, a, b, by
    show [p.payload, q.payload] = _
    rw [hp, hq], by rw [c, hq]⟩

/-- A fast consumer of the same stream: the hypotheses of `C99_fast_partial` hold in a state in which the first payload has been
received and the second packet has been parsed. -/
example : ∃ (br : BR) (ps : List Packet) (e : Err) (s' : St) (s : PipeSt), Ends ⟨Packet.new, br⟩ ps e s' ∧
    FastReach { chans := [alwaysTrue] } 0 br s ∧ s.out = [List.replicate 184 0xab] ∧ s.d.pc = .send 0 := by
  obtain ⟨ps, s', h, p, q, rfl, hp, hq⟩ := pipePackets
  have h' := h
  obtain ⟨sc, hr, he⟩ := h'
  obtain ⟨sa, ha, rfl, hA⟩ := hr.cons_inv
  obtain ⟨sb, hb, rfl, hB⟩ := hA.cons_inv
  generalize BR.ofBits ([pkt0, ⟨hdr0, .payload (List.replicate 184 7)⟩].map encPkt).flatten = br at *
  have r0 : FastReach { chans := [alwaysTrue] } 0 br { d := DSt.new br } := .init
  have r1 := FastReach.step r0 (.ready rfl) (by simp)
  have r2 := FastReach.step r1 (.demux (.start rfl ha rfl rfl) rfl) (by simp)
  have r3 := FastReach.step r2 (.handoff rfl (.deliver (i := 0) (t := alwaysTrue) rfl rfl rfl (by simp [setW]))
    (by simp [received, DSt.new])) (by simp)
  have r4 := FastReach.step r3 (.eval rfl) (by simp)
  have r5 := FastReach.step r4 (.take rfl) (by simp)
  have r6 := FastReach.step r5 (.demux (.loop rfl rfl) rfl) (by simp)
  have r7 := FastReach.step r6 (.demux (.take rfl hb rfl rfl) rfl) (by simp)
  exact ⟨_, _, _, _, _, h, r7, by simpa [Packet.payload] using hp, rfl⟩

end Mpeg.TS
