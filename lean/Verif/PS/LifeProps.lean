/-
C106: the first run of the program stream decoder, panics in it, and `Go` called again.
-/
import Verif.PS.LifeModel
import Verif.PS.DecoderProps
set_option linter.all false
namespace Mpeg.PS
open Spec

theorem LifeSteps.trans {a b c : Life} (h1 : LifeSteps a b) (h2 : LifeSteps b c) : LifeSteps a c := by
  induction h2 with
  | refl => exact h1
  | tail _ h ih => exact .tail ih h

/-- the last stretch of the goroutine of `Go`, behind line 22 -/
def DPC.late : DPC → Bool
  | .sendDone => true
  | .closeDone => true
  | .finished => true
  | _ => false

theorem gos_mono {s s' : Life} (h : LifeStep s s') : s.gos ≤ s'.gos := by
  cases h <;> simp

theorem late_step {s r : DSt} (h : DStep s r) : r.d.late = (s.d.late || s.d == .closePacks) := by
  cases h <;> simp_all [DPC.late]

theorem p_d {s r : DSt} (h : PStep s r) : r.d = s.d ∧ r.packs = s.packs ∧ r.err = s.err := by
  cases h <;> exact ⟨rfl, rfl, rfl⟩

theorem wait_step {s r : DSt} (h : DStep s r) (hd : s.d = .wait) : r.d = .peekNext := by
  cases h <;> simp_all

theorem fin_step {s r : DSt} (h : DStep s r) (hf : r.d = .finished) : s.d = .closeDone := by
  cases h <;> simp_all

theorem p_none {s r : DSt} (h : PStep s r) (hp : s.p = .none) : False := by
  cases h <;> simp_all

/-- The states of the first run. -/
structure FirstRun (br : BR) (s : Life) : Prop where
  crashed : s.run.crashed = false
  zero : s.gos = 0 → s = Life.new br
  calm : s.panicking = false
  late : s.closed = s.run.d.late
  ended : s.gos = 1 → (s.running = false ↔ s.run.d = .finished)
  ok : s.packPanic = false → s.dying = false → s.gone = false ∧ Reach br s.run
  alive : s.dying = false → s.gone = false

theorem firstRun_step {br : BR} {s s' : Life} (hF : s.gos ≤ 1 → FirstRun br s) (h : LifeStep s s') (hg : s'.gos ≤ 1) :
    FirstRun br s' := by
  have hF := hF (Nat.le_trans (gos_mono h) hg)
  obtain ⟨hc, hz, hcalm, hl, he, hok, hal⟩ := hF
  have hz' : s.running = true → s.gos ≠ 0 := by
    intro h1 h2; rw [hz h2] at h1; cases h1
  cases h with
  | go hgone hr =>
    simp only at hg
    have h0 : s.gos = 0 := by omega
    have := hz h0
    subst this
    exact ⟨rfl, fun h => absurd h (by simp [Life.new]), rfl, rfl, fun _ => by simp, fun _ _ => ⟨rfl, .init⟩, fun _ => rfl⟩
  | d hgone hr h hf ho hcp hj =>
    refine ⟨(d_crashed h).trans hc, fun h => absurd h (hz' hr), hcalm, ?_, fun _ => ?_, fun h1 h2 => ⟨hgone, .step (hok h1 h2).2 (.d hc h)⟩,
      fun _ => hgone⟩
    · simp only
      rw [late_step h, hl]
    · simp only [hr]; exact ⟨fun h => (by cases h), fun h => absurd h hf⟩
  | joinPanic hgone hr hd hp h =>
    have hx : _ = DPC.peekNext := wait_step h hd
    refine ⟨(d_crashed h).trans hc, fun h => absurd h (hz' hr), hcalm, ?_, fun _ => ?_, fun _ h2 => (by cases h2), fun h => (by cases h)⟩
    · simp only
      rw [hx, hl, hd]; rfl
    · simp only [hr, hx]; exact ⟨fun h => (by cases h), fun h => (by cases h)⟩
  | sendClosed hgone hr hd hcl => rw [hl, hd] at hcl; cases hcl
  | closeClosed hgone hr hd hcl => rw [hl, hd] at hcl; cases hcl
  | finish hgone hr h hf =>
    refine ⟨(d_crashed h).trans hc, fun h => absurd h (hz' hr), hcalm, ?_, fun _ => ?_, fun h1 h2 => ⟨hcalm, .step (hok h1 h2).2 (.d hc h)⟩,
      fun _ => hcalm⟩
    · simp only
      rw [hl]
      have := late_step h
      rw [hf] at this ⊢
      have hcd := fin_step h hf
      rw [hcd]; rfl
    · exact ⟨fun _ => hf, fun _ => hcalm⟩
  | p hgone h hcr =>
    obtain ⟨e1, e2, e3⟩ := p_d h
    refine ⟨hcr.trans hc, fun h0 => ?_, hcalm, ?_, ?_, fun h1 h2 => ⟨hgone, .step (hok h1 h2).2 (.p hc h)⟩, fun _ => hgone⟩
    · exfalso
      have := hz h0
      rw [this] at h
      exact p_none h rfl
    · simp only; rw [e1]; exact hl
    · simp only; rw [e1]; exact he
  | packetPanic hgone hp h =>
    refine ⟨hc, fun h0 => ?_, hcalm, hl, he, fun h1 _ => (by cases h1), fun _ => hgone⟩
    have := hz h0
    rw [this] at hp
    cases hp
  | die hgone h =>
    refine ⟨hc, fun h0 => ?_, hcalm, hl, he, fun _ h2 => ?_, fun h2 => ?_⟩
    · have := hz h0
      rw [this] at h
      cases h
    · simp only at h2; rw [h] at h2; cases h2
    · simp only at h2; rw [h] at h2; cases h2

theorem firstRun_steps {br : BR} {s : Life} (h : LifeSteps (.new br) s) (hg : s.gos ≤ 1) : FirstRun br s := by
  induction h with
  | refl =>
    exact ⟨rfl, fun _ => rfl, rfl, rfl, fun h => (by cases h), fun _ _ => ⟨rfl, .init⟩, fun _ => rfl⟩
  | tail _ hst ih => exact firstRun_step (fun h => ih h) hst hg

/-- **C106** (first run): unless a packet makes `pes.NewPacket` panic, the first run of a decoder is a run of C32: no panic, no crash,
and after its end `Packs()` is closed. -/
theorem C106_first {br : BR} {s : Life} (h : LifeSteps (.new br) s) (hg : s.gos = 1) (hp : s.packPanic = false) (hd : s.dying = false) :
    s.panicking = false ∧ s.gone = false ∧ Reach br s.run ∧
    (s.running = false ↔ s.run.d = .finished) ∧ (s.running = false → s.closed = true) := by
  have f := firstRun_steps h (by omega)
  refine ⟨f.calm, (f.ok hp hd).1, (f.ok hp hd).2, f.ended hg, fun hr => ?_⟩
  rw [f.late, (f.ended hg).1 hr]; rfl

/-- Conversely every run of C32 that does not crash is one of these. -/
theorem C106_covers {br : BR} {r : DSt} (h : Reach br r) (hc : r.crashed = false) :
    ∃ s, LifeSteps (.new br) s ∧ s.run = r ∧ s.gos = 1 ∧ s.packPanic = false ∧ s.dying = false := by
  induction h with
  | init => exact ⟨_, .tail (.refl _) (.go rfl rfl), rfl, rfl, rfl, rfl⟩
  | @step r r' hr hst ih =>
    have hc0 : r.crashed = false := by cases hst <;> assumption
    obtain ⟨s, h1, rfl, h3, h4, h5⟩ := ih hc0
    have f := firstRun_steps h1 (by omega)
    have hgone := (f.ok h4 h5).1
    cases hst with
    | p _ h => exact ⟨_, .tail h1 (.p hgone h (hc.trans hc0.symm)), rfl, h3, h4, h5⟩
    | d _ h =>
      have hrun : s.running = true := by
        cases hr : s.running with
        | true => rfl
        | false =>
          have := (f.ended h3).1 hr
          exfalso
          revert this
          cases h <;> simp_all
      by_cases hf : r'.d = .finished
      · exact ⟨_, .tail h1 (.finish hgone hrun h hf), rfl, h3, h4, h5⟩
      · refine ⟨_, .tail h1 (.d hgone hrun h hf ?_ ?_ fun _ => h4), rfl, h3, h4, h5⟩
        · intro x hx; rw [f.late, hx]; rfl
        · intro hx; rw [f.late, hx]; rfl

/-! ### a panic in a pack -/

/-- **C106** (hidden): while the consumer has not received the pack, a pack goroutine that has panicked waits, and the panic does not
show: the only step possible is that the pack is received. -/
theorem C106_hidden {br : BR} {s s' : Life} (h : LifeSteps (.new br) s) (hg : s.gos = 1) (hp : s.packPanic = true) {x : PackHeader}
    (hd : s.run.d = .send x) (hc : s.run.p = .complete) (hdy : s.dying = false) (hst : LifeStep s s') :
    s'.gone = false ∧ s'.packPanic = true ∧ s'.run.d = .wait ∧ s'.run.log = s.run.log ++ [.pack (s.run.packs - 1) x] := by
  have f := firstRun_steps h (by omega)
  have hcl : s.closed = false := by rw [f.late, hd]; rfl
  cases hst with
  | go _ hr => have := (f.ended hg).1 hr; rw [hd] at this; cases this
  | d hgone hr h =>
    cases h <;> simp_all
  | joinPanic _ _ hd' => rw [hd] at hd'; cases hd'
  | sendClosed _ _ _ hc' => rw [hcl] at hc'; cases hc'
  | closeClosed _ _ hd' => rw [hd] at hd'; cases hd'
  | finish _ _ h hf => have := fin_step h hf; rw [hd] at this; cases this
  | p _ h => cases h <;> simp_all
  | packetPanic _ hp' => rw [hc] at hp'; cases hp'
  | die _ h => rw [hdy] at h; cases h

/-- **C106** (orderly): if a packet panics and the reader then stands before a program end code, the consumers may see the end of a
complete program before the crash: the channel of the pack closed, `Packs()` closed, done = true, `Err()` nil. -/
theorem C106_orderly {br : BR} {s : Life} {b : BR} (h : LifeSteps (.new br) s) (hg : s.gos = 1) (hp : s.packPanic = false)
    (hdy : s.dying = false) (hw : s.run.d = .wait) (hn : s.run.p = .next) (hx : newPacket s.run.br = (.panic, b))
    (he : BR.peek 32 b = (.ok programEndCode, b)) (herr : s.run.err = none) :
    ∃ s', LifeSteps s s' ∧ s'.gone = false ∧ s'.running = false ∧ s'.run.err = none ∧
      s'.run.log = s.run.log ++ [.closed (s.run.packs - 1), .packsClosed, .done true, .doneClosed] ∧
      LifeStep s' { s' with gone := true } := by
  have f := firstRun_steps h (by omega)
  have hgone := (f.ok hp hdy).1
  have hcl : s.closed = false := by rw [f.late, hw]; rfl
  have hr : s.running = true := by
    cases hr : s.running with
    | true => rfl
    | false => have := (f.ended hg).1 hr; rw [hw] at this; cases this
  obtain ⟨⟨sbr, sd, sp, spk, serr, scr, slog⟩, srun, span, spp, sdy, scl, sgos, sgone⟩ := s
  have hcalm := f.calm
  simp only at *
  subst hcalm hw hn herr hgone hcl hr hp hdy
  have t1 := LifeStep.packetPanic (s := ⟨⟨sbr, .wait, .next, spk, none, scr, slog⟩, true, false, false, false, false, sgos, false⟩) rfl rfl hx
  have t2 := LifeStep.p (s := ⟨⟨b, .wait, .close, spk, none, scr, slog⟩, true, false, true, false, false, sgos, false⟩) rfl (.close rfl) rfl
  have t3 := LifeStep.joinPanic (s := ⟨⟨b, .wait, .complete, spk, none, scr, slog ++ [.closed (spk - 1)]⟩, true, false, true, false, false, sgos, false⟩)
    rfl rfl rfl rfl (.join rfl rfl)
  have t4 := LifeStep.d (s := ⟨⟨b, .peekNext, .none, spk, none, scr, slog ++ [.closed (spk - 1)]⟩, true, false, false, true, false, sgos, false⟩)
    rfl rfl (.next_other rfl he (by decide)) (by simp) (by simp) (by simp) (by simp)
  have t5 := LifeStep.d (s := ⟨⟨b, .peekEnd, .none, spk, none, scr, slog ++ [.closed (spk - 1)]⟩, true, false, false, true, false, sgos, false⟩)
    rfl rfl (.end_ok rfl he rfl) (by simp) (by simp) (by simp) (by simp)
  have t6 := LifeStep.d (s := ⟨⟨b, .closePacks, .none, spk, none, scr, slog ++ [.closed (spk - 1)]⟩, true, false, false, true, false, sgos, false⟩)
    rfl rfl (.closePacks rfl) (by simp) (by simp) (by simp) (by simp)
  have t7 := LifeStep.d (s := ⟨⟨b, .sendDone, .none, spk, none, scr, slog ++ [.closed (spk - 1)] ++ [.packsClosed]⟩, true, false, false, true, true, sgos, false⟩)
    rfl rfl (.sendDone rfl) (by simp) (by simp) (by simp) (by simp)
  have t8 := LifeStep.finish (s := ⟨⟨b, .closeDone, .none, spk, none, scr, slog ++ [.closed (spk - 1)] ++ [.packsClosed] ++ [.done true]⟩, true, false, false, true, true, sgos, false⟩)
    rfl rfl (.closeDone rfl) rfl
  exact ⟨_, .tail (.tail (.tail (.tail (.tail (.tail (.tail (.tail (.refl _) t1) t2) t3) t4) t5) t6) t7) t8, rfl, rfl, rfl,
    by simp, .die rfl rfl⟩

/-! ### `Go` called again -/

/-- what is received in a run that begins with the channel closed -/
def Quiet : Ev → Bool
  | .closed _ => true
  | .done _ => true
  | .doneClosed => true
  | _ => false

/-- no pack of the log is the one being sent -/
structure Numbered (s : Life) : Prop where
  lt : ∀ k h, Ev.pack k h ∈ s.run.log → k < s.run.packs
  pos : ∀ x, s.run.d = .send x → 0 < s.run.packs

theorem numbered_step {s s' : Life} (hn : Numbered s) (h : LifeStep s s') : Numbered s' := by
  obtain ⟨h1, h2⟩ := hn
  have hd : ∀ {r : DSt}, DStep s.run r → (∀ k h, Ev.pack k h ∈ r.log → k < r.packs) ∧ (∀ x, r.d = .send x → 0 < r.packs) := by
    intro r h
    cases h with
    | announce hpc =>
      refine ⟨fun k h hm => ?_, fun x hx => by cases hx⟩
      rcases List.mem_append.1 hm with hm | hm
      · exact h1 k h hm
      · have := h2 _ hpc
        simp only [List.mem_cons, List.not_mem_nil, or_false, Ev.pack.injEq] at hm
        show k < s.run.packs
        omega
    | header hpc hh => exact ⟨fun k h hm => Nat.lt_succ_of_lt (h1 k h hm), fun x hx => Nat.succ_pos _⟩
    | _ =>
      refine ⟨fun k h hm => ?_, fun x hx => ?_⟩
      · first
          | exact h1 k h hm
          | (rcases List.mem_append.1 hm with hm | hm
             · exact h1 k h hm
             · simp at hm)
      · first | cases hx | exact h2 x hx
  have hp : ∀ {r : DSt}, PStep s.run r → (∀ k h, Ev.pack k h ∈ r.log → k < r.packs) := by
    intro r h
    cases h <;> intro k h hm <;> first
      | exact h1 k h hm
      | (rcases List.mem_append.1 hm with hm | hm
         · exact h1 k h hm
         · simp at hm)
  cases h with
  | go => exact ⟨h1, fun x hx => by cases hx⟩
  | d _ _ h => exact ⟨(hd h).1, (hd h).2⟩
  | joinPanic _ _ _ _ h => exact ⟨(hd h).1, (hd h).2⟩
  | sendClosed => exact ⟨h1, fun x hx => by cases hx⟩
  | closeClosed => exact ⟨h1, fun x hx => by cases hx⟩
  | finish _ _ h => exact ⟨(hd h).1, (hd h).2⟩
  | p _ h =>
    obtain ⟨e1, e2, _⟩ := p_d h
    exact ⟨hp h, fun x hx => by rw [e2]; exact h2 x (e1 ▸ hx)⟩
  | packetPanic => exact ⟨h1, h2⟩
  | die => exact ⟨h1, h2⟩

theorem numbered_steps {br : BR} {s : Life} (h : LifeSteps (.new br) s) : Numbered s := by
  induction h with
  | refl => exact ⟨fun _ _ h => (by cases h), fun _ h => (by cases h)⟩
  | tail _ hst ih => exact numbered_step ih hst

/-- what is left of a run that begins with the channel closed -/
def DPC.rank : DPC → Nat
  | .readPack => 5
  | .send _ => 4
  | .closePacks => 3
  | .sendDone => 2
  | .closeDone => 1
  | .finished => 0
  | .wait => 0
  | .peekNext => 0
  | .peekEnd => 0

/-- The states of a second run, which began with the log `old` and the error `e`. -/
structure Again (old : List Ev) (s : Life) : Prop where
  two : s.gos = 2
  running : s.running = true
  closed : s.closed = true
  dying : s.dying = false
  pcs : s.run.d = .readPack ∨ (∃ x, s.run.d = .send x) ∨ s.run.d = .closePacks ∨ s.run.d = .sendDone ∨ s.run.d = .closeDone ∨
    (s.run.d = .finished ∧ s.gone = true)
  late : s.run.d.late = true → s.panicking = true
  /-- nobody can have received the pack -/
  hidden : s.run.d ≠ .readPack → s.run.p ≠ .none → ∀ h, Ev.pack (s.run.packs - 1) h ∉ s.run.log
  idle : s.run.d = .readPack → s.run.p = .none
  gone : s.gone = true → s.run.d = .finished
  log : ∃ new, s.run.log = old ++ new ∧ (∀ e ∈ new, Quiet e = true) ∧
    new.countP (fun e => match e with | .done _ => true | _ => false) =
      if s.run.d = .closeDone ∨ s.run.d = .finished then 1 else 0

theorem hidden_append {old : List Ev} {n : Nat} {e : Ev} (he : Quiet e = true) (h : ∀ x, Ev.pack n x ∉ old) :
    ∀ x, Ev.pack n x ∉ old ++ [e] := by
  intro x hx
  rcases List.mem_append.1 hx with hx | hx
  · exact h x hx
  · simp only [List.mem_cons, List.not_mem_nil, or_false] at hx
    rw [← hx] at he
    cases he

theorem again_step {old : List Ev} {s s' : Life} (hN : Numbered s) (hA : Again old s) (h : LifeStep s s') : Again old s' := by
  obtain ⟨h2, hr, hcl, hdy, hpc, hlate, hhid, hidle, hgo, new, hlog, hq, hcnt⟩ := hA
  have quiet : ∀ {e : Ev}, Quiet e = true → ∀ x ∈ new ++ [e], Quiet x = true := by
    intro e he x hx
    rcases List.mem_append.1 hx with hx | hx
    · exact hq x hx
    · simp only [List.mem_cons, List.not_mem_nil, or_false] at hx; rw [hx]; exact he
  cases h with
  | go _ h => rw [hr] at h; cases h
  | d hgone _ h hf ho hc hj =>
    cases h with
    | header_err hd hh =>
      have hp := hidle hd
      refine ⟨h2, hr, by simp [hcl], hdy, .inr (.inr (.inl rfl)), fun h => (by cases h), fun _ hp' => absurd hp hp', fun h => (by cases h),
        fun h => absurd (hgone ▸ h) (by simp), new, hlog, hq, ?_⟩
      rw [hcnt, hd]; simp
    | header hd hh =>
      refine ⟨h2, hr, by simp [hcl], hdy, .inr (.inl ⟨_, rfl⟩), fun h => (by cases h), fun _ _ x hx => ?_, fun h => (by cases h),
        fun h => absurd (hgone ▸ h) (by simp), new, hlog, hq, ?_⟩
      · have := hN.lt _ _ hx
        simp at this
      · rw [hcnt, hd]; simp
    | announce hd => rw [ho _ hd] at hcl; cases hcl
    | closePacks hd => rw [hc hd] at hcl; cases hcl
    | sendDone hd =>
      refine ⟨h2, hr, by simp [hcl], hdy, .inr (.inr (.inr (.inr (.inl rfl)))), fun _ => hlate (by rw [hd]; rfl),
        fun _ hp => hidden_append rfl (hhid (by rw [hd]; simp) hp), fun h => (by cases h), fun h => absurd (hgone ▸ h) (by simp),
        new ++ [.done (s.run.err == none)], ?_, quiet rfl, ?_⟩
      · rw [hlog, List.append_assoc]
      · rw [List.countP_append, hcnt, hd]; simp
    | closeDone hd => exact absurd rfl hf
    | join hd => simp [hd] at hpc
    | next_err hd => simp [hd] at hpc
    | next_pack hd => simp [hd] at hpc
    | next_other hd => simp [hd] at hpc
    | end_err hd => simp [hd] at hpc
    | end_other hd => simp [hd] at hpc
    | end_ok hd => simp [hd] at hpc
  | joinPanic _ _ hd => simp [hd] at hpc
  | sendClosed hgone _ hd =>
    refine ⟨h2, hr, hcl, hdy, .inr (.inr (.inl rfl)), fun h => rfl, fun _ hp => hhid (by rw [hd]; simp) hp, fun h => (by cases h),
      fun h => absurd (hgone ▸ h) (by simp), new, hlog, hq, ?_⟩
    rw [hcnt, hd]; simp
  | closeClosed hgone _ hd =>
    refine ⟨h2, hr, hcl, hdy, .inr (.inr (.inr (.inl rfl))), fun h => rfl, fun _ hp => hhid (by rw [hd]; simp) hp, fun h => (by cases h),
      fun h => absurd (hgone ▸ h) (by simp), new, hlog, hq, ?_⟩
    rw [hcnt, hd]; simp
  | finish hgone _ h hf =>
    have hd := fin_step h hf
    have hpan : s.panicking = true := hlate (by rw [hd]; rfl)
    cases h with
    | closeDone _ =>
      refine ⟨h2, hpan, hcl, hdy, .inr (.inr (.inr (.inr (.inr ⟨rfl, hpan⟩)))), fun _ => hpan,
        fun _ hp => hidden_append rfl (hhid (by rw [hd]; simp) hp), fun h => (by cases h), fun _ => rfl,
        new ++ [.doneClosed], ?_, quiet rfl, ?_⟩
      · rw [hlog, List.append_assoc]
      · rw [List.countP_append, hcnt, hd]; simp
    | _ => cases hf
  | p hgone h hcr =>
    obtain ⟨e1, e2, e3⟩ := p_d h
    have hp : s.run.p ≠ .none := fun hp => p_none h hp
    have hnr : s.run.d ≠ .readPack := fun hd => hp (hidle hd)
    have hh := hhid hnr hp
    have base : ∀ {r : DSt}, r.d = s.run.d → r.packs = s.run.packs → (∃ e, Quiet e = true ∧ (r.log = s.run.log ∨ ((∀ b, e ≠ .done b) ∧ r.log = s.run.log ++ [e]))) →
        Again old { s with run := r } := by
      intro r r1 r2 ⟨e, he, hl⟩
      refine ⟨h2, hr, hcl, hdy, ?_, ?_, ?_, ?_, ?_, ?_⟩
      · simp only [r1]; exact hpc
      · simp only [r1]; exact hlate
      · intro _ _
        simp only [r2]
        rcases hl with hl | ⟨_, hl⟩
        · rw [hl]; exact hh
        · rw [hl]; exact hidden_append he hh
      · simp only [r1]; exact fun hd => absurd hd hnr
      · simp only [r1]; exact hgo
      · simp only [r1]
        rcases hl with hl | ⟨hne, hl⟩
        · exact ⟨new, by rw [hl, hlog], hq, hcnt⟩
        · refine ⟨new ++ [e], by rw [hl, hlog, List.append_assoc], quiet he, ?_⟩
          rw [List.countP_append, hcnt]
          cases e <;> simp_all
    apply base e1 e2
    cases h with
    | send hpc' ha => exact absurd ha.choose_spec (hh _)
    | close => exact ⟨_, rfl, .inr ⟨fun b h => (by cases h), rfl⟩⟩
    | _ => exact ⟨.doneClosed, rfl, .inl rfl⟩
  | packetPanic hgone hp h =>
    have hnr : s.run.d ≠ .readPack := fun hd => by rw [hidle hd] at hp; cases hp
    exact ⟨h2, hr, hcl, hdy, hpc, hlate, fun _ _ => hhid hnr (by rw [hp]; simp), fun hd => absurd hd hnr, hgo, new, hlog, hq, hcnt⟩
  | die _ h => rw [hdy] at h; cases h

theorem again_steps {br : BR} {old : List Ev} {s s' : Life} (h0 : LifeSteps (.new br) s) (hA : Again old s) (h : LifeSteps s s') :
    Again old s' := by
  induction h with
  | refl => exact hA
  | tail hs hst ih => exact again_step (numbered_steps (h0.trans hs)) ih hst

theorem firstRun_idle {br : BR} {s : Life} (h : LifeSteps (.new br) s) (hg : s.gos ≤ 1) (hp : s.packPanic = false) (hd : s.dying = false)
    (hf : s.run.d = .finished) : s.run.p = .none := by
  have f := firstRun_steps h hg
  apply Classical.byContradiction
  intro hne
  rcases C32_exclusive br s.run (f.ok hp hd).2 f.crashed hne with ⟨x, hx⟩ | hx <;> rw [hf] at hx <;> cases hx

theorem again_go {br : BR} {s s1 : Life} (h : LifeSteps (.new br) s) (hg : s.gos = 1) (hr : s.running = false) (hp : s.packPanic = false)
    (hd : s.dying = false) (hgo : LifeStep s s1) (hg1 : s1.gos = 2) : Again s.run.log s1 := by
  have f := firstRun_steps h (by omega)
  have hfin := (f.ended hg).1 hr
  have hi := firstRun_idle h (by omega) hp hd hfin
  cases hgo with
  | go hgone _ =>
    refine ⟨hg1, rfl, by rw [f.late, hfin]; rfl, hd, .inl rfl, fun h => (by cases h), fun h => absurd rfl h,
      fun _ => hi, fun h => absurd (hgone ▸ h) (by simp), [], by simp, by simp, by simp⟩
  | _ => simp_all

/-- **C106** (again): after a complete first run, a second call of `Go` never comes to a proper end: in every interleaving the program is
running that goroutine or gone, no pack and no packet is received and `Packs()` is not closed again; at most one value comes from done,
and exactly one before the crash. -/
theorem C106_again {br : BR} {s s1 s2 : Life} (h : LifeSteps (.new br) s) (hg : s.gos = 1) (hr : s.running = false)
    (hp : s.packPanic = false) (hd : s.dying = false) (hgo : LifeStep s s1) (hg1 : s1.gos = 2) (h2 : LifeSteps s1 s2) :
    s2.running = true ∧ ∃ new, s2.run.log = s.run.log ++ new ∧
      (∀ e ∈ new, (∃ k, e = .closed k) ∨ (∃ b, e = .done b) ∨ e = .doneClosed) ∧
      new.countP (fun e => match e with | .done _ => true | _ => false) ≤ 1 ∧
      (s2.gone = true → new.countP (fun e => match e with | .done _ => true | _ => false) = 1) := by
  have hA := again_steps (h.tail hgo) (again_go h hg hr hp hd hgo hg1) h2
  obtain ⟨a1, a2, a3, a4, a5, a6, a7, a8, a9, new, b1, b2, b3⟩ := hA
  refine ⟨a2, new, b1, fun e he => ?_, ?_, fun hgone => ?_⟩
  · have := b2 e he
    cases e <;> simp_all [Quiet]
  · rw [b3]; split <;> omega
  · rw [b3, a9 hgone]; simp

/-- **C106** (crash): and unless it is gone, there is a step of its goroutine (the receiving of done among them) towards the crash, at
most five of them. -/
theorem C106_crash {br : BR} {s s1 s2 : Life} (h : LifeSteps (.new br) s) (hg : s.gos = 1) (hr : s.running = false)
    (hp : s.packPanic = false) (hd : s.dying = false) (hgo : LifeStep s s1) (hg1 : s1.gos = 2) (h2 : LifeSteps s1 s2) :
    s2.gone = true ∨ ∃ s3, LifeStep s2 s3 ∧ s3.run.d.rank < s2.run.d.rank ∧ s2.run.d.rank ≤ 5 := by
  have hA := again_steps (h.tail hgo) (again_go h hg hr hp hd hgo hg1) h2
  obtain ⟨a1, a2, a3, a4, a5, a6, a7, a8, a9, new, b1, b2, b3⟩ := hA
  cases hgone : s2.gone with
  | true => exact .inl rfl
  | false =>
    right
    rcases a5 with a5 | ⟨x, a5⟩ | a5 | a5 | a5 | ⟨_, a5⟩
    · rcases res_cases (m := newPackHeader) (b := s2.run.br) (safe_newPackHeader s2.run.br).2 with ⟨x, b, e⟩ | ⟨x, b, e⟩ | ⟨b, e⟩
      · exact ⟨_, .d hgone a2 (.header a5 e) (by simp) (by simp [a5]) (by simp [a5]) (by simp [a5]), by simp [a5, DPC.rank], by simp [a5, DPC.rank]⟩
      · exact ⟨_, .d hgone a2 (.header_err a5 e) (by simp) (by simp [a5]) (by simp [a5]) (by simp [a5]), by simp [a5, DPC.rank], by simp [a5, DPC.rank]⟩
      · exact absurd (congrArg Prod.fst e) (safe_newPackHeader s2.run.br).1
    · exact ⟨_, .sendClosed hgone a2 a5 a3, by simp [a5, DPC.rank], by simp [a5, DPC.rank]⟩
    · exact ⟨_, .closeClosed hgone a2 a5 a3, by simp [a5, DPC.rank], by simp [a5, DPC.rank]⟩
    · exact ⟨_, .d hgone a2 (.sendDone a5) (by simp) (by simp [a5]) (by simp [a5]) (by simp [a5]), by simp [a5, DPC.rank], by simp [a5, DPC.rank]⟩
    · exact ⟨_, .finish hgone a2 (.closeDone a5) rfl, by simp [a5, DPC.rank], by simp [a5, DPC.rank]⟩
    · rw [hgone] at a5; cases a5

/-- `Go` does not clear the error of an earlier run. -/
theorem C106_err_kept {s s' : Life} (h : LifeSteps s s') (he : s.run.err ≠ none) : s'.run.err ≠ none := by
  have dstep : ∀ {a b : DSt}, DStep a b → a.err ≠ none → b.err ≠ none := by
    intro a b h
    cases h <;> first | exact fun h => h | exact fun _ h => by cases h
  induction h with
  | refl => exact he
  | tail _ hst ih =>
    cases hst with
    | d _ _ h => exact dstep h ih
    | joinPanic _ _ _ _ h => exact dstep h ih
    | finish _ _ h => exact dstep h ih
    | p _ h => have := (p_d h).2.2; simp only; rw [this]; exact ih
    | _ => exact ih

/-- ... so from every state of a second run the crash is a few steps away. -/
theorem C106_can_crash {br : BR} {s s1 s2 : Life} (h : LifeSteps (.new br) s) (hg : s.gos = 1) (hr : s.running = false)
    (hp : s.packPanic = false) (hd : s.dying = false) (hgo : LifeStep s s1) (hg1 : s1.gos = 2) (h2 : LifeSteps s1 s2) :
    ∃ s3, LifeSteps s2 s3 ∧ s3.gone = true := by
  generalize hn : s2.run.d.rank = n
  induction n using Nat.strongRecOn generalizing s2 with
  | ind n ih =>
    rcases C106_crash h hg hr hp hd hgo hg1 h2 with h3 | ⟨s3, h3, h4, _⟩
    · exact ⟨s2, .refl _, h3⟩
    · obtain ⟨s4, h5, h6⟩ := ih _ (by omega) (h2.tail h3) rfl
      exact ⟨s4, (LifeSteps.tail (.refl _) h3).trans h5, h6⟩

/-! ### the situations are reached -/

theorem reach_finished {b0 : BR} (hs : ∀ s, Reach b0 s → s.crashed = false) : ∃ s, Reach b0 s ∧ s.d = .finished := by
  apply Classical.byContradiction
  intro hno
  have key : ∀ n, ∃ s, Steps n (DSt.new b0) s := by
    intro n
    induction n with
    | zero => exact ⟨_, .nil _⟩
    | succ n ih =>
      obtain ⟨s, h⟩ := ih
      have hr := steps_reach h
      obtain ⟨s', h'⟩ := C32_progress b0 s hr (hs s hr) (fun hf => hno ⟨s, hr, hf⟩)
      exact ⟨s', .snoc h h'⟩
  obtain ⟨s, h⟩ := key (20 * b0.size + 10)
  have := C32_terminates b0 _ s h
  omega

/-- The claim that a decoder may be started again is false, for every well formed program stream: it is read without an error, done
delivers true and everything is closed; `Go` called then brings the program down. -/
theorem C106_again_false (ps : List Pack) (hne : ps ≠ []) (hw : ∀ p ∈ ps, p.WF) (tail : List Bool) (stop : Err)
    (later : List (List Bool × Err)) :
    ∃ s s1 s2, LifeSteps (.new ⟨encProgram ps ++ tail, 0, stop, later⟩) s ∧ s.gos = 1 ∧ s.running = false ∧ s.packPanic = false ∧
      s.dying = false ∧ s.run.err = none ∧ LifeStep s s1 ∧ s1.gos = 2 ∧ LifeSteps s1 s2 ∧ s2.gone = true := by
  obtain ⟨r, h1, h2⟩ := reach_finished (fun s hr => (C32_stream ps hne hw tail stop later s hr).1)
  obtain ⟨h3, h4⟩ := C32_stream ps hne hw tail stop later r h1
  obtain ⟨s, h5, rfl, h6, h7, h8⟩ := C106_covers h1 h3
  obtain ⟨c1, c2, c3, c4, c5⟩ := C106_first h5 h6 h7 h8
  have hrun := c4.2 h2
  have hgo := LifeStep.go c2 hrun
  have hg1 : ({ s with running := true, gos := s.gos + 1, run := { s.run with d := .readPack } } : Life).gos = 2 := by simp [h6]
  obtain ⟨s3, h9, h10⟩ := C106_can_crash h5 h6 hrun h7 h8 hgo hg1 (.refl _)
  exact ⟨s, _, s3, h5, h6, hrun, h7, h8, (h4 h2).1, hgo, hg1, h9, h10⟩

/-- The hypotheses of `C106_orderly` are met: a packet whose header has the ESCR flag, placed so that a program end code follows where
reading it panics. -/
theorem C106_orderly_met : ∃ (bits : List Bool) (s : Life) (b : BR), LifeSteps (.new (.ofBits bits)) s ∧ s.gos = 1 ∧
    s.packPanic = false ∧ s.dying = false ∧ s.run.d = .wait ∧ s.run.p = .next ∧ newPacket s.run.br = (.panic, b) ∧
    BR.peek 32 b = (.ok programEndCode, b) ∧ s.run.err = none := by
  let r := bitsOf 2 2 ++ (bitsOf 8 0 ++ (bitsOf 6 0x20 ++ (bitsOf 8 0 ++ bitsOf 32 programEndCode)))
  let bits := encPHdr {} ++ (PES.Spec.encStart 0xe0 100 ++ r)
  have s1 := Reach.step (.init (br := BR.ofBits bits)) (.d rfl (.header rfl
    (show newPackHeader (BR.ofBits bits) = (.ok (viewPHdr {}), ⟨PES.Spec.encStart 0xe0 100 ++ r, 112, .eof, []⟩) by
      decide +kernel)))
  have s2 := Reach.step s1 (.d rfl (.announce rfl))
  have s3 := Reach.step s2 (.p rfl (.prefix (v := 1)
    (b := ⟨PES.Spec.encStart 0xe0 100 ++ r, 112, .eof, []⟩) rfl (by decide +kernel) rfl))
  have s4 := Reach.step s3 (.p rfl (.code_next (v := 0x1e0)
    (b := ⟨PES.Spec.encStart 0xe0 100 ++ r, 112, .eof, []⟩) rfl (by decide +kernel) (by decide)))
  obtain ⟨s, h1, h2, h3, h4, h5⟩ := C106_covers s4 rfl
  exact ⟨bits, s, ⟨bitsOf 32 programEndCode, 112 + 48 + 24, .eof, []⟩, h1, h3, h4, h5, by rw [h2], by rw [h2],
    by rw [h2]; decide +kernel, by decide +kernel, by rw [h2]; rfl⟩

end Mpeg.PS
