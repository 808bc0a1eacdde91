/-
Two decoders, one on a stream with noise between the packets and one on the stream without, run in step.
-/
import Verif.TS.NoiseSpec
import Verif.TS.Props
import Verif.TS.ReaderProps
import Verif.TS.DemuxProps
namespace Mpeg.TS
open Spec

/-- The two packet values agree and the two sources contain the same packets. -/
def Sim (a b : St) : Prop :=
  a.pkt = b.pkt ∧ ∃ l t p q, NoisyWF l t ∧ p % 8 = 0 ∧ q % 8 = 0 ∧
    a.br = ⟨noisy l t, p, .eof, []⟩ ∧ b.br = ⟨clean l, q, .eof, []⟩

theorem Sim.pkt {a b : St} (h : Sim a b) : a.pkt = b.pkt := h.1

theorem noise_nat {g : List UInt8} (hg : ∀ b ∈ g, b ≠ 0x47) : ∀ b ∈ g, b.toNat ≠ 0x47 := by
  intro b hb he
  exact hg b hb (UInt8.toNat_inj.mp (by rw [he]; rfl))

theorem realignLoop_end (g : List UInt8) (hg : ∀ b ∈ g, b.toNat ≠ 0x47) (n pos : Nat) (hn : g.length < n) :
    realignLoop n ⟨bitsOfBytes g, pos, .eof, []⟩ = (.err .eof, ⟨[], pos + 8 * g.length, .eof, []⟩) := by
  induction g generalizing n pos with
  | nil =>
    obtain ⟨m, rfl⟩ : ∃ m, n = m + 1 := ⟨n - 1, by simp at hn; omega⟩
    simp [realignLoop, Go.bind_apply, BR.peek, BR.failErr, BR.failTo, bitsOfBytes]
  | cons b g ih =>
    obtain ⟨m, rfl⟩ : ∃ m, n = m + 1 := ⟨n - 1, by simp at hn; omega⟩
    have hb : b.toNat % 2 ^ 8 ≠ 0x47 := by
      rw [Nat.mod_eq_of_lt (by have := b.toNat_lt; omega)]; exact hg b (by simp)
    simp only [realignLoop, bitsOfBytes_cons, Go.bind_apply, BR.peek_bitsOf,
      syncByte, Go.ite_apply, if_neg hb, BR.skip_bitsOf]
    rw [ih (fun x hx => hg x (by simp [hx])) m (pos + 8) (by simp at hn; omega)]
    simp; omega

theorem next_tail (p : Packet) (g : List UInt8) (hg : ∀ b ∈ g, b ≠ 0x47) (hn : g.length ≤ 187) (pos : Nat) (h8 : pos % 8 = 0) :
    Packet.next ⟨p, ⟨bitsOfBytes g, pos, .eof, []⟩⟩ = (.err .eof, ⟨p, ⟨[], pos + 8 * g.length, .eof, []⟩⟩) := by
  cases g with
  | nil =>
    have := next_at_end (s := ⟨p, ⟨[], pos, .eof, []⟩⟩) rfl rfl h8
    simpa [bitsOfBytes] using this
  | cons b g =>
    have hg' := noise_nat hg
    have hb : b.toNat % 2 ^ 8 ≠ 0x47 := by
      rw [Nat.mod_eq_of_lt (by have := b.toNat_lt; omega)]; exact hg' b (by simp)
    have := realignLoop_end (b :: g) hg' 188 pos (by simp at hn ⊢; omega)
    simp only [bitsOfBytes_cons] at this
    have hb' : (b.toNat % 2 ^ 8 == 71) = false := by simpa using hb
    have hs : sync ⟨bitsOfBytes (b :: g), pos, .eof, []⟩ = (.err .eof, ⟨[], pos + 8 * (b :: g).length, .eof, []⟩) := by
      simp only [sync, isAligned, BR.isAligned, h8, Go.bind_apply, bitsOfBytes_cons,
        BR.peek_bitsOf, syncByte, hb', realign, this, Go.pure_apply, Bool.not_false,
        Go.opt_true, beq_self_eq_true, Bool.true_eq_false, if_false]
    rw [next_eq]
    exact Go.bind_err (by simp only [St.lift, hs])

theorem next_noise (pa : Packet) (k : Pkt) (hk : k.WF) (hpl : k.body.Plain) (g : List UInt8) (hg : ∀ b ∈ g, b ≠ 0x47)
    (hn : g.length ≤ 187) (r : List Bool) (p : Nat) (hp : p % 8 = 0) :
    Packet.next ⟨pa, ⟨bitsOfBytes g ++ (encPkt k ++ r), p, .eof, []⟩⟩ =
      (.ok (), ⟨result pa k.hdr k.body, ⟨r, p + 8 * g.length + 188 * 8, .eof, []⟩⟩) := by
  have e : encPkt k ++ r = bitsOf 8 0x47 ++ (hdrTail k.hdr k.body.afc ++ (encBody k.body ++ r)) := by
    simp [encPkt, encHdr, hdrTail]
  have hs := sync_garbage (r := hdrTail k.hdr k.body.afc ++ (encBody k.body ++ r)) (stop := .eof) (later := []) (pos := p) []
    (by simp only [List.length_nil]; omega) g (noise_nat hg) hn
  simp only [List.nil_append, List.length_nil, Nat.add_zero] at hs
  rw [next_eq, e]
  simp only [Go.bind_apply, St.lift, hs, afterSync_enc pa k.hdr k.body hk.1 hk.2 hpl]

/-- `Next` has the same outcome on both sides. -/
theorem Sim.next {a b : St} (h : Sim a b) :
    (Packet.next a).1 = (Packet.next b).1 ∧ Sim (Packet.next a).2 (Packet.next b).2 := by
  obtain ⟨pa, ba⟩ := a
  obtain ⟨pb, bb⟩ := b
  obtain ⟨h1, l, t, p, q, hw, hp, hq, h2, h3⟩ := h
  dsimp only at h1 h2 h3
  subst h1; subst h2; subst h3
  cases l with
  | nil =>
    have e1 := next_tail pa t hw.2.1 hw.2.2 p hp
    have e2 := next_at_end (s := ⟨pa, ⟨[], q, .eof, []⟩⟩) rfl rfl hq
    have hc : clean [] = [] := rfl
    rw [noisy, e1, hc, e2]
    refine ⟨rfl, rfl, [], [], p + 8 * t.length, q, ⟨fun x hx => (by cases hx), fun b hb => (by cases hb), (by simp)⟩, by omega, hq, rfl, rfl⟩
  | cons x l =>
    obtain ⟨g, k⟩ := x
    obtain ⟨⟨hg, hn⟩, hk, hpl⟩ := hw.1 (g, k) (by simp)
    have hpl' : k.body.Plain := hpl
    have e1 := next_noise pa k hk hpl' g hg hn (noisy l t) p hp
    have e2 := next_enc (r := clean l) (stop := .eof) (later := []) (pos := q) pa k hk hpl' hq
    have hc : clean ((g, k) :: l) = encPkt k ++ clean l := by simp [clean]
    rw [noisy, e1, hc, e2]
    exact ⟨rfl, rfl, l, t, _, _, ⟨fun y hy => hw.1 y (by simp [hy]), hw.2⟩, by omega, by omega, rfl, rfl⟩

theorem Sim.init {l : List (List UInt8 × Pkt)} {t : List UInt8} (h : NoisyWF l t) :
    Sim ⟨Packet.new, BR.ofBits (noisy l t)⟩ ⟨Packet.new, BR.ofBits (clean l)⟩ :=
  ⟨rfl, l, t, 0, 0, h, rfl, rfl, rfl, rfl⟩

/-! ### payload reader -/

def SimPR (a b : PR) : Prop :=
  a.started = b.started ∧ a.remainder = b.remainder ∧ a.closed = b.closed ∧ Sim a.st b.st

/-- two programs have the same outcome and keep a relation between their states -/
def InStep {σ α : Type} (R : σ → σ → Prop) (m : Go σ α) : Prop :=
  ∀ a b, R a b → (m a).1 = (m b).1 ∧ R (m a).2 (m b).2

theorem InStep.pure {σ α : Type} {R : σ → σ → Prop} (x : α) : InStep R (Pure.pure x : Go σ α) := fun _ _ h => ⟨rfl, h⟩

theorem InStep.bind {σ α β : Type} {R : σ → σ → Prop} {m : Go σ α} {f : α → Go σ β} (hm : InStep R m)
    (hf : ∀ x, InStep R (f x)) : InStep R (m >>= f) := by
  intro a b h
  obtain ⟨h1, h2⟩ := hm a b h
  simp only [Go.bind_apply]
  revert h1 h2
  cases m a with
  | mk r s =>
    cases m b with
    | mk r' s' =>
      intro h1 h2
      dsimp only at h1 h2
      subst h1
      cases r with
      | ok x => exact hf x s s' h2
      | err e => exact ⟨rfl, h2⟩
      | panic => exact ⟨rfl, h2⟩
      | hang => exact ⟨rfl, h2⟩

theorem inStep_realign (t : Tester) : ∀ f, InStep SimPR (PR.realign t f)
  | 0 => fun _ _ h => ⟨rfl, h⟩
  | f + 1 => by
    rintro ⟨sa, ta, ra, ca⟩ ⟨sb, tb, rb, cb⟩ ⟨h1, h2, h3, h4⟩
    dsimp only at h1 h2 h3 h4
    subst h1; subst h2; subst h3
    obtain ⟨h5, h6⟩ := h4.next
    unfold PR.realign
    dsimp only
    revert h5 h6
    cases Packet.next ta with
    | mk r s =>
      cases Packet.next tb with
      | mk r' s' =>
        intro h5 h6
        dsimp only at h5 h6
        subst h5
        cases r with
        | panic => exact ⟨rfl, rfl, rfl, rfl, h6⟩
        | hang => exact ⟨rfl, rfl, rfl, rfl, h6⟩
        | ok x =>
          dsimp only
          rw [h6.pkt]
          split
          · exact ⟨rfl, rfl, rfl, rfl, h6⟩
          · exact inStep_realign t f _ _ ⟨rfl, rfl, rfl, h6⟩
        | err x =>
          dsimp only
          rw [h6.pkt]
          split
          · exact ⟨rfl, rfl, rfl, rfl, h6⟩
          · exact inStep_realign t f _ _ ⟨rfl, rfl, rfl, h6⟩

theorem inStep_fill (c : PRCfg) : ∀ f n out rem, InStep SimPR (PR.fill c f n out rem)
  | 0, _, _, _ => fun _ _ h => ⟨rfl, h⟩
  | f + 1, n, out, rem => by
    rintro ⟨sa, ta, ra, ca⟩ ⟨sb, tb, rb, cb⟩ ⟨h1, h2, h3, h4⟩
    dsimp only at h1 h2 h3 h4
    subst h1; subst h2; subst h3
    obtain ⟨h5, h6⟩ := h4.next
    unfold PR.fill
    dsimp only
    split
    · exact ⟨rfl, rfl, rfl, rfl, h4⟩
    revert h5 h6
    cases Packet.next ta with
    | mk r s =>
      cases Packet.next tb with
      | mk r' s' =>
        intro h5 h6
        dsimp only at h5 h6
        subst h5
        cases r with
        | panic => exact ⟨rfl, rfl, rfl, rfl, h6⟩
        | hang => exact ⟨rfl, rfl, rfl, rfl, h6⟩
        | err x => exact ⟨rfl, rfl, rfl, rfl, h6⟩
        | ok x =>
          dsimp only
          rw [h6.pkt]
          split
          · exact ⟨rfl, rfl, rfl, rfl, h6⟩
          · exact inStep_fill c f _ _ _ _ _ ⟨rfl, rfl, rfl, h6⟩

theorem inStep_drain (c : PRCfg) (fuel n : Nat) : InStep SimPR (PR.drain c fuel n) := by
  rintro ⟨sa, ta, ra, ca⟩ ⟨sb, tb, rb, cb⟩ ⟨h1, h2, h3, h4⟩
  dsimp only at h1 h2 h3 h4
  subst h1; subst h2; subst h3
  exact inStep_fill c _ _ _ _ _ _ ⟨rfl, rfl, rfl, h4⟩

theorem inStep_read (c : PRCfg) (fuel n : Nat) : InStep SimPR (PR.read c fuel n) := by
  rintro ⟨sa, ta, ra, ca⟩ ⟨sb, tb, rb, cb⟩ ⟨h1, h2, h3, h4⟩
  dsimp only at h1 h2 h3 h4
  subst h1; subst h2; subst h3
  unfold PR.read
  dsimp only
  split
  · exact ⟨rfl, rfl, rfl, rfl, h4⟩
  split
  · exact inStep_drain c fuel n _ _ ⟨rfl, rfl, rfl, h4⟩
  split
  · exact inStep_drain c fuel n _ _ ⟨rfl, rfl, rfl, h4⟩
  · exact (inStep_realign _ fuel).bind (fun _ => inStep_drain c fuel n) _ _ ⟨rfl, rfl, rfl, h4⟩

theorem inStep_prReads (c : PRCfg) (fuel : Nat) : ∀ ns, InStep SimPR (PR.reads c fuel ns)
  | [] => InStep.pure _
  | n :: ns => by
    unfold PR.reads
    refine (inStep_read c fuel n).bind fun o => ?_
    split
    · exact InStep.pure _
    · exact (inStep_prReads c fuel ns).bind fun _ => InStep.pure _

/-! ### payload unit reader -/

def SimPU (a b : PU) : Prop :=
  a.started = b.started ∧ a.buffer = b.buffer ∧ a.ready = b.ready ∧ Sim a.st b.st

theorem inStep_seek (w : Tester) : ∀ f, InStep SimPU (PU.seek w f)
  | 0 => fun _ _ h => ⟨rfl, h⟩
  | f + 1 => by
    rintro ⟨sa, ta, ra, ca⟩ ⟨sb, tb, rb, cb⟩ ⟨h1, h2, h3, h4⟩
    dsimp only at h1 h2 h3 h4
    subst h1; subst h2; subst h3
    obtain ⟨h5, h6⟩ := h4.next
    unfold PU.seek
    dsimp only
    rw [h4.pkt]
    split
    · exact ⟨rfl, rfl, rfl, rfl, h4⟩
    revert h5 h6
    cases Packet.next ta with
    | mk r s =>
      cases Packet.next tb with
      | mk r' s' =>
        intro h5 h6
        dsimp only at h5 h6
        subst h5
        cases r with
        | panic => exact ⟨rfl, rfl, rfl, rfl, h6⟩
        | hang => exact ⟨rfl, rfl, rfl, rfl, h6⟩
        | err x => exact ⟨rfl, rfl, rfl, rfl, h6⟩
        | ok x => exact inStep_seek w f _ _ ⟨rfl, rfl, rfl, h6⟩

theorem inStep_collect (w : Tester) : ∀ f, InStep SimPU (PU.collect w f)
  | 0 => fun _ _ h => ⟨rfl, h⟩
  | f + 1 => by
    rintro ⟨sa, ta, ra, ca⟩ ⟨sb, tb, rb, cb⟩ ⟨h1, h2, h3, h4⟩
    dsimp only at h1 h2 h3 h4
    subst h1; subst h2; subst h3
    obtain ⟨h5, h6⟩ := h4.next
    unfold PU.collect
    dsimp only
    rw [h4.pkt]
    generalize hx : w tb.pkt = x
    cases x
    all_goals
      simp only [Bool.false_eq_true, if_false, if_true]
      revert h5 h6
      cases Packet.next ta with
      | mk r s =>
        cases Packet.next tb with
        | mk r' s' =>
          intro h5 h6
          dsimp only at h5 h6
          subst h5
          cases r with
          | panic => exact ⟨rfl, rfl, rfl, rfl, h6⟩
          | hang => exact ⟨rfl, rfl, rfl, rfl, h6⟩
          | err x => exact ⟨rfl, rfl, rfl, rfl, h6⟩
          | ok x =>
            dsimp only
            rw [h6.pkt]
            split
            · exact ⟨rfl, rfl, rfl, rfl, h6⟩
            · exact inStep_collect w f _ _ ⟨rfl, rfl, rfl, h6⟩

theorem inStep_puFill (w : Tester) (fuel : Nat) : InStep SimPU (PU.fill w fuel) := by
  rintro ⟨sa, ta, ra, ca⟩ ⟨sb, tb, rb, cb⟩ ⟨h1, h2, h3, h4⟩
  dsimp only at h1 h2 h3 h4
  subst h1; subst h2; subst h3
  unfold PU.fill
  dsimp only
  split
  · exact inStep_collect w fuel _ _ ⟨rfl, rfl, rfl, h4⟩
  · refine (inStep_seek w fuel).bind (fun e => ?_) _ _ ⟨rfl, rfl, rfl, h4⟩
    cases e with
    | some e => exact InStep.pure _
    | none => exact inStep_collect w fuel

theorem inStep_give (n : Nat) : InStep SimPU (PU.give n) := by
  rintro ⟨sa, ta, ra, ca⟩ ⟨sb, tb, rb, cb⟩ ⟨h1, h2, h3, h4⟩
  dsimp only at h1 h2 h3 h4
  subst h1; subst h2; subst h3
  unfold PU.give
  dsimp only
  split <;> exact ⟨rfl, rfl, rfl, rfl, h4⟩

theorem inStep_puRead (w : Tester) (fuel n : Nat) : InStep SimPU (PU.read w fuel n) := by
  intro a b h
  have hr := h.2.2.1
  unfold PU.read
  rw [hr]
  split
  · exact inStep_give n _ _ h
  · refine (inStep_puFill w fuel).bind (fun e => ?_) _ _ h
    cases e with
    | some e => exact InStep.pure _
    | none =>
      refine InStep.bind (R := SimPU) ?_ fun _ => inStep_give n
      intro a b h
      exact ⟨rfl, h.1, h.2.1, rfl, h.2.2.2⟩

theorem inStep_reads (w : Tester) (fuel : Nat) : ∀ ns, InStep SimPU (PU.reads w fuel ns)
  | [] => InStep.pure _
  | n :: ns => by
    unfold PU.reads
    refine (inStep_puRead w fuel n).bind fun o => ?_
    split
    · exact (inStep_reads w fuel ns).bind fun _ => InStep.pure _
    · exact InStep.pure _

/-! ### demuxer -/

def SimD (a b : DSt) : Prop :=
  a.skipping = b.skipping ∧ a.pc = b.pc ∧ a.lastErr = b.lastErr ∧ a.waiting = b.waiting ∧ a.waitDone = b.waitDone ∧
    a.log = b.log ∧ Sim a.st b.st

/-- `Next` from the other side -/
theorem Sim.of_left {a b s : St} {r : Res Unit} (h : Sim a b) (hn : Packet.next a = (r, s)) :
    ∃ s', Packet.next b = (r, s') ∧ Sim s s' := by
  obtain ⟨h1, h2⟩ := h.next
  rw [hn] at h1 h2
  exact ⟨(Packet.next b).2, Prod.ext h1.symm rfl, h2⟩

theorem Sim.of_right {a b s : St} {r : Res Unit} (h : Sim a b) (hn : Packet.next b = (r, s)) :
    ∃ s', Packet.next a = (r, s') ∧ Sim s' s := by
  obtain ⟨h1, h2⟩ := h.next
  rw [hn] at h1 h2
  exact ⟨(Packet.next a).2, Prod.ext h1 rfl, h2⟩

theorem SimD.left (d : Demuxer) {a b a' : DSt} (h : SimD a b) (hs : DStep d a a') : ∃ b', DStep d b b' ∧ SimD a' b' := by
  obtain ⟨ta, ka, pa, ea, wa, da, la⟩ := a
  obtain ⟨tb, kb, pb, eb, wb, db, lb⟩ := b
  obtain ⟨h1, h2, h3, h4, h5, h6, h7⟩ := h
  dsimp only at h1 h2 h3 h4 h5 h6 h7
  subst h1; subst h2; subst h3; subst h4; subst h5; subst h6
  cases hs with
  | err hpc hn => obtain ⟨s', g1, g2⟩ := h7.of_left hn; exact ⟨_, .err hpc g1, rfl, rfl, rfl, rfl, rfl, rfl, g2⟩
  | panic hpc hn => obtain ⟨s', g1, g2⟩ := h7.of_left hn; exact ⟨_, .panic hpc g1, rfl, rfl, rfl, rfl, rfl, rfl, g2⟩
  | skip hpc hn hk ht =>
    obtain ⟨s', g1, g2⟩ := h7.of_left hn
    exact ⟨_, .skip hpc g1 hk (by rw [← g2.pkt]; exact ht), rfl, rfl, rfl, rfl, rfl, rfl, g2⟩
  | start hpc hn hk ht =>
    obtain ⟨s', g1, g2⟩ := h7.of_left hn
    exact ⟨_, .start hpc g1 hk (by rw [← g2.pkt]; exact ht), rfl, rfl, rfl, rfl, rfl, rfl, g2⟩
  | take hpc hn hk ht =>
    obtain ⟨s', g1, g2⟩ := h7.of_left hn
    exact ⟨_, .take hpc g1 hk (by rw [← g2.pkt]; exact ht), rfl, rfl, rfl, rfl, rfl, rfl, g2⟩
  | stop hpc hn hk ht =>
    obtain ⟨s', g1, g2⟩ := h7.of_left hn
    exact ⟨_, .stop hpc g1 hk (by rw [← g2.pkt]; exact ht), rfl, rfl, rfl, rfl, rfl, rfl, g2⟩
  | pass hpc hi ht => exact ⟨_, .pass hpc hi (by dsimp only; rw [← h7.pkt]; exact ht), rfl, rfl, rfl, rfl, rfl, rfl, h7⟩
  | deliver hpc hi ht hw =>
    exact ⟨_, .deliver hpc hi (by dsimp only; rw [← h7.pkt]; exact ht) hw, rfl, rfl, rfl, rfl, rfl, by dsimp only; rw [h7.pkt], h7⟩
  | loop hpc hi => exact ⟨_, .loop hpc hi, rfl, rfl, rfl, rfl, rfl, rfl, h7⟩
  | close hpc hi => exact ⟨_, .close hpc hi, rfl, rfl, rfl, rfl, rfl, rfl, h7⟩
  | closed hpc hi => exact ⟨_, .closed hpc hi, rfl, rfl, rfl, rfl, rfl, rfl, h7⟩
  | done hpc hw => exact ⟨_, .done hpc hw, rfl, rfl, rfl, rfl, rfl, rfl, h7⟩

theorem SimD.right (d : Demuxer) {a b b' : DSt} (h : SimD a b) (hs : DStep d b b') : ∃ a', DStep d a a' ∧ SimD a' b' := by
  obtain ⟨ta, ka, pa, ea, wa, da, la⟩ := a
  obtain ⟨tb, kb, pb, eb, wb, db, lb⟩ := b
  obtain ⟨h1, h2, h3, h4, h5, h6, h7⟩ := h
  dsimp only at h1 h2 h3 h4 h5 h6 h7
  subst h1; subst h2; subst h3; subst h4; subst h5; subst h6
  cases hs with
  | err hpc hn => obtain ⟨s', g1, g2⟩ := h7.of_right hn; exact ⟨_, .err hpc g1, rfl, rfl, rfl, rfl, rfl, rfl, g2⟩
  | panic hpc hn => obtain ⟨s', g1, g2⟩ := h7.of_right hn; exact ⟨_, .panic hpc g1, rfl, rfl, rfl, rfl, rfl, rfl, g2⟩
  | skip hpc hn hk ht =>
    obtain ⟨s', g1, g2⟩ := h7.of_right hn
    exact ⟨_, .skip hpc g1 hk (by rw [g2.pkt]; exact ht), rfl, rfl, rfl, rfl, rfl, rfl, g2⟩
  | start hpc hn hk ht =>
    obtain ⟨s', g1, g2⟩ := h7.of_right hn
    exact ⟨_, .start hpc g1 hk (by rw [g2.pkt]; exact ht), rfl, rfl, rfl, rfl, rfl, rfl, g2⟩
  | take hpc hn hk ht =>
    obtain ⟨s', g1, g2⟩ := h7.of_right hn
    exact ⟨_, .take hpc g1 hk (by rw [g2.pkt]; exact ht), rfl, rfl, rfl, rfl, rfl, rfl, g2⟩
  | stop hpc hn hk ht =>
    obtain ⟨s', g1, g2⟩ := h7.of_right hn
    exact ⟨_, .stop hpc g1 hk (by rw [g2.pkt]; exact ht), rfl, rfl, rfl, rfl, rfl, rfl, g2⟩
  | pass hpc hi ht => exact ⟨_, .pass hpc hi (by dsimp only; rw [h7.pkt]; exact ht), rfl, rfl, rfl, rfl, rfl, rfl, h7⟩
  | deliver hpc hi ht hw =>
    exact ⟨_, .deliver hpc hi (by dsimp only; rw [h7.pkt]; exact ht) hw, rfl, rfl, rfl, rfl, rfl, by dsimp only; rw [h7.pkt], h7⟩
  | loop hpc hi => exact ⟨_, .loop hpc hi, rfl, rfl, rfl, rfl, rfl, rfl, h7⟩
  | close hpc hi => exact ⟨_, .close hpc hi, rfl, rfl, rfl, rfl, rfl, rfl, h7⟩
  | closed hpc hi => exact ⟨_, .closed hpc hi, rfl, rfl, rfl, rfl, rfl, rfl, h7⟩
  | done hpc hw => exact ⟨_, .done hpc hw, rfl, rfl, rfl, rfl, rfl, rfl, h7⟩

theorem SimD.env {a b a' : DSt} (h : SimD a b) (hs : EStep a a') : ∃ b', EStep b b' ∧ SimD a' b' := by
  obtain ⟨h1, h2, h3, h4, h5, h6, h7⟩ := h
  cases hs with
  | ready i => exact ⟨_, .ready b i, h1, h2, h3, by dsimp only; rw [h4], h5, h6, h7⟩
  | readyDone => exact ⟨_, .readyDone b, h1, h2, h3, h4, rfl, h6, h7⟩

theorem SimD.env' {a b b' : DSt} (h : SimD a b) (hs : EStep b b') : ∃ a', EStep a a' ∧ SimD a' b' := by
  obtain ⟨h1, h2, h3, h4, h5, h6, h7⟩ := h
  cases hs with
  | ready i => exact ⟨_, .ready a i, h1, h2, h3, by dsimp only; rw [h4], h5, h6, h7⟩
  | readyDone => exact ⟨_, .readyDone a, h1, h2, h3, h4, rfl, h6, h7⟩

theorem reach_left (d : Demuxer) {l : List (List UInt8 × Pkt)} {t : List UInt8} (hw : NoisyWF l t) {s : DSt}
    (h : Reach d (BR.ofBits (noisy l t)) s) : ∃ s', Reach d (BR.ofBits (clean l)) s' ∧ SimD s s' := by
  induction h with
  | init => exact ⟨_, .init, rfl, rfl, rfl, rfl, rfl, rfl, Sim.init hw⟩
  | demux _ hs ih => obtain ⟨s', g1, g2⟩ := ih; obtain ⟨b', g3, g4⟩ := g2.left d hs; exact ⟨b', .demux g1 g3, g4⟩
  | env _ hs ih => obtain ⟨s', g1, g2⟩ := ih; obtain ⟨b', g3, g4⟩ := g2.env hs; exact ⟨b', .env g1 g3, g4⟩

theorem reach_right (d : Demuxer) {l : List (List UInt8 × Pkt)} {t : List UInt8} (hw : NoisyWF l t) {s : DSt}
    (h : Reach d (BR.ofBits (clean l)) s) : ∃ s', Reach d (BR.ofBits (noisy l t)) s' ∧ SimD s' s := by
  induction h with
  | init => exact ⟨_, .init, rfl, rfl, rfl, rfl, rfl, rfl, Sim.init hw⟩
  | demux _ hs ih => obtain ⟨s', g1, g2⟩ := ih; obtain ⟨b', g3, g4⟩ := g2.right d hs; exact ⟨b', .demux g1 g3, g4⟩
  | env _ hs ih => obtain ⟨s', g1, g2⟩ := ih; obtain ⟨b', g3, g4⟩ := g2.env' hs; exact ⟨b', .env g1 g3, g4⟩

end Mpeg.TS
