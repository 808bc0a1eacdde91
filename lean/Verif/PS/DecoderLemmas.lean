/-
The invariant of the decoder goroutines.
-/
import Verif.PS.DecoderSpec
import Verif.PS.Total
set_option linter.all false
namespace Mpeg.PS
open Spec

/-- The packet loop of ps/pack.go, at its head, after it has read the packets `qs`. -/
inductive Loop : BR → List PES.Packet → BR → Prop
  | nil (b : BR) : Loop b [] b
  | snoc {b b1 b2 : BR} {qs : List PES.Packet} {v : Nat} {q : PES.Packet} (hl : Loop b qs b1)
      (h24 : BR.peek 24 b1 = (.ok 1, b1)) (h32 : BR.peek 32 b1 = (.ok v, b1))
      (hv : ¬ (v = packStartCode ∨ v = programEndCode)) (hn : newPacket b1 = (.ok q, b2)) :
      Loop b (qs ++ [q]) b2

/-- The packet loop, at its head with reader `b`, ends and leaves the reader at `b'`. -/
inductive LoopEnd : BR → BR → Prop
  | e24 {b b' : BR} {e : Err} (h : BR.peek 24 b = (.err e, b')) : LoopEnd b b'
  | noPrefix {b b' : BR} {v : Nat} (h : BR.peek 24 b = (.ok v, b')) (hv : v ≠ 1) : LoopEnd b b'
  | e32 {b b' : BR} {e : Err} (h24 : BR.peek 24 b = (.ok 1, b)) (h : BR.peek 32 b = (.err e, b')) : LoopEnd b b'
  | code {b b' : BR} {v : Nat} (h24 : BR.peek 24 b = (.ok 1, b)) (h : BR.peek 32 b = (.ok v, b'))
      (hv : v = packStartCode ∨ v = programEndCode) : LoopEnd b b'
  | packet {b b' : BR} {v : Nat} {e : Err} (h24 : BR.peek 24 b = (.ok 1, b)) (h : BR.peek 32 b = (.ok v, b))
      (hv : ¬ (v = packStartCode ∨ v = programEndCode)) (hn : newPacket b = (.err e, b')) : LoopEnd b b'

/-- the decoder loop may start a pack at `b` after the packs `l` -/
def Cont (l : List (PackHeader × List PES.Packet)) (b : BR) : Prop :=
  l ≠ [] → BR.peek 32 b = (.ok packStartCode, b)

/-- The packs `l` have been read completely; the reader is at `b`. -/
inductive Hist (b0 : BR) : List (PackHeader × List PES.Packet) → BR → Prop
  | nil : Hist b0 [] b0
  | snoc {l : List (PackHeader × List PES.Packet)} {b1 b2 b3 b4 : BR} {h : PackHeader} {qs : List PES.Packet}
      (hh : Hist b0 l b1) (hc : Cont l b1) (hp : newPackHeader b1 = (.ok h, b2)) (hl : Loop b2 qs b3)
      (he : LoopEnd b3 b4) : Hist b0 (l ++ [(h, qs)]) b4

/-- The decoder ends after the packs `l` with the reader at `b` and `d.err = e`. -/
inductive Fin (l : List (PackHeader × List PES.Packet)) (b : BR) : Option Err → Prop
  | header {e : Err} {b' : BR} (hc : Cont l b) (h : newPackHeader b = (.err e, b')) : Fin l b (some e)
  | peek {e : Err} {b' : BR} (hl : l ≠ []) (h : BR.peek 32 b = (.err e, b')) : Fin l b (some e)
  | other {v : Nat} (hl : l ≠ []) (h : BR.peek 32 b = (.ok v, b)) (hp : v ≠ packStartCode)
      (hv : v ≠ programEndCode) : Fin l b (some .programEndCodeNotFound)
  | ok (hl : l ≠ []) (h : BR.peek 32 b = (.ok programEndCode, b)) : Fin l b none

/-- the pack goroutine, which started at `b2`; the consumer has received `qs` -/
def PInv (b2 : BR) (qs : List PES.Packet) (br : BR) : PPC → Prop
  | .none => False
  | .peek24 => Loop b2 qs br
  | .peek32 => Loop b2 qs br ∧ BR.peek 24 br = (.ok 1, br)
  | .next => Loop b2 qs br ∧ BR.peek 24 br = (.ok 1, br) ∧
      ∃ v, BR.peek 32 br = (.ok v, br) ∧ ¬ (v = packStartCode ∨ v = programEndCode)
  | .send q => Loop b2 (qs ++ [q]) br
  | .close => ∃ b3, Loop b2 qs b3 ∧ LoopEnd b3 br
  | .complete => ∃ b3, Loop b2 qs b3 ∧ LoopEnd b3 br

/-- a pack is being read: `l` are the packs before it, `o` its events so far -/
def Busy (b0 : BR) (s : DSt) (h : PackHeader) (l : List (PackHeader × List PES.Packet)) (evs : List Ev)
    (b2 : BR) (qs : List PES.Packet) : Prop :=
  ∃ b1, Hist b0 l b1 ∧ Cont l b1 ∧ newPackHeader b1 = (.ok h, b2) ∧ s.packs = l.length + 1 ∧ s.err = none ∧
    PacksEvs l evs ∧ PInv b2 qs s.br s.p

/-- no pack is being read -/
def Idle (b0 : BR) (s : DSt) (l : List (PackHeader × List PES.Packet)) (b : BR) : Prop :=
  Hist b0 l b ∧ s.packs = l.length ∧ s.p = .none

def Inv (b0 : BR) (s : DSt) : Prop :=
  match s.d with
  | .readPack => ∃ l, Idle b0 s l s.br ∧ PacksEvs l s.log ∧ s.err = none ∧ Cont l s.br
  | .send h => ∃ l evs b2, Busy b0 s h l evs b2 [] ∧
      s.log = evs ++ (if s.p = .complete then [Ev.closed l.length] else [])
  | .wait => ∃ h l evs b2 qs, Busy b0 s h l evs b2 qs ∧
      (s.p ≠ .complete → s.log = evs ++ (Ev.pack l.length h :: qs.map (Ev.packet l.length))) ∧
      (s.p = .complete → ∃ o, PackEvs l.length h qs o ∧ s.log = evs ++ o)
  | .peekNext => ∃ l, Idle b0 s l s.br ∧ PacksEvs l s.log ∧ s.err = none ∧ l ≠ []
  | .peekEnd => ∃ l, Idle b0 s l s.br ∧ PacksEvs l s.log ∧ s.err = none ∧ l ≠ [] ∧
      ∃ v, BR.peek 32 s.br = (.ok v, s.br) ∧ v ≠ packStartCode
  | .closePacks => ∃ l b, Idle b0 s l b ∧ PacksEvs l s.log ∧ Fin l b s.err
  | .sendDone => ∃ l b evs, Idle b0 s l b ∧ PacksEvs l evs ∧ Fin l b s.err ∧ s.log = evs ++ [.packsClosed]
  | .closeDone => ∃ l b evs, Idle b0 s l b ∧ PacksEvs l evs ∧ Fin l b s.err ∧
      s.log = evs ++ [.packsClosed, .done (s.err == none)]
  | .finished => ∃ l b evs, Idle b0 s l b ∧ PacksEvs l evs ∧ Fin l b s.err ∧
      s.log = evs ++ endEvs (s.err == none)

/-- a crash: some packs, and a pack under way in which `newPacket` panicked -/
def Crash (b0 : BR) (s : DSt) : Prop :=
  ∃ h l evs b1 b2 b3 b4 qs o, Hist b0 l b1 ∧ newPackHeader b1 = (.ok h, b2) ∧ Loop b2 qs b3 ∧
    BR.peek 24 b3 = (.ok 1, b3) ∧
    (∃ v, BR.peek 32 b3 = (.ok v, b3) ∧ ¬ (v = packStartCode ∨ v = programEndCode)) ∧
    newPacket b3 = (.panic, b4) ∧ PacksEvs l evs ∧ OpenEvs l.length h qs o ∧ s.log = evs ++ o

theorem peek_same {k v : Nat} {b b' : BR} (h : BR.peek k b = (.ok v, b')) : b' = b := (BR.peek_inv h).1

theorem packEvs_index {k : Nat} {h : PackHeader} {qs : List PES.Packet} {o : List Ev} (hp : PackEvs k h qs o)
    {j : Nat} {g : PackHeader} (hm : Ev.pack j g ∈ o) : j = k := by
  cases hp with
  | full => simp at hm; exact hm.1
  | empty => simp at hm; exact hm.1

theorem packsEvs_index {l : List (PackHeader × List PES.Packet)} {evs : List Ev} (hp : PacksEvs l evs)
    {j : Nat} {g : PackHeader} (hm : Ev.pack j g ∈ evs) : j < l.length := by
  induction hp with
  | nil => simp at hm
  | snoc h1 h2 ih =>
    simp only [List.mem_append] at hm
    simp only [List.length_append, List.length_cons, List.length_nil]
    rcases hm with hm | hm
    · have := ih hm; omega
    · have := packEvs_index h2 hm; omega

theorem inv_init (b0 : BR) : Inv b0 (DSt.new b0) :=
  ⟨[], ⟨.nil, rfl, rfl⟩, .nil, rfl, fun h => absurd rfl h⟩

theorem inv_d {b0 : BR} {s s' : DSt} (hi : Inv b0 s) (hs : DStep s s') : Inv b0 s' := by
  cases hs with
  | @header_err e b hpc h =>
    simp only [Inv, hpc] at hi
    obtain ⟨l, ⟨a1, a2, a3⟩, a4, a5, a6⟩ := hi
    exact ⟨l, s.br, ⟨a1, a2, a3⟩, a4, .header a6 h⟩
  | @header h b hpc hh =>
    simp only [Inv, hpc] at hi
    obtain ⟨l, ⟨a1, a2, a3⟩, a4, a5, a6⟩ := hi
    refine ⟨l, s.log, b, ⟨s.br, a1, a6, hh, by simp only [a2], a5, a4, .nil b⟩, ?_⟩
    simp
  | @announce h hpc =>
    simp only [Inv, hpc] at hi
    obtain ⟨l, evs, b2, ⟨b1, a1, a2, a3, a4, a5, a6, a7⟩, a8⟩ := hi
    refine ⟨h, l, evs, b2, [], ⟨b1, a1, a2, a3, a4, a5, a6, a7⟩, fun hp => ?_, fun hp => ?_⟩
    · simp only at hp
      rw [if_neg hp] at a8
      simp only [a8, a4]; simp
    · simp only at hp
      rw [if_pos hp] at a8
      refine ⟨_, .empty h, ?_⟩
      simp only [a8, a4]; simp
  | join hpc hp =>
    simp only [Inv, hpc] at hi
    obtain ⟨h, l, evs, b2, qs, ⟨b1, a1, a2, a3, a4, a5, a6, a7⟩, _, a9⟩ := hi
    obtain ⟨o, ho, hlog⟩ := a9 hp
    rw [hp] at a7
    obtain ⟨b3, c1, c2⟩ := a7
    refine ⟨l ++ [(h, qs)], ⟨.snoc a1 a2 a3 c1 c2, by simp [a4], rfl⟩, ?_, a5, by simp⟩
    show PacksEvs _ s.log
    rw [hlog]; exact .snoc a6 ho
  | @next_err e b hpc h =>
    simp only [Inv, hpc] at hi
    obtain ⟨l, ⟨a1, a2, a3⟩, a4, a5, a6⟩ := hi
    exact ⟨l, s.br, ⟨a1, a2, a3⟩, a4, .peek a6 h⟩
  | @next_pack v b hpc h hv =>
    simp only [Inv, hpc] at hi
    obtain ⟨l, ⟨a1, a2, a3⟩, a4, a5, a6⟩ := hi
    obtain rfl := peek_same h
    subst hv
    exact ⟨l, ⟨a1, a2, a3⟩, a4, a5, fun _ => h⟩
  | @next_other v b hpc h hv =>
    simp only [Inv, hpc] at hi
    obtain ⟨l, ⟨a1, a2, a3⟩, a4, a5, a6⟩ := hi
    obtain rfl := peek_same h
    exact ⟨l, ⟨a1, a2, a3⟩, a4, a5, a6, v, h, hv⟩
  | @end_err e b hpc h =>
    simp only [Inv, hpc] at hi
    obtain ⟨l, ⟨a1, a2, a3⟩, a4, a5, a6, v, h', hv⟩ := hi
    exact ⟨l, s.br, ⟨a1, a2, a3⟩, a4, .peek a6 h⟩
  | @end_other v b hpc h hv =>
    simp only [Inv, hpc] at hi
    obtain ⟨l, ⟨a1, a2, a3⟩, a4, a5, a6, w, h', hw⟩ := hi
    have hvw : w = v := by rw [h'] at h; cases h; rfl
    subst hvw
    exact ⟨l, s.br, ⟨a1, a2, a3⟩, a4, .other a6 h' hw hv⟩
  | @end_ok v b hpc h hv =>
    simp only [Inv, hpc] at hi
    obtain ⟨l, ⟨a1, a2, a3⟩, a4, a5, a6, w, h', hw⟩ := hi
    have hvw : w = v := by rw [h'] at h; cases h; rfl
    subst hvw
    subst hv
    refine ⟨l, s.br, ⟨a1, a2, a3⟩, a4, ?_⟩
    show Fin l s.br s.err
    rw [a5]; exact .ok a6 h'
  | closePacks hpc =>
    simp only [Inv, hpc] at hi
    obtain ⟨l, b, ⟨a1, a2, a3⟩, a4, a5⟩ := hi
    exact ⟨l, b, s.log, ⟨a1, a2, a3⟩, a4, a5, rfl⟩
  | sendDone hpc =>
    simp only [Inv, hpc] at hi
    obtain ⟨l, b, evs, ⟨a1, a2, a3⟩, a4, a5, a6⟩ := hi
    exact ⟨l, b, evs, ⟨a1, a2, a3⟩, a4, a5, by simp [a6]⟩
  | closeDone hpc =>
    simp only [Inv, hpc] at hi
    obtain ⟨l, b, evs, ⟨a1, a2, a3⟩, a4, a5, a6⟩ := hi
    exact ⟨l, b, evs, ⟨a1, a2, a3⟩, a4, a5, by simp [a6, endEvs]⟩

/-- The pack goroutine runs only while the decoder goroutine sends the pack or waits for it. -/
theorem busy_of_p {b0 : BR} {s : DSt} (hi : Inv b0 s) (hp : s.p ≠ .none) :
    (∃ h, s.d = .send h) ∨ s.d = .wait := by
  cases hd : s.d with
  | send h => exact .inl ⟨h, rfl⟩
  | wait => exact .inr rfl
  | readPack =>
    simp only [Inv, hd] at hi
    obtain ⟨l, ⟨_, _, a3⟩, _⟩ := hi
    exact absurd a3 hp
  | peekNext =>
    simp only [Inv, hd] at hi
    obtain ⟨l, ⟨_, _, a3⟩, _⟩ := hi
    exact absurd a3 hp
  | peekEnd =>
    simp only [Inv, hd] at hi
    obtain ⟨l, ⟨_, _, a3⟩, _⟩ := hi
    exact absurd a3 hp
  | closePacks =>
    simp only [Inv, hd] at hi
    obtain ⟨l, _, ⟨_, _, a3⟩, _⟩ := hi
    exact absurd a3 hp
  | sendDone =>
    simp only [Inv, hd] at hi
    obtain ⟨l, _, _, ⟨_, _, a3⟩, _⟩ := hi
    exact absurd a3 hp
  | closeDone =>
    simp only [Inv, hd] at hi
    obtain ⟨l, _, _, ⟨_, _, a3⟩, _⟩ := hi
    exact absurd a3 hp
  | finished =>
    simp only [Inv, hd] at hi
    obtain ⟨l, _, _, ⟨_, _, a3⟩, _⟩ := hi
    exact absurd a3 hp

/-- A step of the pack goroutine inside its loop: reader and pc change, nothing is logged. -/
theorem inv_quiet {b0 : BR} {s : DSt} (hi : Inv b0 s) {p' : PPC} {b : BR} (hp : s.p ≠ .none)
    (hc : s.p ≠ .complete) (hc' : p' ≠ .complete)
    (hstep : ∀ b2 qs, PInv b2 qs s.br s.p → PInv b2 qs b p') :
    Inv b0 { s with br := b, p := p' } := by
  rcases busy_of_p hi hp with ⟨h, hd⟩ | hd
  · simp only [Inv, hd] at hi ⊢
    obtain ⟨l, evs, b2, ⟨b1, a1, a2, a3, a4, a5, a6, a7⟩, a8⟩ := hi
    refine ⟨l, evs, b2, ⟨b1, a1, a2, a3, a4, a5, a6, hstep _ _ a7⟩, ?_⟩
    rw [if_neg hc] at a8
    rw [if_neg hc']; exact a8
  · simp only [Inv, hd] at hi ⊢
    obtain ⟨h, l, evs, b2, qs, ⟨b1, a1, a2, a3, a4, a5, a6, a7⟩, a8, _⟩ := hi
    exact ⟨h, l, evs, b2, qs, ⟨b1, a1, a2, a3, a4, a5, a6, hstep _ _ a7⟩, fun _ => a8 hc,
      fun h => absurd h hc'⟩

theorem not_announced {b0 : BR} {s : DSt} {h : PackHeader} (hi : Inv b0 s) (hd : s.d = .send h) :
    ¬ s.announced := by
  simp only [Inv, hd] at hi
  obtain ⟨l, evs, b2, ⟨b1, a1, a2, a3, a4, a5, a6, a7⟩, a8⟩ := hi
  rintro ⟨g, hg⟩
  rw [a4, a8] at hg
  simp only [List.mem_append, Nat.add_sub_cancel] at hg
  rcases hg with hg | hg
  · have := packsEvs_index a6 hg; omega
  · split at hg <;> simp at hg

theorem inv_p {b0 : BR} {s s' : DSt} (hi : Inv b0 s) (hs : PStep s s') (hc : s'.crashed = false) : Inv b0 s' := by
  cases hs with
  | @peek_err e b hpc h =>
    refine inv_quiet hi (by simp [hpc]) (by simp [hpc]) (by simp) ?_
    intro b2 qs hp; rw [hpc] at hp; exact ⟨s.br, hp, .e24 h⟩
  | @no_prefix v b hpc h hv =>
    refine inv_quiet hi (by simp [hpc]) (by simp [hpc]) (by simp) ?_
    intro b2 qs hp; rw [hpc] at hp; exact ⟨s.br, hp, .noPrefix h hv⟩
  | @«prefix» v b hpc h hv =>
    obtain rfl := peek_same h
    subst hv
    refine inv_quiet hi (by simp [hpc]) (by simp [hpc]) (by simp) ?_
    intro b2 qs hp; rw [hpc] at hp; exact ⟨hp, h⟩
  | @code_err e b hpc h =>
    refine inv_quiet hi (by simp [hpc]) (by simp [hpc]) (by simp) ?_
    intro b2 qs hp; rw [hpc] at hp; exact ⟨s.br, hp.1, .e32 hp.2 h⟩
  | @code_stop v b hpc h hv =>
    refine inv_quiet hi (by simp [hpc]) (by simp [hpc]) (by simp) ?_
    intro b2 qs hp; rw [hpc] at hp; exact ⟨s.br, hp.1, .code hp.2 h hv⟩
  | @code_next v b hpc h hv =>
    obtain rfl := peek_same h
    refine inv_quiet hi (by simp [hpc]) (by simp [hpc]) (by simp) ?_
    intro b2 qs hp; rw [hpc] at hp; exact ⟨hp.1, hp.2, v, h, hv⟩
  | @packet_err e b hpc h =>
    refine inv_quiet hi (by simp [hpc]) (by simp [hpc]) (by simp) ?_
    intro b2 qs hp; rw [hpc] at hp
    obtain ⟨h1, h2, v, h3, h4⟩ := hp
    exact ⟨s.br, h1, .packet h2 h3 h4 h⟩
  | @packet_panic b hpc h =>
    simp at hc
  | @packet q b hpc h =>
    refine inv_quiet hi (by simp [hpc]) (by simp [hpc]) (by simp) ?_
    intro b2 qs hp; rw [hpc] at hp
    obtain ⟨h1, h2, v, h3, h4⟩ := hp
    exact .snoc h1 h2 h3 h4 h
  | @send q hpc ha =>
    rcases busy_of_p hi (by simp [hpc]) with ⟨h, hd⟩ | hd
    · exact absurd ha (not_announced hi hd)
    · simp only [Inv, hd] at hi ⊢
      obtain ⟨h, l, evs, b2, qs, ⟨b1, a1, a2, a3, a4, a5, a6, a7⟩, a8, _⟩ := hi
      rw [hpc] at a7
      refine ⟨h, l, evs, b2, qs ++ [q], ⟨b1, a1, a2, a3, a4, a5, a6, a7⟩, fun _ => ?_, fun h => by simp at h⟩
      have := a8 (by simp [hpc])
      simp [this, a4]
  | close hpc =>
    rcases busy_of_p hi (by simp [hpc]) with ⟨h, hd⟩ | hd
    · simp only [Inv, hd] at hi ⊢
      obtain ⟨l, evs, b2, ⟨b1, a1, a2, a3, a4, a5, a6, a7⟩, a8⟩ := hi
      rw [hpc] at a7
      refine ⟨l, evs, b2, ⟨b1, a1, a2, a3, a4, a5, a6, a7⟩, ?_⟩
      rw [if_neg (by simp [hpc])] at a8
      simp [a8, a4]
    · simp only [Inv, hd] at hi ⊢
      obtain ⟨h, l, evs, b2, qs, ⟨b1, a1, a2, a3, a4, a5, a6, a7⟩, a8, _⟩ := hi
      rw [hpc] at a7
      refine ⟨h, l, evs, b2, qs, ⟨b1, a1, a2, a3, a4, a5, a6, a7⟩, fun h => absurd rfl h, fun _ => ?_⟩
      have := a8 (by simp [hpc])
      exact ⟨_, .full h qs, by simp [this, a4]⟩

theorem crash_p {b0 : BR} {s s' : DSt} (hi : Inv b0 s) (h0 : s.crashed = false) (hs : PStep s s')
    (hc : s'.crashed = true) : Crash b0 s' := by
  cases hs with
  | @packet_panic b hpc h =>
    rcases busy_of_p hi (by simp [hpc]) with ⟨g, hd⟩ | hd
    · simp only [Inv, hd] at hi
      obtain ⟨l, evs, b2, ⟨b1, a1, a2, a3, a4, a5, a6, a7⟩, a8⟩ := hi
      rw [hpc] at a7
      rw [if_neg (by simp [hpc])] at a8
      exact ⟨g, l, evs, b1, b2, s.br, b, [], [], a1, a3, a7.1, a7.2.1, a7.2.2, h, a6, .none g, a8⟩
    · simp only [Inv, hd] at hi
      obtain ⟨g, l, evs, b2, qs, ⟨b1, a1, a2, a3, a4, a5, a6, a7⟩, a8, _⟩ := hi
      rw [hpc] at a7
      exact ⟨g, l, evs, b1, b2, s.br, b, qs, _, a1, a3, a7.1, a7.2.1, a7.2.2, h, a6, .part g qs, a8 (by simp [hpc])⟩
  | _ => simp_all

theorem d_crashed {s s' : DSt} (hs : DStep s s') : s'.crashed = s.crashed := by cases hs <;> rfl

/-- Every reachable state satisfies the invariant, or the program has crashed. -/
theorem reach_inv {b0 : BR} {s : DSt} (h : Reach b0 s) :
    (s.crashed = false ∧ Inv b0 s) ∨ (s.crashed = true ∧ Crash b0 s) := by
  induction h with
  | init => exact .inl ⟨rfl, inv_init b0⟩
  | @step s s' _ hs ih =>
    cases hs with
    | d hc hs =>
      rcases ih with ⟨_, hi⟩ | ⟨h, _⟩
      · exact .inl ⟨by rw [d_crashed hs, hc], inv_d hi hs⟩
      · rw [hc] at h; cases h
    | p hc hs =>
      rcases ih with ⟨_, hi⟩ | ⟨h, _⟩
      · cases h' : s'.crashed with
        | false => exact .inl ⟨rfl, inv_p hi hs h'⟩
        | true => exact .inr ⟨rfl, crash_p hi hc hs h'⟩
      · rw [hc] at h; cases h

/-! ### progress and termination -/

theorem res_cases {α : Type} {m : Go BR α} {b : BR} (h : (m b).1 ≠ .hang) :
    (∃ a b', m b = (.ok a, b')) ∨ (∃ e b', m b = (.err e, b')) ∨ ∃ b', m b = (.panic, b') := by
  cases hm : m b with
  | mk r b' =>
    rw [hm] at h
    cases r with
    | ok a => exact .inl ⟨a, b', rfl⟩
    | err e => exact .inr (.inl ⟨e, b', rfl⟩)
    | panic => exact .inr (.inr ⟨b', rfl⟩)
    | hang => exact absurd rfl h

theorem peek_cases (k : Nat) (b : BR) :
    (∃ v b', BR.peek k b = (.ok v, b')) ∨ (∃ e b', BR.peek k b = (.err e, b')) := by
  rcases res_cases (m := BR.peek k) (b := b) (BR.safe_peek k b).2 with h | h | ⟨b', h⟩
  · exact .inl h
  · exact .inr h
  · exact absurd (congrArg Prod.fst h) (BR.safe_peek k b).1

/-- Unless the decoder is finished (or the program crashed) something can happen. -/
theorem progress {b0 : BR} {s : DSt} (hi : Inv b0 s) (hc : s.crashed = false) (hf : s.d ≠ .finished) :
    ∃ s', Step s s' := by
  cases hd : s.d with
  | readPack =>
    rcases res_cases (m := newPackHeader) (b := s.br) (safe_newPackHeader _).2 with ⟨a, b', h⟩ | ⟨e, b', h⟩ | ⟨b', h⟩
    · exact ⟨_, .d hc (.header hd h)⟩
    · exact ⟨_, .d hc (.header_err hd h)⟩
    · exact absurd (congrArg Prod.fst h) (safe_newPackHeader _).1
  | send h => exact ⟨_, .d hc (.announce hd)⟩
  | wait =>
    have hi' := hi
    simp only [Inv, hd] at hi
    obtain ⟨h, l, evs, b2, qs, ⟨b1, a1, a2, a3, a4, a5, a6, a7⟩, a8, _⟩ := hi
    cases hp : s.p with
    | none => rw [hp] at a7; exact absurd a7 id
    | peek24 =>
      rcases peek_cases 24 s.br with ⟨v, b', h⟩ | ⟨e, b', h⟩
      · by_cases hv : v = 1
        · exact ⟨_, .p hc (.prefix hp h hv)⟩
        · exact ⟨_, .p hc (.no_prefix hp h hv)⟩
      · exact ⟨_, .p hc (.peek_err hp h)⟩
    | peek32 =>
      rcases peek_cases 32 s.br with ⟨v, b', h⟩ | ⟨e, b', h⟩
      · by_cases hv : v = packStartCode ∨ v = programEndCode
        · exact ⟨_, .p hc (.code_stop hp h hv)⟩
        · exact ⟨_, .p hc (.code_next hp h hv)⟩
      · exact ⟨_, .p hc (.code_err hp h)⟩
    | next =>
      rcases res_cases (m := newPacket) (b := s.br) (newPacket_returns _) with ⟨a, b', h⟩ | ⟨e, b', h⟩ | ⟨b', h⟩
      · exact ⟨_, .p hc (.packet hp h)⟩
      · exact ⟨_, .p hc (.packet_err hp h)⟩
      · exact ⟨_, .p hc (.packet_panic hp h)⟩
    | send q =>
      have : s.announced := by
        refine ⟨h, ?_⟩
        rw [a8 (by simp [hp]), a4]
        simp
      exact ⟨_, .p hc (.send hp this)⟩
    | close => exact ⟨_, .p hc (.close hp)⟩
    | complete => exact ⟨_, .d hc (.join hd hp)⟩
  | peekNext =>
    rcases peek_cases 32 s.br with ⟨v, b', h⟩ | ⟨e, b', h⟩
    · by_cases hv : v = packStartCode
      · exact ⟨_, .d hc (.next_pack hd h hv)⟩
      · exact ⟨_, .d hc (.next_other hd h hv)⟩
    · exact ⟨_, .d hc (.next_err hd h)⟩
  | peekEnd =>
    rcases peek_cases 32 s.br with ⟨v, b', h⟩ | ⟨e, b', h⟩
    · by_cases hv : v = programEndCode
      · exact ⟨_, .d hc (.end_ok hd h hv)⟩
      · exact ⟨_, .d hc (.end_other hd h hv)⟩
    · exact ⟨_, .d hc (.end_err hd h)⟩
  | closePacks => exact ⟨_, .d hc (.closePacks hd)⟩
  | sendDone => exact ⟨_, .d hc (.sendDone hd)⟩
  | closeDone => exact ⟨_, .d hc (.closeDone hd)⟩
  | finished => exact absurd hd hf

def wD : DPC → Nat
  | .readPack => 8 | .send _ => 11 | .wait => 10 | .peekNext => 9 | .peekEnd => 4
  | .closePacks => 3 | .sendDone => 2 | .closeDone => 1 | .finished => 0
def wP : PPC → Nat
  | .none => 0 | .peek24 => 5 | .peek32 => 4 | .next => 3 | .send _ => 6 | .close => 2 | .complete => 1

/-- decreases with every step -/
def weight (s : DSt) : Nat := 20 * s.br.size + wD s.d + wP s.p + (if s.crashed then 0 else 1)

theorem assert_dec {k c : Nat} {e : Err} {u : Unit} {s b : BR} (h : codeAssert k c e s = (.ok u, b)) :
    b.size + k = s.size := by
  unfold codeAssert codeCheck at h
  obtain ⟨t, s1, h1, g⟩ := Go.bind_eq_ok h
  obtain ⟨_, s2, h2, g2⟩ := Go.bind_eq_ok g
  obtain ⟨v, s3, h3, h4⟩ := Go.bind_eq_ok h1
  obtain ⟨hs3, hk, _⟩ := BR.peek_inv h3
  have e1 : s1 = s := by
    have := congrArg Prod.snd h4
    exact (this.symm.trans hs3)
  have e2 : s2 = s1 := by
    cases t with
    | true => simp only [Go.check_true, Go.pure_apply, Prod.mk.injEq, true_and] at h2; exact h2.symm
    | false => simp at h2
  subst e2 e1
  rw [BR.skip_ok hk] at g2
  have := congrArg Prod.snd g2
  simp only at this
  rw [← this]
  exact BR.size_adv_lt _ hk

theorem newPackHeader_dec {h : PackHeader} {s b : BR} (hh : newPackHeader s = (.ok h, b)) : b.size < s.size := by
  unfold newPackHeader at hh
  obtain ⟨x, s1, h1, hh⟩ := Go.bind_eq_ok hh
  have e1 : b.size ≤ s1.size := by
    have : Go.NonInc BR.size (do
        let t ← codeCheck 32 systemHeaderStartCode
        let sys ← Go.opt t none (some <$> readSystemHeader)
        pure { x with system := sys } : Go BR PackHeader) :=
      Go.NonInc.bind (noninc_codeCheck _ _) fun _ => Go.NonInc.bind
        (Go.NonInc.opt _ _ (Go.NonInc.map _ noninc_readSystemHeader)) fun _ => Go.NonInc.pure _
    have := this s1
    rw [hh] at this; exact this
  unfold readPackFixed at h1
  obtain ⟨_, s2, h2, h1⟩ := Go.bind_eq_ok h1
  have e2 := assert_dec h2
  have e3 : s1.size ≤ s2.size := by
    have : ∀ {α : Type} {m : Go BR α} {a : α}, Go.NonInc BR.size m → m s2 = (.ok a, s1) → s1.size ≤ s2.size := by
      intro α m a hm he
      have := hm s2
      rw [he] at this; exact this
    refine this ?_ h1
    repeat first
      | exact Go.NonInc.pure _
      | refine Go.NonInc.bind (BR.noninc_read _) fun _ => ?_
      | refine Go.NonInc.bind (noninc_marker _ _) fun _ => ?_
      | refine Go.NonInc.bind (BR.noninc_skip _) fun _ => ?_
      | refine Go.NonInc.bind (noninc_skipStuffing _) fun _ => ?_
  omega

theorem noninc_of {α : Type} {m : Go BR α} (hm : Go.NonInc BR.size m) {b b' : BR} {r : Res α}
    (h : m b = (r, b')) : b'.size ≤ b.size := by
  have := hm b; rw [h] at this; exact this

theorem noninc_newPacket : Go.NonInc BR.size newPacket := by
  intro b
  have := PES.next_noninc ⟨{}, b⟩
  unfold newPacket
  cases hn : PES.Packet.next ⟨{}, b⟩ with
  | mk r t => rw [hn] at this; cases r <;> exact this

theorem weight_dec {b0 : BR} {s s' : DSt} (hi : Inv b0 s) (hs : Step s s') : weight s' < weight s := by
  cases hs with
  | d hc hs =>
    cases hs with
    | header_err hpc h => have := noninc_of noninc_newPackHeader h; simp only [weight, hpc, wD, hc]; omega
    | header hpc h =>
      have e := newPackHeader_dec h
      have : s.p = .none := by
        simp only [Inv, hpc] at hi
        obtain ⟨l, ⟨_, _, a3⟩, _⟩ := hi
        exact a3
      simp only [weight, hpc, wD, hc, wP, this]; omega
    | announce hpc => simp only [weight, hpc, wD, hc]; omega
    | join hpc hp => simp only [weight, hpc, wD, hc, hp, wP]; omega
    | next_err hpc h => have := noninc_of (BR.noninc_peek _) h; simp only [weight, hpc, wD, hc]; omega
    | next_pack hpc h => have := noninc_of (BR.noninc_peek _) h; simp only [weight, hpc, wD, hc]; omega
    | next_other hpc h => have := noninc_of (BR.noninc_peek _) h; simp only [weight, hpc, wD, hc]; omega
    | end_err hpc h => have := noninc_of (BR.noninc_peek _) h; simp only [weight, hpc, wD, hc]; omega
    | end_other hpc h => have := noninc_of (BR.noninc_peek _) h; simp only [weight, hpc, wD, hc]; omega
    | end_ok hpc h => have := noninc_of (BR.noninc_peek _) h; simp only [weight, hpc, wD, hc]; omega
    | closePacks hpc => simp only [weight, hpc, wD, hc]; omega
    | sendDone hpc => simp only [weight, hpc, wD, hc]; omega
    | closeDone hpc => simp only [weight, hpc, wD, hc]; omega
  | p hc hs =>
    cases hs with
    | peek_err hpc h => have := noninc_of (BR.noninc_peek _) h; simp only [weight, hpc, wP, hc]; omega
    | no_prefix hpc h => have := noninc_of (BR.noninc_peek _) h; simp only [weight, hpc, wP, hc]; omega
    | «prefix» hpc h => have := noninc_of (BR.noninc_peek _) h; simp only [weight, hpc, wP, hc]; omega
    | code_err hpc h => have := noninc_of (BR.noninc_peek _) h; simp only [weight, hpc, wP, hc]; omega
    | code_stop hpc h => have := noninc_of (BR.noninc_peek _) h; simp only [weight, hpc, wP, hc]; omega
    | code_next hpc h => have := noninc_of (BR.noninc_peek _) h; simp only [weight, hpc, wP, hc]; omega
    | packet_err hpc h => have := noninc_of noninc_newPacket h; simp only [weight, hpc, wP, hc]; omega
    | packet_panic hpc h =>
      have := noninc_of noninc_newPacket h
      simp only [weight, hpc, wP, hc, Bool.false_eq_true, if_true, if_false]; omega
    | packet hpc h => have := newPacket_dec h; simp only [weight, hpc, wP, hc]; omega
    | send hpc _ => simp only [weight, hpc, wP, hc]; omega
    | close hpc => simp only [weight, hpc, wP, hc]; omega

end Mpeg.PS
