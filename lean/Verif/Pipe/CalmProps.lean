/-
C145: inputs on which the readers never panic.
-/
import Verif.TS.CalmSpec
import Verif.TS.PanicProps
import Verif.PES.PanicProps
import Verif.Pipe.ErrLemmas
set_option linter.all false
namespace Mpeg

/-- From a source with `I`, `m` does not panic and leaves a source with `I`. -/
def Calm {σ α : Type} (I : BR → Prop) (gt : σ → BR) (m : Go σ α) : Prop :=
  ∀ s, I (gt s) → (m s).1 ≠ .panic ∧ I (gt (m s).2)

theorem Calm.hang {σ α : Type} {I : BR → Prop} {gt : σ → BR} : Calm I gt (Go.hang : Go σ α) := fun s h => ⟨by simp, h⟩
theorem Calm.bind {σ α β : Type} {I : BR → Prop} {gt : σ → BR} {m : Go σ α} {f : α → Go σ β} (hm : Calm I gt m)
    (hf : ∀ a, Calm I gt (f a)) : Calm I gt (m >>= f) := by
  intro s hi
  have h1 := hm s hi
  rw [Go.bind_apply]
  cases h : m s with
  | mk r s' =>
    rw [h] at h1
    cases r with
    | ok a => exact hf a s' h1.2
    | err e => exact ⟨by simp, h1.2⟩
    | panic => exact absurd rfl h1.1
    | hang => exact ⟨by simp, h1.2⟩

theorem BR.Free.moves {P : List Bool → Prop} {a b : BR} (h : BR.Free P a) (hm : BR.Moves a b) : BR.Free P b := by
  intro g hg x w r e
  obtain ⟨g0, hg0, j, e0⟩ := hm.segs g hg
  exact h g0 hg0 (g0.take j ++ x) w r 
    ((List.take_append_drop j g0).symm.trans (by rw [← e0, e]; simp [List.append_assoc]))

/-! ### PES and program streams -/

namespace PES
open Spec

theorem calm_next : Calm (BR.Free PanicWord) St.br Packet.next := fun s h => by
  refine ⟨fun hp => ?_, h.moves (er_next.mv s)⟩
  obtain ⟨w, r, hw, e⟩ := (C143_pes s).mp hp
  exact h s.br.bits (by simp) [] w r (by simpa using e) hw

theorem calm_fill : ∀ f n out rem, Calm (BR.Free PanicWord) (fun r : PR => r.st.br) (PR.fill f n out rem)
  | 0, _, _, _ => .hang
  | f + 1, n, out, rem => fun r h => by
    have h1 := calm_next r.st h
    unfold PR.fill
    split
    · exact ⟨by simp, h⟩
    · cases hm : Packet.next r.st with
      | mk x st =>
        rw [hm] at h1
        cases x with
        | ok a => exact calm_fill f _ _ _ _ h1.2
        | err y => exact ⟨by simp, h1.2⟩
        | panic => exact absurd rfl h1.1
        | hang => exact ⟨by simp, h1.2⟩

/-- **C145**, PES: from every state of the reader, if the source does not contain a word of `PanicWord`, `Read` does not panic, and
the source still does not contain such a word, so that no later `Read` panics either, whatever has been reported in between. -/
theorem C145_pes (fuel n : Nat) (r : PR) (h : r.st.br.Free PanicWord) :
    (PR.read fuel n r).1 ≠ .panic ∧ (PR.read fuel n r).2.st.br.Free PanicWord :=
  calm_fill fuel _ _ _ _ h
end PES

namespace PS
open PES.Spec

theorem calm_newPacket : Calm (BR.Free PanicWord) id newPacket := fun s h => by
  have h1 := PES.calm_next ⟨{}, s⟩ h
  unfold newPacket
  cases hm : PES.Packet.next ⟨{}, s⟩ with
  | mk r b =>
    rw [hm] at h1
    cases r with
    | ok a => exact ⟨by simp, h1.2⟩
    | err e => exact ⟨by simp, h1.2⟩
    | panic => exact absurd rfl h1.1
    | hang => exact ⟨by simp, h1.2⟩

theorem calm_step : ∀ f k out, Calm (BR.Free PanicWord) PackReader.br (PackReader.step f k out)
  | 0, _, _ => .hang
  | f + 1, k, out => by
    have hmore : ∀ k out, Calm (BR.Free PanicWord) PackReader.br (PackReader.more (PackReader.step f) k out) := by
      intro k out r h
      have h1 := calm_newPacket r.br h
      unfold PackReader.more
      cases hm : newPacket r.br with
      | mk x b =>
        rw [hm] at h1
        cases x with
        | ok p =>
          dsimp only
          split
          · exact ⟨by simp, h1.2⟩
          · exact calm_step f _ _ { r with br := b } h1.2
        | err y => exact ⟨by simp, h1.2⟩
        | panic => exact absurd rfl h1.1
        | hang => exact ⟨by simp, h1.2⟩
    intro r h
    unfold PackReader.step
    have hp := BR.mv_peek 32 r.br
    have hps := BR.safe_peek 32 r.br
    cases hm : BR.peek 32 r.br with
    | mk x b =>
      rw [hm] at hp hps
      have hb := h.moves hp
      cases x with
      | ok v =>
        dsimp only
        split
        · exact ⟨by simp, hb.moves (BR.mv_skip 32 b)⟩
        · split
          · have hh := (er_packRest (F := [.markerNotFound, .unexpectedStartCode]) (by simp) (by simp)).mv b
            have hs := safe_newPackHeader b
            cases hn : newPackHeader b with
            | mk y b' =>
              rw [hn] at hh hs
              have hb' := hb.moves hh
              cases y with
              | ok v => exact hmore k out { r with br := b' } hb'
              | err e => exact ⟨by simp, hb'⟩
              | panic => exact absurd rfl hs.1
              | hang => exact ⟨by simp, hb'⟩
          · exact hmore k out { r with br := b } hb
      | err e => exact ⟨by simp, hb⟩
      | panic => exact absurd rfl hps.1
      | hang => exact ⟨by simp, hb⟩

/-- **C145**, program streams: the same for the pack reader. -/
theorem C145_ps (n : Nat) (r : PackReader) (h : r.br.Free PanicWord) :
    (PackReader.read n r).1 ≠ .panic ∧ (PackReader.read n r).2.br.Free PanicWord := by
  unfold PackReader.read
  split
  · exact ⟨by simp, h⟩
  · exact calm_step _ _ _ { r with remainder := [] } h
end PS

/-! ### transport streams -/

/-- From a source with `I`, `m` leaves a source with `I`. -/
def Keeps {σ α : Type} (I : BR → Prop) (gt : σ → BR) (m : Go σ α) : Prop := ∀ s, I (gt s) → I (gt (m s).2)

namespace Keeps
variable {σ α β : Type} {I : BR → Prop} {gt : σ → BR}
theorem pure (a : α) : Keeps I gt (Pure.pure a : Go σ α) := fun s h => h
theorem throw (e : Err) : Keeps I gt (Go.throw e : Go σ α) := fun s h => h
theorem modify {f : σ → σ} (h : ∀ s, gt (f s) = gt s) : Keeps I gt (Go.modify f) := fun s hi => by
  show I (gt (f s)); rw [h]; exact hi
theorem bind {m : Go σ α} {f : α → Go σ β} (hm : Keeps I gt m) (hf : ∀ a, Keeps I gt (f a)) : Keeps I gt (m >>= f) := by
  intro s hi
  have h1 := hm s hi
  rw [Go.bind_apply]
  cases h : m s with
  | mk r s' =>
    rw [h] at h1
    cases r with
    | ok a => exact hf a s' h1
    | err e => exact h1
    | panic => exact h1
    | hang => exact h1
theorem map {m : Go σ α} (f : α → β) (hm : Keeps I gt m) : Keeps I gt (f <$> m) := by
  rw [map_eq_pure_bind]; exact .bind hm fun _ => .pure _
theorem opt {c : Bool} {d : α} {m : Go σ α} (hm : Keeps I gt m) : Keeps I gt (Go.opt c d m) := by
  cases c
  · exact .pure _
  · exact hm
theorem ite {c : Prop} [Decidable c] {m m' : Go σ α} (hm : Keeps I gt m) (hm' : Keeps I gt m') :
    Keeps I gt (if c then m else m') := by split <;> assumption
theorem ignoreErr {m : Go σ α} (hm : Keeps I gt m) : Keeps I gt (Go.ignoreErr m) := by
  intro s hi
  have h1 := hm s hi
  unfold Go.ignoreErr
  cases h : m s with
  | mk r s' => rw [h] at h1; cases r <;> exact h1
end Keeps

namespace BR
variable {P : List Bool → Prop}
theorem FreeBytes.adv {s : BR} (h : s.FreeBytes P) {k : Nat} (hk : k ≤ s.bits.length) : (s.adv k).FreeBytes P := by
  obtain ⟨h1, h2, h3⟩ := h
  refine ⟨h1, ?_, fun a w r e ha => ?_⟩
  · simp only [BR.adv, List.length_drop]
    rw [show s.pos + k + (s.bits.length - k) = s.pos + s.bits.length by omega]
    exact h2
  · simp only [BR.adv] at e ha
    refine h3 (s.bits.take k ++ a) w r ((List.take_append_drop k s.bits).symm.trans (by rw [e]; simp [List.append_assoc])) ?_
    rw [List.length_append, List.length_take, Nat.min_eq_left hk, ← Nat.add_assoc]
    exact ha
theorem FreeBytes.fail {s : BR} (h : s.FreeBytes P) : s.failTo.FreeBytes P := by
  have := h.adv (Nat.le_refl s.bits.length)
  unfold failTo
  rw [h.1]
  simpa only [BR.adv, List.drop_length, h.1] using this

theorem quiet_read (k : Nat) : Keeps (FreeBytes P) (fun s : BR => s) (read k) := fun s h => by
  unfold read; split
  · rename_i hk; exact h.adv hk
  · exact h.fail
theorem quiet_peek (k : Nat) : Keeps (FreeBytes P) (fun s : BR => s) (peek k) := fun s h => by
  unfold peek; split
  · exact h
  · exact h.fail
theorem quiet_skip (k : Nat) : Keeps (FreeBytes P) (fun s : BR => s) (skip k) := fun s h => by
  unfold skip; split
  · rename_i hk; exact h.adv hk
  · exact h.fail
theorem quiet_read1 : Keeps (FreeBytes P) (fun s : BR => s) read1 := fun s h => by
  unfold read1; split
  · rename_i e; exact h.adv (by rw [e]; simp)
  · exact h.fail
theorem quiet_align : Keeps (FreeBytes P) (fun s : BR => s) align := fun s h => h.adv (by
  have : (s.pos + s.bits.length) % 8 = 0 := h.2.1
  show (8 - s.pos % 8) % 8 ≤ s.bits.length
  omega)
theorem quiet_readFull (n : Nat) : Keeps (FreeBytes P) (fun s : BR => s) (readFull n) := fun s h => by
  unfold readFull; split
  · rename_i hk; exact h.adv hk
  · exact h.fail
end BR

namespace TS
open Spec
abbrev Harmless : BR → Prop := BR.FreeBytes LongWord

theorem quiet_readFullUE (n : Nat) : Keeps Harmless (fun s : BR => s) (readFullUE n) := by
  unfold readFullUE
  exact .bind (BR.quiet_readFull n) fun r => (by split <;> first | exact .pure _ | exact .throw _)

macro "quiet_ts" : tactic => `(tactic| repeat' with_reducible first
  | refine Keeps.bind ?_ (fun _ => ?_)
  | exact Keeps.pure _
  | exact BR.quiet_read _
  | exact BR.quiet_read1
  | exact BR.quiet_skip _
  | exact BR.quiet_peek _
  | exact quiet_readFullUE _
  | refine Keeps.ignoreErr ?_
  | refine Keeps.opt ?_
  | refine Keeps.map _ ?_
  | refine Keeps.ite ?_ ?_)

theorem quiet_private : Keeps Harmless (fun s : BR => s) newTransportPrivateData := by unfold newTransportPrivateData; quiet_ts
theorem quiet_ext : Keeps Harmless (fun s : BR => s) newAdaptationExt := by
  unfold newAdaptationExt extFlags extLTW extPiecewise extSplice; quiet_ts
theorem quiet_adaptation : Keeps Harmless (fun s : BR => s) newAdaptationField := by
  unfold newAdaptationField afFlags readPcr
  repeat' with_reducible first
    | refine Keeps.bind ?_ (fun _ => ?_)
    | exact quiet_private
    | exact quiet_ext
    | quiet_ts; done
    | exact Keeps.pure _
    | refine Keeps.opt ?_
    | refine Keeps.map _ ?_

theorem quiet_lift {α : Type} {m : Go BR α} (h : Keeps Harmless (fun s : BR => s) m) : Keeps Harmless St.br (St.lift m) := fun s => h s.br
theorem quiet_readInto {α : Type} {m : Go BR α} {zero : α} {set : α → Packet → Packet} (h : Keeps Harmless (fun s : BR => s) m) :
    Keeps Harmless St.br (readInto m zero set) := fun s hs => by
  have := h s.br hs
  unfold readInto
  cases hm : m s.br with
  | mk r b => rw [hm] at this; cases r <;> exact this
theorem quiet_readAdaptation : Keeps Harmless St.br readAdaptation := fun s hs => by
  have := quiet_adaptation s.br hs
  unfold readAdaptation
  cases hm : newAdaptationField s.br with
  | mk r b => rw [hm] at this; cases r <;> exact this
theorem quiet_readPayload (n : Nat) : Keeps Harmless St.br (readPayload n) := fun s hs => by
  have := BR.quiet_readFull n s.br hs
  unfold readPayload
  split
  · exact hs
  · cases hm : BR.readFull n s.br with
    | mk r b =>
      rw [hm] at this
      cases r with
      | ok p => obtain ⟨bs, x⟩ := p; dsimp only; split <;> exact this
      | err x => exact this
      | panic => exact this
      | hang => exact this
theorem quiet_realignLoop : ∀ n, Keeps Harmless (fun s : BR => s) (realignLoop n)
  | 0 => .throw _
  | n + 1 => .bind (BR.quiet_peek _) fun _ => .ite (.pure _) (.bind (BR.quiet_skip _) fun _ => quiet_realignLoop n)
theorem quiet_sync : Keeps Harmless (fun s : BR => s) sync := by
  refine .bind (fun s h => ?_) fun _ => .bind (.opt fun s h => ?_) fun _ => BR.quiet_skip _
  · unfold isAligned; split
    · exact h
    · exact Keeps.bind (BR.quiet_peek _) (fun _ => .pure _) s h
  · unfold realign; split
    · exact Keeps.bind BR.quiet_align (fun _ => quiet_realignLoop _) s h
    · exact quiet_realignLoop _ s h
theorem quiet_next : Keeps Harmless St.br Packet.next := by
  unfold Packet.next
  repeat' with_reducible first
    | refine Keeps.bind ?_ (fun _ => ?_)
    | exact Keeps.pure _
    | exact quiet_lift quiet_sync
    | exact quiet_lift (BR.quiet_read _)
    | exact quiet_readInto (BR.quiet_read _)
    | exact quiet_readInto BR.quiet_read1
    | exact Keeps.modify fun _ => rfl
    | exact quiet_readAdaptation
    | exact quiet_readPayload _
    | refine Keeps.opt ?_

/-- The source is at a byte boundary, before a sync byte. -/
def AtSync (s : BR) : Prop := s.pos % 8 = 0 ∧ 8 ≤ s.bits.length ∧ natOfBits (s.bits.take 8) = syncByte

theorem realignLoop_at : ∀ (n : Nat) {s s' : BR}, s.pos % 8 = 0 → realignLoop n s = (.ok (), s') → AtSync s'
  | 0, s, s', _, h => by simp [realignLoop] at h
  | n + 1, s, s', h8, h => by
    unfold realignLoop at h
    replace h := Go.bind_eq_ok h
    obtain ⟨v, s1, h1, h⟩ := h
    obtain ⟨rfl, hk, hv⟩ := BR.peek_inv h1
    split at h
    · rename_i e
      obtain rfl : s1 = s' := congrArg Prod.snd h
      exact ⟨h8, hk, hv.symm.trans e⟩
    · obtain ⟨u, s2, h2, h⟩ := Go.bind_eq_ok h
      obtain ⟨l, t, hl⟩ := BR.skip_inv h2
      exact realignLoop_at n (by rw [t.pos, hl]; omega) h

theorem sync_at {s b : BR} (hs : Harmless s) (h : sync s = (.ok (), b)) :
    ∃ s0, Harmless s0 ∧ s0.pos % 8 = 0 ∧ BR.Took s0 (bitsOf 8 0x47) b := by
  unfold sync at h
  obtain ⟨a, s1, h1, h⟩ := Go.bind_eq_ok h
  obtain ⟨u, s2, h2, h⟩ := Go.bind_eq_ok h
  have q1 : Harmless s1 := by
    have : Harmless (isAligned s).2 := by
      unfold isAligned; split
      · exact hs
      · exact Keeps.bind (BR.quiet_peek _) (fun _ => .pure _) s hs
    rw [h1] at this; exact this
  suffices hh : Harmless s2 ∧ AtSync s2 by
    obtain ⟨q, h8, hk, hv⟩ := hh
    refine ⟨s2, q, h8, ?_⟩
    have e : BR.skip 8 s2 = (.ok (), s2.adv 8) := by unfold BR.skip; rw [if_pos hk]
    rw [e] at h
    obtain rfl : s2.adv 8 = b := congrArg Prod.snd h
    have := BR.took_adv hk
    rw [← bitsOf_natOfBits' (show (s2.bits.take 8).length = 8 by rw [List.length_take]; omega), hv] at this
    exact this
  cases a with
  | true =>
    obtain rfl : s1 = s2 := congrArg Prod.snd h2
    refine ⟨q1, ?_⟩
    unfold isAligned at h1
    split at h1
    · simp at h1
    · rename_i ha
      replace h1 := Go.bind_eq_ok h1
      obtain ⟨v, s3, h3, h1⟩ := h1
      obtain ⟨rfl, hk, hv⟩ := BR.peek_inv h3
      simp only [Go.pure_apply, Prod.mk.injEq, Res.ok.injEq, beq_iff_eq] at h1
      obtain ⟨e, rfl⟩ := h1
      exact ⟨by simpa [BR.isAligned] using ha, hk, hv.symm.trans e⟩
  | false =>
    change realign s1 = _ at h2
    constructor
    · have : Harmless (realign s1).2 := by
        unfold realign; split
        · exact Keeps.bind BR.quiet_align (fun _ => quiet_realignLoop _) s1 q1
        · exact quiet_realignLoop _ s1 q1
      rw [h2] at this; exact this
    · unfold realign at h2
      split at h2
      · obtain ⟨_, s3, h3, h2⟩ := Go.bind_eq_ok h2
        refine realignLoop_at _ ?_ h2
        obtain rfl : s1.adv ((8 - s1.pos % 8) % 8) = s3 := congrArg Prod.snd h3
        simp only [BR.adv]; omega
      · rename_i ha
        exact realignLoop_at _ (by simpa [BR.isAligned] using ha) h2

theorem adaptation_length {s s' : BR} {af : AdaptationField} {n : Nat} (h : newAdaptationField s = (.ok (af, n), s')) :
    ∃ s1, BR.Took s (bitsOf 8 n) s1 ∧ n < 256 := by
  unfold newAdaptationField at h
  obtain ⟨len, s1, h1, h⟩ := Go.bind_eq_ok h
  iterate 7 obtain ⟨_, _, _, h⟩ := Go.bind_eq_ok h
  simp at h
  obtain ⟨t, l⟩ := read_bits h1
  rw [← h.1.2]
  exact ⟨s1, t, l⟩

theorem calm_next : Calm Harmless St.br Packet.next := fun s hs => by
  refine ⟨fun hp => ?_, quiet_next s hs⟩
  obtain ⟨h, b1, b2, b3, af, len, wf, h1, t, ha, hlen⟩ := (C143_ts s).mp hp
  obtain ⟨s0, q, h8, t0⟩ := sync_at hs h1
  obtain ⟨b4, t4, hl⟩ := adaptation_length ha
  have tt := (t0.trans t).trans t4
  exact q.2.2 [] (encHdr h 3 ++ bitsOf 8 len) b4.bits (by rw [tt.bits]; simp [encHdr, hdrTail]) (by simpa using h8)
    ⟨h, len, wf, hlen, hl, rfl⟩

theorem PR.calm_realign (t : Tester) : ∀ f, Calm Harmless (fun r : PR => r.st.br) (PR.realign t f)
  | 0 => .hang
  | f + 1 => fun r h => by
    have h1 := calm_next r.st h
    unfold PR.realign
    cases hm : Packet.next r.st with
    | mk x st =>
      rw [hm] at h1
      cases x with
      | panic => exact absurd rfl h1.1
      | hang => exact ⟨by simp, h1.2⟩
      | ok a => dsimp only; split
                · exact ⟨by simp, h1.2⟩
                · exact PR.calm_realign t f { r with st := st } h1.2
      | err a => dsimp only; split
                 · exact ⟨by simp, h1.2⟩
                 · exact PR.calm_realign t f { r with st := st } h1.2

theorem PR.calm_fill (c : PRCfg) : ∀ f n out rem, Calm Harmless (fun r : PR => r.st.br) (PR.fill c f n out rem)
  | 0, _, _, _ => .hang
  | f + 1, n, out, rem => fun r h => by
    have h1 := calm_next r.st h
    unfold PR.fill
    split
    · exact ⟨by simp, h⟩
    · cases hm : Packet.next r.st with
      | mk x st =>
        rw [hm] at h1
        cases x with
        | panic => exact absurd rfl h1.1
        | hang => exact ⟨by simp, h1.2⟩
        | err e => exact ⟨by simp, h1.2⟩
        | ok a =>
          dsimp only
          split
          · exact ⟨by simp, h1.2⟩
          · exact PR.calm_fill c f _ _ _ { r with st := st } h1.2

/-- **C145**, transport streams: from every state of the payload reader, if the rest of the source is one run of whole bytes in which
no `LongWord` begins with a byte, `Read` does not panic, and the rest of the source is still such a run, so that no later `Read`
panics either. -/
theorem C145_payload (c : PRCfg) (fuel n : Nat) (r : PR) (h : r.st.br.FreeBytes LongWord) :
    (PR.read c fuel n r).1 ≠ .panic ∧ (PR.read c fuel n r).2.st.br.FreeBytes LongWord := by
  have hd : ∀ n, Calm Harmless (fun r : PR => r.st.br) (PR.drain c fuel n) := fun n r h =>
    PR.calm_fill c fuel _ _ _ { r with remainder := r.remainder.drop n } h
  unfold PR.read
  split
  · exact ⟨by simp, h⟩
  · split
    · exact hd n r h
    · split
      · exact hd n { r with started := true } h
      · exact Calm.bind (PR.calm_realign _ fuel) (fun _ => hd n) { r with started := true } h

theorem PU.calm_seek (w : Tester) : ∀ f, Calm Harmless (fun r : PU => r.st.br) (PU.seek w f)
  | 0 => .hang
  | f + 1 => fun r h => by
    have h1 := calm_next r.st h
    unfold PU.seek
    split
    · exact ⟨by simp, h⟩
    · cases hm : Packet.next r.st with
      | mk x st =>
        rw [hm] at h1
        cases x with
        | panic => exact absurd rfl h1.1
        | hang => exact ⟨by simp, h1.2⟩
        | err e => exact ⟨by simp, h1.2⟩
        | ok a => exact PU.calm_seek w f { r with st := st } h1.2

theorem PU.calm_collect (w : Tester) : ∀ f, Calm Harmless (fun r : PU => r.st.br) (PU.collect w f)
  | 0 => .hang
  | f + 1 => fun r h => by
    unfold PU.collect
    generalize hr : (if w r.st.pkt then { r with buffer := r.buffer ++ r.st.pkt.payload } else r) = r1
    have h' : Harmless r1.st.br := by rw [← hr]; split <;> exact h
    have h1 := calm_next r1.st h'
    dsimp only
    cases hm : Packet.next r1.st with
    | mk x st =>
      rw [hm] at h1
      cases x with
      | panic => exact absurd rfl h1.1
      | hang => exact ⟨by simp, h1.2⟩
      | err e => exact ⟨by simp, h1.2⟩
      | ok a =>
        dsimp only
        split
        · exact ⟨by simp, h1.2⟩
        · exact PU.calm_collect w f { r1 with st := st } h1.2

/-- **C145**: the same for the payload unit reader. -/
theorem C145_unit (w : Tester) (fuel n : Nat) (r : PU) (h : r.st.br.FreeBytes LongWord) :
    (PU.read w fuel n r).1 ≠ .panic ∧ (PU.read w fuel n r).2.st.br.FreeBytes LongWord := by
  have hg : ∀ n, Calm Harmless (fun r : PU => r.st.br) (PU.give n) := fun n r h => by
    unfold PU.give; split <;> exact ⟨by simp, h⟩
  unfold PU.read
  split
  · exact hg n r h
  · refine Calm.bind (I := Harmless) (gt := fun r : PU => r.st.br) (fun r h => ?_) (fun e => ?_) r h
    · unfold PU.fill
      split
      · exact PU.calm_collect w fuel r h
      · refine Calm.bind (PU.calm_seek w fuel) (fun e => ?_) { r with started := true } h
        cases e with
        | some e => exact fun r h => ⟨by simp, h⟩
        | none => exact PU.calm_collect w fuel
    · cases e with
      | some e => exact fun r h => ⟨by simp, h⟩
      | none => exact Calm.bind (fun r h => ⟨by simp, h⟩) fun _ => hg n

/-- A word at a byte boundary, seen in the bytes. -/
theorem long_at {bs : List UInt8} {a w r : List Bool} (e : bitsOfBytes bs = a ++ w ++ r) (ha : a.length % 8 = 0) (hw : LongWord w) :
    ∃ i, LongAt bs i := by
  obtain ⟨h, n, ⟨hp, ht, hc⟩, hn, hn', rfl⟩ := hw
  refine ⟨a.length / 8, ?_⟩
  have hlen : 8 * bs.length = a.length + 40 + r.length := by
    have := congrArg List.length e
    simp [encHdr] at this; omega
  have e1 : bitsOfBytes (bs.drop (a.length / 8)) = (encHdr h 3 ++ bitsOf 8 n) ++ r := by
    have h0 : bitsOfBytes (bs.take (a.length / 8)) ++ bitsOfBytes (bs.drop (a.length / 8)) = a ++ ((encHdr h 3 ++ bitsOf 8 n) ++ r) := by
      rw [← bitsOfBytes_append, List.take_append_drop, e, List.append_assoc]
    exact (List.append_inj h0 (by simp; omega)).2
  have hd : ∀ k, bs[a.length / 8 + k]? = (bs.drop (a.length / 8))[k]? := fun k => by rw [List.getElem?_drop]
  have hl : 5 ≤ (bs.drop (a.length / 8)).length := by simp; omega
  unfold LongAt
  rw [hd 3, hd 4, show a.length / 8 = a.length / 8 + 0 from rfl, hd 0]
  generalize bs.drop (a.length / 8) = ds at e1 hl
  match ds, hl with
  | b0 :: b1 :: b2 :: b3 :: b4 :: t, _ =>
    simp only [bitsOfBytes_cons] at e1
    have s0 : bitsOf 8 b0.toNat ++ ((bitsOf 8 b1.toNat ++ bitsOf 8 b2.toNat) ++ (bitsOf 8 b3.toNat ++ (bitsOf 8 b4.toNat ++ bitsOfBytes t))) =
        bitsOf 8 0x47 ++ ((h.tei :: h.pusi :: h.prio :: bitsOf 13 h.pid) ++ ((bitsOf 2 h.tsc ++
          (bitsOf 2 3 ++ bitsOf 4 h.cc)) ++ (bitsOf 8 n ++ r))) := by
      simpa [encHdr, List.append_assoc] using e1
    obtain ⟨f0, s1⟩ := List.append_inj s0 (by simp)
    obtain ⟨_, s2⟩ := List.append_inj s1 (by simp)
    obtain ⟨f3, s3⟩ := List.append_inj s2 (by simp)
    obtain ⟨f4, _⟩ := List.append_inj s3 (by simp)
    have g0 := congrArg natOfBits f0
    have g3 := congrArg natOfBits f3
    have g4 := congrArg natOfBits f4
    rw [natOfBits_bitsOf_of_lt b0.toNat_lt, natOfBits_bitsOf_of_lt (by decide)] at g0
    rw [natOfBits_bitsOf_of_lt b3.toNat_lt, natOfBits_append, natOfBits_append, natOfBits_bitsOf, natOfBits_bitsOf, natOfBits_bitsOf] at g3
    rw [natOfBits_bitsOf_of_lt b4.toNat_lt, natOfBits_bitsOf_of_lt (by simpa using hn')] at g4
    simp only [length_bitsOf, List.length_append] at g3
    refine ⟨?_, b3, b4, rfl, rfl, by omega, by omega⟩
    simp only [List.getElem?_cons_zero, Option.some.injEq]
    exact UInt8.toNat_inj.mp g0

/-- **C145** on bytes: if at no place of the input there is a sync byte followed, three bytes further, by adaptation_field_control 11 and
a length above 183, then no sequence of Reads of a payload reader or payload unit reader panics, with whatever testers. -/
theorem C145_ts_bytes (bs : List UInt8) (h : ∀ i, ¬ LongAt bs i) :
    (∀ c fuel ns, (PR.reads c fuel ns (PR.new (BR.ofBytes bs))).1 ≠ .panic) ∧
    (∀ w fuel ns, (PU.reads w fuel ns (PU.new (BR.ofBytes bs))).1 ≠ .panic) := by
  have q : Harmless (BR.ofBytes bs) := by
    refine ⟨rfl, ?_, fun a w r e ha hw => ?_⟩
    · show (0 + (bitsOfBytes bs).length) % 8 = 0
      simp
    · obtain ⟨i, hi⟩ := long_at e (by simpa [BR.ofBytes, BR.ofBits] using ha) hw
      exact h i hi
  constructor
  · intro c fuel ns
    have : Calm Harmless (fun r : PR => r.st.br) (PR.reads c fuel ns) := by
      induction ns with
      | nil => exact fun r h => ⟨by simp [PR.reads], h⟩
      | cons n ns ih =>
        refine Calm.bind (fun r h => C145_payload c fuel n r h) fun o => ?_
        split
        · exact fun r h => ⟨by simp, h⟩
        · exact Calm.bind ih fun _ r h => ⟨by simp, h⟩
    exact (this _ q).1
  · intro w fuel ns
    have : Calm Harmless (fun r : PU => r.st.br) (PU.reads w fuel ns) := by
      induction ns with
      | nil => exact fun r h => ⟨by simp [PU.reads], h⟩
      | cons n ns ih =>
        refine Calm.bind (fun r h => C145_unit w fuel n r h) fun o => ?_
        split
        · exact Calm.bind ih fun _ r h => ⟨by simp, h⟩
        · exact fun r h => ⟨by simp, h⟩
    exact (this _ q).1

/-- A packet with an adaptation field of 183 bytes behind noise meets the hypothesis, ... -/
example : ∀ i, ¬ LongAt (1 :: 0x47 :: 0 :: 0 :: 0x30 :: 183 :: List.replicate 183 0) i := by
  have ht : (0x47 : UInt8) ∉ List.replicate 183 (0 : UInt8) := by rw [List.mem_replicate]; decide
  generalize List.replicate 183 (0 : UInt8) = t at ht
  rintro i ⟨h, c, n, h3, h4, h5, h6⟩
  rcases i with _ | _ | _ | _ | _ | _ | i <;> simp at h h4
  · subst h4; exact absurd h6 (by decide)
  · exact ht (List.mem_of_getElem? h)

/-- ... one of 184 bytes does not, and panics. -/
example : LongAt (1 :: 0x47 :: 0 :: 0 :: 0x30 :: 184 :: List.replicate 184 0) 1 ∧
    (PR.reads { whre := alwaysTrue } 9 [1] (PR.new (BR.ofBytes (1 :: 0x47 :: 0 :: 0 :: 0x30 :: 184 :: List.replicate 184 0)))).1 = .panic :=
  ⟨⟨rfl, 0x30, 184, rfl, rfl, by decide, by decide⟩, by decide +kernel⟩
end TS

/-! ### a condition on the source that is easy to check -/

namespace PES
open Spec

theorem panicHead_flag {id len sc hdl : Nat} {b : Bool × Bool × Bool × Bool} {t : Stamps} {f : Bool × Bool × Bool × Bool × Bool × Bool}
    (hid : id < 256) (hh : id ∉ noHeaderIds) (hf : (f.1 || f.2.1 || f.2.2.1 || f.2.2.2.1 || f.2.2.2.2.1 || f.2.2.2.2.2) = true) :
    ∃ w r, panicHead id len sc hdl b t f = w ++ r ∧ FlagWord w := by
  refine ⟨bitsOf 24 1 ++ (bitsOf 8 id ++ (bitsOf 16 len ++ ([true, false] ++ ((bitsOf 2 sc ++ [b.1, b.2.1, b.2.2.1, b.2.2.2] ++
    bitsOf 2 t.flags) ++ [f.1, f.2.1, f.2.2.1, f.2.2.2.1, f.2.2.2.2.1, f.2.2.2.2.2])))), bitsOf 8 hdl ++ encStamps t, ?_, ?_⟩
  · simp [panicHead, encStart, List.append_assoc, show bitsOf 2 2 = [true, false] from rfl]
  · refine ⟨by simp, ?_, ?_, ?_, ?_⟩
    · exact List.take_left' (by simp)
    · rw [List.drop_left' (by simp), List.take_left' (by simp), natOfBits_bitsOf_of_lt (by simpa using hid)]
      exact hh
    · rw [← List.append_assoc, ← List.append_assoc, List.drop_left' (by simp)]
      rfl
    · rw [← List.append_assoc, ← List.append_assoc, ← List.append_assoc, ← List.append_assoc, List.drop_left' (by simp)]
      simpa [Bool.or_assoc] using hf

theorem panicWord_flag {w : List Bool} (h : PanicWord w) : ∃ v r, w = v ++ r ∧ FlagWord v := by
  cases h with
  | flag id len sc hdl b t f0 f1 f2 f3 f4 f5 hid _ hh _ _ hf => exact panicHead_flag hid hh (by simp at hf ⊢; simp [hf])
  | ext id len sc hdl b t w hid _ hh _ _ _ =>
    obtain ⟨v, r, e, hv⟩ := panicHead_flag (len := len) (sc := sc) (hdl := hdl) (b := b) (t := t)
      (f := (false, false, false, false, false, true)) hid hh rfl
    exact ⟨v, r ++ w, by rw [e, List.append_assoc], hv⟩

theorem free_of_flag {s : BR} (h : s.Free FlagWord) : s.Free PanicWord := fun g hg a w r e hw => by
  obtain ⟨v, r', rfl, hv⟩ := panicWord_flag hw
  exact h g hg a v (r' ++ r) (by rw [e]; simp [List.append_assoc]) hv

theorem free_iff {bs : List Bool} : (BR.ofBits bs).Free FlagWord ↔ ∀ i < bs.length, ¬ FlagWord ((bs.drop i).take 64) := by
  constructor
  · intro h i _ hw
    exact h bs (by simp [BR.ofBits]) (bs.take i) _ ((bs.drop i).drop 64) (by
      rw [List.append_assoc, List.take_append_drop, List.take_append_drop]) hw
  · intro h g hg a w r e hw
    obtain rfl : g = bs := by simpa [BR.ofBits] using hg
    have hl := hw.1
    refine h a.length (by rw [e]; simp; omega) ?_
    rw [e, List.append_assoc, List.drop_left, ← hl, List.take_left]
    exact hw

/-- A packet with a time stamp, then one without header, then garbage: no Read on it panics. -/
example (fuel n : Nat) : (PR.read fuel n (PR.new (BR.ofBytes
    [0, 0, 1, 0xE0, 0, 10, 0x80, 0x80, 5, 0x21, 0, 1, 0, 1, 7, 8, 0, 0, 1, 0xBE, 0, 2, 0xFF, 0xFF, 9, 9]))).1 ≠ .panic :=
  (C145_pes fuel n _ (free_of_flag (free_iff.mpr (by decide +kernel)))).1

/-- A packet whose time stamp does not begin with its marker; four bits further there is a packet with an ESCR. -/
def shifted : List UInt8 := [0, 0, 1, 0xE0, 0, 0, 0x80, 0x80, 5, 0, 0, 0, 0x1E, 0, 0, 0x08, 0x02, 0, 0, 0, 0, 0]

/-- **C145**: it does not suffice that no panic word begins with a byte.  A missing marker leaves the reader in the middle of a byte, and
the next `Read` finds a start code prefix there. -/
theorem C145_aligned_false : ∃ bs : List UInt8,
    (∀ i < bs.length, ∀ w r, (bitsOfBytes bs).drop (8 * i) = w ++ r → ¬ PanicWord w) ∧
    (PR.read 9 1 (PR.new (BR.ofBytes bs))).1 = .ok ([], some .markerNotFound) ∧
    (PR.read 9 1 (PR.read 9 1 (PR.new (BR.ofBytes bs))).2).1 = .panic := by
  refine ⟨shifted, fun i hi w r e hw => ?_, by decide +kernel, by decide +kernel⟩
  obtain ⟨v, r', rfl, hv⟩ := panicWord_flag hw
  have hno : ∀ i < shifted.length, ¬ FlagWord (((bitsOfBytes shifted).drop (8 * i)).take 64) := by decide +kernel
  refine hno i hi ?_
  rw [e, List.append_assoc, List.take_left' hv.1]
  exact hv
end PES
end Mpeg
