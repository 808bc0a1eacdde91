/-
The errors of the transport stream, PES and program stream parsers and readers.
-/
import Verif.Video.ErrLemmas
import Verif.TS.ReaderModel
import Verif.PS.Model
set_option linter.all false
namespace Mpeg
open BR
variable {F : List Err}

namespace BR
theorem mv_readFull (n : Nat) : BR.Mv (readFull n) := fun s => by
  unfold readFull; split
  · exact .adv _ .refl
  · exact .fail .refl
theorem readFull_err {n : Nat} {s s' : BR} {bs : List UInt8} {e : Err} (h : readFull n s = (.ok (bs, some e), s')) :
    s.Says e ∧ s.Left s' := by
  unfold readFull at h; split at h
  · cases h
  · cases h; exact ⟨says_failErr s, left_failTo s⟩
theorem Says.ue {s : BR} (h : s.Says .eof) : s.Says .unexpectedEOF := by
  rcases h with h | ⟨h, _⟩
  · exact .inr ⟨rfl, h⟩
  · cases h
end BR

namespace TS
theorem er_readFullUE (n : Nat) : BR.Er F (readFullUE n) := by
  refine ⟨.bind (mv_readFull n) fun r => (by split <;> first | exact .pure _ | exact .throw _), fun s e s' h => ?_⟩
  unfold readFullUE at h
  rw [Go.bind_apply] at h
  cases hr : readFull n s with
  | mk r s1 =>
    rw [hr] at h
    cases r with
    | ok p =>
      obtain ⟨bs, x⟩ := p
      dsimp only at h
      cases x with
      | none => cases h
      | some x =>
        have := readFull_err hr
        cases x <;> cases h <;> first | exact .inr this | exact .inr ⟨this.1.ue, this.2⟩
    | err x => unfold readFull at hr; split at hr <;> cases hr
    | panic => cases h
    | hang => cases h

macro "er_ts" : tactic => `(tactic| repeat' with_reducible first
  | refine Go.Er.bind ?_ (fun _ => ?_)
  | exact Go.Er.pure _
  | exact Go.Er.check
  | exact Go.Er.panic
  | exact Go.Er.throw _
  | exact er_read _
  | exact er_read1
  | exact er_skip _
  | exact er_peek _
  | exact er_codeAssert _ _ _
  | exact er_readFullUE _
  | refine Go.Er.ignoreErr ?_
  | refine Go.Er.opt ?_
  | refine Go.Er.map _ ?_
  | refine Go.Er.ite ?_ ?_)

theorem er_private : BR.Er F newTransportPrivateData := by unfold newTransportPrivateData; er_ts
theorem er_ext : BR.Er F newAdaptationExt := by
  unfold newAdaptationExt extFlags extLTW extPiecewise extSplice; er_ts
theorem er_adaptation : BR.Er F newAdaptationField := by
  unfold newAdaptationField afFlags readPcr
  repeat' with_reducible first
    | refine Go.Er.bind ?_ (fun _ => ?_)
    | exact er_private
    | exact er_ext
    | er_ts; done
    | exact Go.Er.pure _
    | refine Go.Er.opt ?_
    | refine Go.Er.map _ ?_

theorem er_lift {α : Type} {m : Go BR α} (h : BR.Er F m) : Go.Er F St.br (St.lift m) := ⟨fun s => h.mv s.br, fun s e s' hm => by
  have h1 : (m s.br).1 = .err e := congrArg Prod.fst hm
  have h2 : s' = _ := (congrArg Prod.snd hm).symm
  subst h2
  exact h.er s.br e _ (Prod.ext h1 rfl)⟩
theorem er_readInto {α : Type} {m : Go BR α} {zero : α} {set : α → Packet → Packet} (h : BR.Er F m) :
    Go.Er F St.br (readInto m zero set) := by
  refine ⟨fun s => ?_, fun s e s' hs => ?_⟩
  · have := h.mv s.br
    unfold readInto
    cases hm : m s.br with
    | mk r b => rw [hm] at this; cases r <;> exact this
  · have := h.er s.br
    unfold readInto at hs
    cases hm : m s.br with
    | mk r b =>
      rw [hm] at hs
      cases r with
      | ok a => cases hs
      | err x => cases hs; exact this _ _ hm
      | panic => cases hs
      | hang => cases hs
theorem er_readAdaptation : Go.Er F St.br readAdaptation := by
  refine ⟨fun s => ?_, fun s e s' hs => ?_⟩
  · have := (er_adaptation (F := F)).mv s.br
    unfold readAdaptation
    cases hm : newAdaptationField s.br with
    | mk r b => rw [hm] at this; cases r <;> exact this
  · have := (er_adaptation (F := F)).er s.br
    unfold readAdaptation at hs
    cases hm : newAdaptationField s.br with
    | mk r b =>
      rw [hm] at hs
      cases r with
      | ok a => cases hs
      | err x => cases hs; exact this _ _ hm
      | panic => cases hs
      | hang => cases hs
theorem er_readPayload (n : Nat) : Go.Er F St.br (readPayload n) := by
  refine ⟨fun s => ?_, fun s e s' hs => ?_⟩
  · have := mv_readFull n s.br
    unfold readPayload
    split
    · exact .refl
    · cases hm : readFull n s.br with
      | mk r b =>
        rw [hm] at this
        cases r with
        | ok p => obtain ⟨bs, x⟩ := p; dsimp only; split <;> exact this
        | err x => exact this
        | panic => exact this
        | hang => exact this
  · unfold readPayload at hs
    split at hs
    · cases hs
    · cases hm : readFull n s.br with
      | mk r b =>
        rw [hm] at hs
        cases r with
        | ok p =>
          obtain ⟨bs, x⟩ := p
          dsimp only at hs
          cases x with
          | none => cases hs
          | some x =>
            have := readFull_err hm
            cases x <;> cases hs <;> first | exact .inr this | exact .inr ⟨this.1.ue, this.2⟩
        | err x => unfold readFull at hm; split at hm <;> cases hm
        | panic => cases hs
        | hang => cases hs
theorem er_realignLoop (h : .noSyncByte ∈ F) : ∀ n, BR.Er F (realignLoop n)
  | 0 => .throw _
  | n + 1 => .bind (er_peek _) fun _ => .ite (.pure _) (.bind (er_skip _) fun _ => er_realignLoop h n)
theorem er_realign (h : .noSyncByte ∈ F) : BR.Er F realign := by
  have h1 : BR.Er F (do BR.align; realignLoop 188) := .bind er_align fun _ => er_realignLoop h _
  have h2 := er_realignLoop h 188
  refine ⟨fun s => ?_, fun s e s' hs => ?_⟩
  · unfold realign; split
    · exact h1.mv s
    · exact h2.mv s
  · unfold realign at hs; split at hs
    · exact h1.er s e s' hs
    · exact h2.er s e s' hs
theorem er_isAligned : BR.Er F isAligned := by
  have h1 : BR.Er F (do let v ← BR.peek 8; pure (v == syncByte)) := .bind (er_peek _) fun _ => .pure _
  refine ⟨fun s => ?_, fun s e s' hs => ?_⟩
  · unfold isAligned; split
    · exact .refl
    · exact h1.mv s
  · unfold isAligned at hs; split at hs
    · cases hs
    · exact h1.er s e s' hs
theorem er_sync (h : .noSyncByte ∈ F) : BR.Er F sync :=
  .bind er_isAligned fun _ => .bind (.opt (er_realign h)) fun _ => er_skip _
theorem er_next (h : .noSyncByte ∈ F := by er_mem) : Go.Er F St.br Packet.next := by
  unfold Packet.next
  repeat' with_reducible first
    | refine Go.Er.bind ?_ (fun _ => ?_)
    | exact Go.Er.pure _
    | exact er_lift (er_sync h)
    | exact er_lift (er_read _)
    | exact er_readInto (er_read _)
    | exact er_readInto er_read1
    | exact Go.Er.modify fun _ => rfl
    | exact er_readAdaptation
    | exact er_readPayload _
    | refine Go.Er.opt ?_

theorem next_mv : Go.Mv St.br Packet.next := (er_next (F := [.noSyncByte])).mv

theorem mv_prealign (t : Tester) : ∀ f, Go.Mv (fun r : PR => r.st.br) (PR.realign t f)
  | 0 => .hang
  | f + 1 => fun r => by
    have := next_mv r.st
    unfold PR.realign
    cases hm : Packet.next r.st with
    | mk x st =>
      rw [hm] at this
      cases x with
      | ok a => dsimp only; split; exact this; exact this.trans (mv_prealign t f { r with st := st })
      | err e => dsimp only; split; exact this; exact this.trans (mv_prealign t f { r with st := st })
      | panic => exact this
      | hang => exact this

/-- The errors a payload reader reports: of the packets, or `io.EOF` when the reader is closed. -/
def PRErr (c : PRCfg) (r' : PR) (e : Err) : Prop := e = .noSyncByte ∨ (e = .eof ∧ r'.closed = true ∧ c.takeWhile r'.st.pkt = false)

theorem er_prfill (c : PRCfg) : ∀ f n out rem (r r' : PR) o e, PR.fill c f n out rem r = (.ok (o, some e), r') →
    PRErr c r' e ∨ (r.st.br.Says e ∧ r.st.br.Left r'.st.br)
  | 0, _, _, _, _, _, _, _, h => by cases h
  | f + 1, n, out, rem, r, r', o, e, h => by
    have h0 := next_mv r.st
    have h1 := (er_next (F := [.noSyncByte])).er r.st
    unfold PR.fill at h
    split at h
    · cases h
    · cases hm : Packet.next r.st with
      | mk x st =>
        rw [hm] at h h0
        cases x with
        | ok a =>
          dsimp only at h
          split at h
          · rename_i ht
            cases h; exact .inl (.inr ⟨rfl, rfl, ht⟩)
          · exact (er_prfill c f _ _ _ _ _ _ _ h).imp id fun ⟨g1, g2⟩ => ⟨h0.says g1, g2.of_moves h0⟩
        | err y =>
          cases h
          exact (h1 _ _ hm).imp (fun g => .inl (by simpa using g)) id
        | panic => cases h
        | hang => cases h

theorem er_drain (c : PRCfg) (fuel n : Nat) (r r' : PR) (o : List UInt8) (e : Err)
    (h : PR.drain c fuel n r = (.ok (o, some e), r')) : PRErr c r' e ∨ (r.st.br.Says e ∧ r.st.br.Left r'.st.br) :=
  er_prfill c _ _ _ _ { r with remainder := r.remainder.drop n } r' o e h

theorem er_prread (c : PRCfg) (fuel n : Nat) (r r' : PR) (o : List UInt8) (e : Err)
    (hc : r.closed = false) (h : PR.read c fuel n r = (.ok (o, some e), r')) :
    PRErr c r' e ∨ (r.st.br.Says e ∧ r.st.br.Left r'.st.br) := by
  unfold PR.read at h
  rw [if_neg (by rw [hc]; decide)] at h
  split at h
  · exact er_drain c _ _ _ _ _ _ h
  · split at h
    · exact er_drain c fuel n { r with started := true } _ _ _ h
    · rename_i t _
      rw [Go.bind_apply] at h
      have h0 := mv_prealign t fuel { r with started := true }
      cases hm : PR.realign t fuel { r with started := true } with
      | mk x r1 =>
        rw [hm] at h h0
        cases x with
        | ok a =>
          exact (er_drain c _ _ _ _ _ _ h).imp id fun ⟨g1, g2⟩ => ⟨h0.says g1, g2.of_moves h0⟩
        | err y => cases h
        | panic => cases h
        | hang => cases h

theorem puseek (w : Tester) : ∀ f (r : PU), BR.Moves r.st.br (PU.seek w f r).2.st.br ∧
    ∀ e r', PU.seek w f r = (.ok (some e), r') → e = .noSyncByte ∨ (r.st.br.Says e ∧ r.st.br.Left r'.st.br)
  | 0, r => ⟨.refl, fun e r' h => by cases h⟩
  | f + 1, r => by
    have h0 := next_mv r.st
    have h1 := (er_next (F := [.noSyncByte])).er r.st
    unfold PU.seek
    split
    · exact ⟨.refl, fun e r' h => by cases h⟩
    · cases hm : Packet.next r.st with
      | mk x st =>
        rw [hm] at h0
        cases x with
        | ok a =>
          have ih := puseek w f { r with st := st }
          exact ⟨h0.trans ih.1, fun e r' h => (ih.2 e r' h).imp id fun ⟨g1, g2⟩ => ⟨h0.says g1, g2.of_moves h0⟩⟩
        | err y =>
          refine ⟨h0, fun e r' h => ?_⟩
          cases h
          exact (h1 _ _ hm).imp (fun g => by simpa using g) id
        | panic => exact ⟨h0, fun e r' h => by cases h⟩
        | hang => exact ⟨h0, fun e r' h => by cases h⟩

theorem pucollect (w : Tester) : ∀ f (r : PU), BR.Moves r.st.br (PU.collect w f r).2.st.br ∧
    ∀ e r', PU.collect w f r = (.ok (some e), r') → e = .noSyncByte ∨ (r.st.br.Says e ∧ r.st.br.Left r'.st.br)
  | 0, r => ⟨.refl, fun e r' h => by cases h⟩
  | f + 1, r => by
    unfold PU.collect
    generalize hr : (if w r.st.pkt then { r with buffer := r.buffer ++ r.st.pkt.payload } else r) = r0
    have hst : r0.st = r.st := by rw [← hr]; split <;> rfl
    have h0 := next_mv r.st
    have h1 := (er_next (F := [.noSyncByte])).er r.st
    dsimp only
    rw [hst]
    cases hm : Packet.next r.st with
    | mk x st =>
      rw [hm] at h0
      cases x with
      | ok a =>
        dsimp only
        split
        · exact ⟨h0, fun e r' h => by cases h⟩
        · have ih := pucollect w f { r0 with st := st }
          exact ⟨h0.trans ih.1, fun e r' h => (ih.2 e r' h).imp id fun ⟨g1, g2⟩ => ⟨h0.says g1, g2.of_moves h0⟩⟩
      | err y =>
        refine ⟨h0, fun e r' h => ?_⟩
        cases h
        exact (h1 _ _ hm).imp (fun g => by simpa using g) id
      | panic => exact ⟨h0, fun e r' h => by cases h⟩
      | hang => exact ⟨h0, fun e r' h => by cases h⟩

theorem pufill (w : Tester) (f : Nat) (r r' : PU) (e : Err) (h : PU.fill w f r = (.ok (some e), r')) :
    e = .noSyncByte ∨ (r.st.br.Says e ∧ r.st.br.Left r'.st.br) := by
  unfold PU.fill at h
  split at h
  · exact (pucollect w f r).2 e r' h
  · rw [Go.bind_apply] at h
    have h0 := puseek w f { r with started := true }
    cases hm : PU.seek w f { r with started := true } with
    | mk x r1 =>
      rw [hm] at h h0
      cases x with
      | ok y =>
        cases y with
        | some z => cases h; exact h0.2 _ _ rfl
        | none => exact ((pucollect w f r1).2 e r' h).imp id fun ⟨g1, g2⟩ => ⟨h0.1.says g1, g2.of_moves h0.1⟩
      | err y => cases h
      | panic => cases h
      | hang => cases h

theorem pugive (n : Nat) (r r' : PU) (o : List UInt8) (e : Err) (h : PU.give n r = (.ok (o, some e), r')) :
    e = .eop ∧ o = r.buffer ∧ r'.st = r.st := by
  unfold PU.give at h; split at h
  · cases h
  · cases h; exact ⟨rfl, rfl, rfl⟩

theorem puread (w : Tester) (fuel n : Nat) (r r' : PU) (o : List UInt8) (e : Err)
    (h : PU.read w fuel n r = (.ok (o, some e), r')) :
    e = .eop ∨ e = .noSyncByte ∨ (r.st.br.Says e ∧ r.st.br.Left r'.st.br) := by
  unfold PU.read at h
  split at h
  · exact .inl (pugive n _ _ _ _ h).1
  · rw [Go.bind_apply] at h
    cases hm : PU.fill w fuel r with
    | mk x r1 =>
      rw [hm] at h
      cases x with
      | ok y =>
        cases y with
        | some z => cases h; exact .inr (pufill w fuel r _ _ hm)
        | none => exact .inl (pugive n _ _ _ _ h).1
      | err y => cases h
      | panic => cases h
      | hang => cases h
end TS

namespace PES
theorem er_marker (k v : Nat) (hF : .markerNotFound ∈ F := by er_mem) : BR.Er F (marker k v) := by
  refine ⟨fun s => ?_, fun s e s' hs => ?_⟩
  · have := mv_read k s
    unfold marker
    cases hm : BR.read k s with
    | mk r b =>
      rw [hm] at this
      cases r with
      | ok x => dsimp only; split <;> exact this
      | err x => exact this
      | panic => exact this
      | hang => exact this
  · unfold marker at hs
    cases hm : BR.read k s with
    | mk r b =>
      rw [hm] at hs
      cases r with
      | ok x =>
        dsimp only at hs
        split at hs
        · cases hs
        · cases hs; exact .inl hF
      | err x => cases hs; exact .inl hF
      | panic => cases hs
      | hang => cases hs
theorem er_readExact (n : Nat) : BR.Er F (readExact n) := by
  refine ⟨.bind (mv_readFull n) fun r => (by split <;> first | exact .pure _ | exact .throw _), fun s e s' h => ?_⟩
  unfold readExact at h
  rw [Go.bind_apply] at h
  cases hr : readFull n s with
  | mk r s1 =>
    rw [hr] at h
    cases r with
    | ok p =>
      obtain ⟨bs, x⟩ := p
      dsimp only at h
      cases x with
      | none => cases h
      | some x => cases h; exact .inr (readFull_err hr)
    | err x => unfold readFull at hr; split at hr <;> cases hr
    | panic => cases h
    | hang => cases h
theorem er_stuffing (h : .invalidStuffingByte ∈ F) : ∀ n, BR.Er F (readStuffing n)
  | 0 => .pure _
  | n + 1 => .bind (er_read _) fun _ => .bind .check fun _ => er_stuffing h n

abbrev P : List Err := [.startCodePrefixNotFound, .markerNotFound, .invalidStuffingByte]

theorem er_stamp (m : Nat) : BR.Er P (readTimeStamp m) := by
  unfold readTimeStamp
  repeat' with_reducible first
    | refine Go.Er.bind ?_ (fun _ => ?_)
    | exact Go.Er.pure _
    | exact er_marker _ _
    | exact er_read _
theorem er_stamps (n : Nat) : BR.Er P (readStamps n) := by
  unfold readStamps
  repeat' with_reducible first
    | exact er_stamp _
    | refine Go.Er.bind ?_ (fun _ => ?_)
    | exact Go.Er.pure _
    | exact er_stamp _
    | refine Go.Er.ite ?_ ?_
theorem er_fixed : BR.Er P readFixed := by
  unfold readFixed
  repeat' with_reducible first
    | refine Go.Er.bind ?_ (fun _ => ?_)
    | exact Go.Er.pure _
    | exact er_read _
    | exact er_read1
theorem er_extension : BR.Er P readExtension := by
  unfold readExtension readPStd
  repeat' with_reducible first
    | refine Go.Er.bind ?_ (fun _ => ?_)
    | exact Go.Er.pure _
    | exact er_read _
    | exact er_read1
    | exact er_skip _
    | exact er_readExact _
    | exact er_marker _ _
    | exact Go.Er.panic
    | refine Go.Er.opt ?_
    | refine Go.Er.map _ ?_
theorem er_header : BR.Er P readHeader := by
  unfold readHeader
  repeat' with_reducible first
    | refine Go.Er.bind ?_ (fun _ => ?_)
    | exact Go.Er.pure _
    | exact er_marker _ _
    | exact er_fixed
    | exact er_stamps _
    | exact er_extension
    | exact er_stuffing (by decide) _
    | exact Go.Er.panic
    | refine Go.Er.opt ?_
    | refine Go.Er.map _ ?_

theorem er_lift {α : Type} {m : Go BR α} (h : BR.Er F m) : Go.Er F St.br (St.lift m) := ⟨fun s => h.mv s.br, fun s e s' hm => by
  have h1 : (m s.br).1 = .err e := congrArg Prod.fst hm
  have h2 : s' = _ := (congrArg Prod.snd hm).symm
  subst h2
  exact h.er s.br e _ (Prod.ext h1 rfl)⟩
theorem er_readInto {α : Type} {m : Go BR α} {zero : α} {set : α → Packet → Packet} (h : BR.Er F m) :
    Go.Er F St.br (readInto m zero set) := by
  refine ⟨fun s => ?_, fun s e s' hs => ?_⟩
  · have := h.mv s.br
    unfold readInto
    cases hm : m s.br with
    | mk r b => rw [hm] at this; cases r <;> exact this
  · have := h.er s.br
    unfold readInto at hs
    cases hm : m s.br with
    | mk r b =>
      rw [hm] at hs
      cases r with
      | ok a => cases hs
      | err x => cases hs; exact this _ _ hm
      | panic => cases hs
      | hang => cases hs
theorem er_headerInto : Go.Er P St.br headerInto := by
  refine ⟨fun s => ?_, fun s e s' hs => ?_⟩
  · have := er_header.mv s.br
    unfold headerInto
    cases hm : readHeader s.br with
    | mk r b => rw [hm] at this; cases r <;> exact this
  · have := er_header.er s.br
    unfold headerInto at hs
    cases hm : readHeader s.br with
    | mk r b =>
      rw [hm] at hs
      cases r with
      | ok a => cases hs
      | err x => cases hs; exact this _ _ hm
      | panic => cases hs
      | hang => cases hs
theorem er_bounded (n : Nat) : Go.Er F St.br (boundedPayload n) := by
  refine ⟨fun s => ?_, fun s e s' hs => ?_⟩
  · have := mv_readFull n s.br
    unfold boundedPayload
    cases hm : readFull n s.br with
    | mk r b =>
      rw [hm] at this
      cases r with
      | ok p => obtain ⟨bs, x⟩ := p; dsimp only; split <;> exact this
      | err x => exact this
      | panic => exact this
      | hang => exact this
  · unfold boundedPayload at hs
    cases hm : readFull n s.br with
    | mk r b =>
      rw [hm] at hs
      cases r with
      | ok p =>
        obtain ⟨bs, x⟩ := p
        dsimp only at hs
        cases x with
        | none => cases hs
        | some x => cases hs; exact .inr (readFull_err hm)
      | err x => unfold readFull at hm; split at hm <;> cases hm
      | panic => cases hs
      | hang => cases hs
theorem er_unbounded : Go.Er F St.br unboundedPayload := by
  refine ⟨fun s => ?_, fun s e s' hs => ?_⟩
  · unfold unboundedPayload readAll
    dsimp only
    split <;> exact .fail .refl
  · unfold unboundedPayload readAll at hs
    dsimp only at hs
    split at hs
    · cases hs
    · cases hs
    · rename_i x _ hx
      cases hs
      split at hx
      · cases hx
      · cases hx; exact .inr ⟨.inl (List.mem_cons_self ..), left_failTo _⟩
theorem er_body (id len : Nat) : Go.Er P St.br (Packet.body id len) := by
  unfold Packet.body
  exact .ite (.bind er_headerInto fun _ => .ite (er_bounded _) er_unbounded)
    (.ite (.bind (er_lift (er_readExact _)) fun _ => .pure _) (.pure _))
theorem er_next : Go.Er P St.br Packet.next := by
  unfold Packet.next prefix24
  exact .bind (er_lift (.bind (er_peek _) fun _ => .bind .check fun _ => .ignoreErr (er_skip _))) fun _ =>
    .bind (er_readInto (er_read _)) fun _ => .bind (er_readInto (er_read _)) fun _ => er_body _ _

theorem er_prfill : ∀ f n out rem (r r' : PR) o e, PR.fill f n out rem r = (.ok (o, some e), r') →
    e ∈ P ∨ (r.st.br.Says e ∧ r.st.br.Left r'.st.br)
  | 0, _, _, _, _, _, _, _, h => by cases h
  | f + 1, n, out, rem, r, r', o, e, h => by
    have h0 := er_next.mv r.st
    have h1 := er_next.er r.st
    unfold PR.fill at h
    split at h
    · cases h
    · cases hm : Packet.next r.st with
      | mk x st =>
        rw [hm] at h h0
        cases x with
        | ok a => exact (er_prfill f _ _ _ _ _ _ _ h).imp id fun ⟨g1, g2⟩ => ⟨h0.says g1, g2.of_moves h0⟩
        | err y => cases h; exact h1 _ _ hm
        | panic => cases h
        | hang => cases h
end PES

namespace PS
theorem er_marker (k v : Nat) (hF : .markerNotFound ∈ F := by er_mem) : BR.Er F (marker k v) :=
  .bind (er_read _) fun _ => .check
theorem er_streamsLoop (hF : .markerNotFound ∈ F) : ∀ f, BR.Er F (streamsLoop f)
  | 0 => .hang
  | f + 1 => .bind (er_peek _) fun _ => .ite (.bind (by
      unfold readStream
      exact .bind (er_read _) fun _ => .bind (er_marker _ _) fun _ => .bind er_read1 fun _ =>
        .bind (er_read _) fun _ => .pure _) fun _ => .bind (er_streamsLoop hF f) fun _ => .pure _) (.pure _)
theorem er_streams (hF : .markerNotFound ∈ F) : BR.Er F readStreams :=
  ⟨fun s => (er_streamsLoop hF _).mv s, fun s => (er_streamsLoop hF _).er s⟩
theorem er_system (hF : .markerNotFound ∈ F) : BR.Er F readSystemHeader := by
  unfold readSystemHeader
  repeat' with_reducible first
    | refine Go.Er.bind ?_ (fun _ => ?_)
    | exact Go.Er.pure _
    | exact er_marker _ _
    | exact er_read _
    | exact er_read1
    | exact er_skip _
    | exact er_streams hF
theorem er_skipStuffing : ∀ n, BR.Er F (skipStuffing n)
  | 0 => .pure _
  | n + 1 => .bind (.ignoreErr (er_skip _)) fun _ => er_skipStuffing n
theorem er_packRest (hF : .markerNotFound ∈ F) (hs : .unexpectedStartCode ∈ F) : BR.Er F newPackHeader := by
  unfold newPackHeader readPackFixed codeCheck
  repeat' with_reducible first
    | refine Go.Er.bind ?_ (fun _ => ?_)
    | exact Go.Er.pure _
    | exact er_codeAssert _ _ _ hs
    | exact er_marker _ _
    | exact er_read _
    | exact er_peek _
    | exact er_skip _
    | exact er_skipStuffing _
    | exact er_system hF
    | refine Go.Er.opt ?_
    | refine Go.Er.map _ ?_
theorem er_newPacket : BR.Er PES.P newPacket := by
  refine ⟨fun s => ?_, fun s e s' hs => ?_⟩
  · have := PES.er_next.mv ⟨{}, s⟩
    unfold newPacket
    cases hm : PES.Packet.next ⟨{}, s⟩ with
    | mk r b => rw [hm] at this; cases r <;> exact this
  · have := PES.er_next.er ⟨{}, s⟩
    unfold newPacket at hs
    cases hm : PES.Packet.next ⟨{}, s⟩ with
    | mk r b =>
      rw [hm] at hs
      cases r with
      | ok a => cases hs
      | err x => cases hs; exact this _ _ hm
      | panic => cases hs
      | hang => cases hs
end PS
end Mpeg
