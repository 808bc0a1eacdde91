/-
Property theorems C91: over any history of Reads on any input, errors included, the payload readers hand out each
payload byte once and in order, and keep the contract of io.Reader.
-/
import Verif.TS.ConserveSpec
import Verif.TS.DeliverLemmas
import Verif.PES.Props
import Mathlib.Data.List.Forall2
set_option linter.all false
namespace Mpeg.TS
open Spec

theorem Calls.trans {s s1 s2 : St} {ps qs : List Packet} (h : Calls s ps s1) (h' : Calls s1 qs s2) :
    Calls s (ps ++ qs) s2 := by
  induction h with
  | nil => exact h'
  | ok h0 _ ih => exact .ok h0 (ih h')
  | err h0 _ ih => exact .err h0 (ih h')

/-- The loop of `Read`: what is stored and what is kept are the new payloads, after what was there. -/
theorem fill_conserve (w : Tester) : ∀ (f n : Nat) (out rem : List UInt8) (r : PR) (o : List UInt8 × Option Err) (r' : PR),
    PR.fill { whre := w } f n out rem r = (.ok o, r') → r.remainder = [] → (0 < n → rem = []) →
    ∃ ps, Calls r.st ps r'.st ∧ o.1 ++ r'.remainder = out ++ rem ++ payloads w ps ∧
      r'.started = r.started ∧ r'.closed = r.closed ∧ o.1.length ≤ out.length + n ∧
      (o.2 = none ↔ o.1.length = out.length + n)
  | 0, n, out, rem, r, o, r', h, _, _ => by cases h
  | f + 1, n, out, rem, r, o, r', h, hr, hrem => by
    unfold PR.fill at h
    by_cases hn : n = 0
    · subst hn
      simp only [if_true] at h
      simp only [Prod.mk.injEq, Res.ok.injEq] at h
      obtain ⟨rfl, rfl⟩ := h
      exact ⟨[], .nil _, by simp [hr, payloads], rfl, rfl, by simp, by simp⟩
    · simp only [hn, if_false] at h
      have hrem := hrem (by omega)
      subst hrem
      cases hx : Packet.next r.st with
      | mk x st =>
        rw [hx] at h
        cases x with
        | panic => cases h
        | hang => cases h
        | err e =>
          simp only [Prod.mk.injEq, Res.ok.injEq] at h
          obtain ⟨rfl, rfl⟩ := h
          exact ⟨[], .err hx (.nil _), by simp [hr, payloads], rfl, rfl, by simp, by simp; omega⟩
        | ok u =>
          simp only [show alwaysTrue st.pkt = true from rfl, Bool.true_eq_false, if_false] at h
          by_cases hw : w st.pkt = true
          · simp only [hw, if_true] at h
            obtain ⟨ps, h1, h2, h3, h4, h5, h6⟩ := fill_conserve w f _ _ _ _ o r' h hr (by
              intro hlt
              have : st.pkt.payload.length ≤ n := by omega
              simp [this])
            have hl : (out ++ List.take n st.pkt.payload).length + (n - min n st.pkt.payload.length) = out.length + n := by
              simp; omega
            rw [hl] at h5 h6
            refine ⟨st.pkt :: ps, .ok hx h1, ?_, h3, h4, h5, h6⟩
            rw [h2, payloads_cons, if_pos hw]
            simp
          · simp only [hw, if_false] at h
            obtain ⟨ps, h1, h2, h3, h4, h5, h6⟩ := fill_conserve w f _ _ _ _ o r' h hr (by simp)
            refine ⟨st.pkt :: ps, .ok hx h1, ?_, h3, h4, h5, h6⟩
            rw [h2, payloads_cons, if_neg hw]
            simp

/-- One `Read`. -/
theorem read_conserve (w : Tester) {f n : Nat} {r r' : PR} {o : List UInt8 × Option Err}
    (h : PR.read { whre := w } f n r = (.ok o, r')) (hc : r.closed = false) :
    ∃ ps, Calls r.st ps r'.st ∧ o.1 ++ r'.remainder = r.remainder ++ payloads w ps ∧ r'.closed = false ∧
      FullRead n o := by
  have key : ∃ b, PR.drain { whre := w } f n { r with started := b } = (.ok o, r') := by
    unfold PR.read at h
    rw [hc] at h
    cases hs : r.started <;> rw [hs] at h
    · exact ⟨true, hc ▸ h⟩
    · refine ⟨r.started, ?_⟩
      simpa using h
  obtain ⟨b, key⟩ := key
  unfold PR.drain at key
  by_cases hn : n ≤ r.remainder.length
  · cases f with
    | zero => cases key
    | succ f =>
      unfold PR.fill at key
      simp only [show n - r.remainder.length = 0 by omega, if_true, Prod.mk.injEq, Res.ok.injEq] at key
      obtain ⟨rfl, rfl⟩ := key
      exact ⟨[], .nil _, by simp [payloads], hc, by simp [FullRead, hn]⟩
  · obtain ⟨ps, h1, h2, h3, h4, h5, h6⟩ := fill_conserve w f _ _ _ _ o r' key
      (by simp only [List.drop_eq_nil_iff]; omega) (fun _ => rfl)
    have e1 : List.take n r.remainder = r.remainder := List.take_of_length_le (by omega)
    rw [e1] at h2 h5 h6
    rw [show r.remainder.length + (n - r.remainder.length) = n by omega] at h5 h6
    exact ⟨ps, h1, by simpa using h2, h4.trans hc, h5, h6⟩

theorem Calls.size_le {s s' : St} {ps : List Packet} (h : Calls s ps s') : s'.size ≤ s.size := by
  induction h with
  | nil => exact Nat.le_refl _
  | ok h0 _ ih => have := next_dec h0; omega
  | @err s0 _ _ _ _ h0 _ ih => have := next_noninc s0; rw [h0] at this; simp only at this; omega

theorem all_conserve (w : Tester) (f : Nat) : ∀ (ns : List Nat) (r r' : PR) (outs : List (List UInt8 × Option Err)),
    PR.all { whre := w } f ns r = (.ok outs, r') → r.closed = false →
    ∃ ps, Calls r.st ps r'.st ∧ allBytes outs ++ r'.remainder = r.remainder ++ payloads w ps ∧
      List.Forall₂ FullRead ns outs
  | [], r, r', outs, h, hc => by
    cases h
    exact ⟨[], .nil _, by simp [allBytes, payloads], .nil⟩
  | n :: ns, r, r', outs, h, hc => by
    obtain ⟨o, r1, h1, h⟩ := Go.bind_eq_ok h
    obtain ⟨os, r2, h2, h⟩ := Go.bind_eq_ok h
    simp only [Go.pure_apply, Prod.mk.injEq, Res.ok.injEq] at h
    obtain ⟨rfl, rfl⟩ := h
    obtain ⟨ps, a1, a2, a3, a4⟩ := read_conserve w h1 hc
    obtain ⟨qs, b1, b2, b3⟩ := all_conserve w f ns r1 r2 os h2 a3
    refine ⟨ps ++ qs, a1.trans b1, ?_, .cons a4 b3⟩
    show o.1 ++ allBytes os ++ _ = _
    rw [List.append_assoc, b2, ← List.append_assoc, a2, payloads_append, List.append_assoc]

/-- **C91 (transport streams).**  On any input, over any number of Reads with buffers of any sizes, also after errors:
what was delivered so far, followed by what the reader still holds, is the concatenation of the payloads of the accepted
packets that `Next` has produced so far; every Read fills its buffer or reports an error. -/
theorem C91_transport (w : Tester) (br : BR) (fuel : Nat) (ns : List Nat) (outs : List (List UInt8 × Option Err)) (r' : PR)
    (h : PR.all { whre := w } fuel ns (PR.new br) = (.ok outs, r')) :
    ∃ ps, Calls ⟨Packet.new, br⟩ ps r'.st ∧ allBytes outs ++ r'.remainder = payloads w ps ∧
      List.Forall₂ FullRead ns outs := by
  obtain ⟨ps, h1, h2, h3⟩ := all_conserve w fuel ns _ r' outs h rfl
  exact ⟨ps, h1, by simpa [PR.new] using h2, h3⟩

theorem fill_returns (w : Tester) : ∀ (f n : Nat) (out rem : List UInt8) (r : PR), r.st.size < f →
    (PR.fill { whre := w } f n out rem r).1 ≠ .hang
  | 0, n, out, rem, r, hf => by omega
  | f + 1, n, out, rem, r, hf => by
    unfold PR.fill
    by_cases hn : n = 0
    · simp [hn]
    · simp only [hn, if_false]
      cases hx : Packet.next r.st with
      | mk x st =>
        cases x with
        | panic => simp
        | hang => exact absurd (by rw [hx]) (next_ne_hang r.st)
        | err e => simp
        | ok u =>
          have hd := next_dec hx
          simp only [show alwaysTrue st.pkt = true from rfl, Bool.true_eq_false, if_false]
          exact fill_returns w f _ _ _ _ (by show st.size < f; omega)

theorem read_returns (w : Tester) (f n : Nat) (r : PR) (hf : r.st.size < f) :
    (PR.read { whre := w } f n r).1 ≠ .hang ∧ ∀ e, (PR.read { whre := w } f n r).1 ≠ .err e := by
  have key : ∀ (f n : Nat) (out rem : List UInt8) (r : PR) (e : Err), (PR.fill { whre := w } f n out rem r).1 ≠ .err e := by
    intro f
    induction f with
    | zero => intro n out rem r e h; cases h
    | succ f ih =>
      intro n out rem r e
      unfold PR.fill
      by_cases hn : n = 0
      · simp [hn]
      · simp only [hn, if_false]
        cases hx : Packet.next r.st with
        | mk x st =>
          cases x with
          | panic => simp
          | hang => simp
          | err e => simp
          | ok u =>
            simp only [show alwaysTrue st.pkt = true from rfl, Bool.true_eq_false, if_false]
            exact ih _ _ _ _ _
  unfold PR.read
  cases r.closed
  · cases r.started
    · exact ⟨fill_returns w f _ _ _ _ hf, fun e => key _ _ _ _ _ e⟩
    · exact ⟨fill_returns w f _ _ _ _ hf, fun e => key _ _ _ _ _ e⟩
  · simp

/-- **C91 (transport streams).**  The Reads all return, unless `Next` panics on one of the packets (see C06). -/
theorem C91_transport_returns (w : Tester) (br : BR) (fuel : Nat) (ns : List Nat) (hf : br.size < fuel) :
    (PR.all { whre := w } fuel ns (PR.new br)).1 = .panic ∨
      ∃ outs r', PR.all { whre := w } fuel ns (PR.new br) = (.ok outs, r') := by
  have key : ∀ (ns : List Nat) (r : PR), r.closed = false → r.st.size < fuel →
      (PR.all { whre := w } fuel ns r).1 = .panic ∨ ∃ outs r', PR.all { whre := w } fuel ns r = (.ok outs, r') := by
    intro ns
    induction ns with
    | nil => intro r _ _; exact .inr ⟨[], r, rfl⟩
    | cons n ns ih =>
      intro r hc hr
      have h0 := read_returns w fuel n r hr
      unfold PR.all
      cases hx : PR.read { whre := w } fuel n r with
      | mk x r1 =>
        rw [hx] at h0
        cases x with
        | panic => left; rw [Go.bind_panic hx]
        | hang => exact absurd rfl h0.1
        | err e => exact absurd rfl (h0.2 e)
        | ok o =>
          obtain ⟨ps, a1, a2, a3, a4⟩ := read_conserve w hx hc
          have := a1.size_le
          rw [Go.bind_ok hx]
          rcases ih r1 a3 (by omega) with h | ⟨os, r2, h⟩
          · left
            cases hy : PR.all { whre := w } fuel ns r1 with
            | mk y r2 =>
              rw [hy] at h
              simp only at h
              subst h
              rw [Go.bind_panic hy]
          · right
            rw [Go.bind_ok h]
            exact ⟨_, _, rfl⟩
  exact key ns _ rfl hf

/-- a packet of the given PID with the given start indicator and payload bytes `x` -/
def onePacket (start : Bool) (x : UInt8) : List UInt8 :=
  [0x47, if start then 0x41 else 0x01, 0x00, 0x10] ++ List.replicate 184 x

/-- A packet, 188 bytes of garbage, another packet: the Read that meets the garbage reports it, and the next one goes on. -/
example : ((PR.all { whre := isPID 256 } 4000 [100, 200, 200] (PR.new (BR.ofBytes
    (onePacket true 1 ++ List.replicate 188 0 ++ onePacket false 2)))).1) =
    .ok [(List.replicate 100 1, none), (List.replicate 84 1, some .noSyncByte), (List.replicate 184 2, some .eof)] := by
  decide +kernel

/-- **C91, the payload unit reader (false).**  A unit of 184 bytes, in which the source reports an error, is delivered
as 368 bytes: its first packet twice. -/
theorem C91_unit_duplicated_false : ((PU.all (isPID 256) 4000 [500, 500] (PU.new (BR.ofBytes
    (onePacket true 1 ++ List.replicate 188 0 ++ onePacket true 2)))).1) =
    .ok [([], some .noSyncByte), (List.replicate 368 1, some .eop)] := by
  decide +kernel

/-- **C91, the payload unit reader (false).**  After an error before the first unit start, the packet before the error is
delivered as a unit, although it does not start one. -/
theorem C91_unit_before_start_false : ((PU.all (isPID 256) 4000 [500, 500] (PU.new (BR.ofBytes
    (onePacket false 1 ++ List.replicate 188 0 ++ onePacket true 2)))).1) =
    .ok [([], some .noSyncByte), (List.replicate 184 1, some .eop)] := by
  decide +kernel

end Mpeg.TS

namespace Mpeg.PES
open Spec

theorem Calls.trans {s s1 s2 : St} {ps qs : List Packet} (h : Calls s ps s1) (h' : Calls s1 qs s2) :
    Calls s (ps ++ qs) s2 := by
  induction h with
  | nil => exact h'
  | ok h0 _ ih => exact .ok h0 (ih h')
  | err h0 _ ih => exact .err h0 (ih h')

theorem Calls.size_le {s s' : St} {ps : List Packet} (h : Calls s ps s') : s'.size ≤ s.size := by
  induction h with
  | nil => exact Nat.le_refl _
  | ok h0 _ ih => have := next_dec h0; omega
  | @err s0 _ _ _ _ h0 _ ih => have := next_noninc s0; rw [h0] at this; simp only at this; omega

theorem fill_conserve : ∀ (f n : Nat) (out rem : List UInt8) (r : PR) (o : List UInt8 × Option Err) (r' : PR),
    PR.fill f n out rem r = (.ok o, r') → r.remainder = [] → (0 < n → rem = []) →
    ∃ ps, Calls r.st ps r'.st ∧ o.1 ++ r'.remainder = out ++ rem ++ payloads ps ∧
      o.1.length ≤ out.length + n ∧ (o.2 = none ↔ o.1.length = out.length + n)
  | 0, n, out, rem, r, o, r', h, _, _ => by cases h
  | f + 1, n, out, rem, r, o, r', h, hr, hrem => by
    unfold PR.fill at h
    by_cases hn : n = 0
    · subst hn
      simp only [if_true] at h
      simp only [Prod.mk.injEq, Res.ok.injEq] at h
      obtain ⟨rfl, rfl⟩ := h
      exact ⟨[], .nil _, by simp [hr, payloads], by simp, by simp⟩
    · simp only [hn, if_false] at h
      have hrem := hrem (by omega)
      subst hrem
      cases hx : Packet.next r.st with
      | mk x st =>
        rw [hx] at h
        cases x with
        | panic => cases h
        | hang => cases h
        | err e =>
          simp only [Prod.mk.injEq, Res.ok.injEq] at h
          obtain ⟨rfl, rfl⟩ := h
          exact ⟨[], .err hx (.nil _), by simp [hr, payloads], by simp, by simp; omega⟩
        | ok u =>
          obtain ⟨ps, h1, h2, h5, h6⟩ := fill_conserve f _ _ _ _ o r' h hr (by
            intro hlt
            have : st.pkt.payload.length ≤ n := by omega
            simp [this])
          have hl : (out ++ List.take n st.pkt.payload).length + (n - min n st.pkt.payload.length) = out.length + n := by
            simp; omega
          rw [hl] at h5 h6
          refine ⟨st.pkt :: ps, .ok hx h1, ?_, h5, h6⟩
          rw [h2, payloads_cons]
          simp

theorem read_conserve {f n : Nat} {r r' : PR} {o : List UInt8 × Option Err} (h : PR.read f n r = (.ok o, r')) :
    ∃ ps, Calls r.st ps r'.st ∧ o.1 ++ r'.remainder = r.remainder ++ payloads ps ∧ FullRead n o := by
  unfold PR.read at h
  by_cases hn : n ≤ r.remainder.length
  · cases f with
    | zero => cases h
    | succ f =>
      unfold PR.fill at h
      simp only [show n - r.remainder.length = 0 by omega, if_true, Prod.mk.injEq, Res.ok.injEq] at h
      obtain ⟨rfl, rfl⟩ := h
      exact ⟨[], .nil _, by simp [payloads], by simp [FullRead, hn]⟩
  · obtain ⟨ps, h1, h2, h5, h6⟩ := fill_conserve f _ _ _ _ o r' h
      (by simp only [List.drop_eq_nil_iff]; omega) (fun _ => rfl)
    have e1 : List.take n r.remainder = r.remainder := List.take_of_length_le (by omega)
    rw [e1] at h2 h5 h6
    rw [show r.remainder.length + (n - r.remainder.length) = n by omega] at h5 h6
    exact ⟨ps, h1, by simpa using h2, h5, h6⟩

/-- **C91 (PES).**  The same for the payload reader of package pes, on any input. -/
theorem C91_pes (br : BR) (fuel : Nat) (ns : List Nat) (outs : List (List UInt8 × Option Err)) (r' : PR)
    (h : PR.all fuel ns (PR.new br) = (.ok outs, r')) :
    ∃ ps, Calls ⟨{}, br⟩ ps r'.st ∧ TS.Spec.allBytes outs ++ r'.remainder = payloads ps ∧
      List.Forall₂ FullRead ns outs := by
  have key : ∀ (ns : List Nat) (r r' : PR) (outs : List (List UInt8 × Option Err)), PR.all fuel ns r = (.ok outs, r') →
      ∃ ps, Calls r.st ps r'.st ∧ TS.Spec.allBytes outs ++ r'.remainder = r.remainder ++ payloads ps ∧
        List.Forall₂ FullRead ns outs := by
    intro ns
    induction ns with
    | nil =>
      intro r r' outs h
      cases h
      exact ⟨[], .nil _, by simp [TS.Spec.allBytes, payloads], .nil⟩
    | cons n ns ih =>
      intro r r' outs h
      obtain ⟨o, r1, h1, h⟩ := Go.bind_eq_ok h
      obtain ⟨os, r2, h2, h⟩ := Go.bind_eq_ok h
      simp only [Go.pure_apply, Prod.mk.injEq, Res.ok.injEq] at h
      obtain ⟨rfl, rfl⟩ := h
      obtain ⟨ps, a1, a2, a4⟩ := read_conserve h1
      obtain ⟨qs, b1, b2, b3⟩ := ih r1 r2 os h2
      refine ⟨ps ++ qs, a1.trans b1, ?_, .cons a4 b3⟩
      show o.1 ++ TS.Spec.allBytes os ++ _ = _
      rw [List.append_assoc, b2, ← List.append_assoc, a2]
      simp [payloads]
  obtain ⟨ps, h1, h2, h3⟩ := key ns _ r' outs h
  exact ⟨ps, h1, by simpa [PR.new] using h2, h3⟩

/-- **C91 (PES).**  The Reads all return, unless `Next` panics on one of the packets (see C62). -/
theorem C91_pes_returns (br : BR) (fuel : Nat) (ns : List Nat) (hf : br.size < fuel) :
    (PR.all fuel ns (PR.new br)).1 = .panic ∨ ∃ outs r', PR.all fuel ns (PR.new br) = (.ok outs, r') := by
  have fill : ∀ (f n : Nat) (out rem : List UInt8) (r : PR), r.st.size < f →
      (PR.fill f n out rem r).1 ≠ .hang ∧ ∀ e, (PR.fill f n out rem r).1 ≠ .err e := by
    intro f
    induction f with
    | zero => intro n out rem r hf; omega
    | succ f ih =>
      intro n out rem r hf
      unfold PR.fill
      by_cases hn : n = 0
      · simp [hn]
      · simp only [hn, if_false]
        cases hx : Packet.next r.st with
        | mk x st =>
          cases x with
          | panic => simp
          | hang => exact absurd (by rw [hx]) (next_nohang r.st)
          | err e => simp
          | ok u =>
            have hd := next_dec hx
            exact ih _ _ _ _ (by show st.size < f; omega)
  have key : ∀ (ns : List Nat) (r : PR), r.st.size < fuel →
      (PR.all fuel ns r).1 = .panic ∨ ∃ outs r', PR.all fuel ns r = (.ok outs, r') := by
    intro ns
    induction ns with
    | nil => intro r _; exact .inr ⟨[], r, rfl⟩
    | cons n ns ih =>
      intro r hr
      have h0 := fill fuel (n - r.remainder.length) (r.remainder.take n) [] { r with remainder := r.remainder.drop n } hr
      unfold PR.all
      cases hx : PR.read fuel n r with
      | mk x r1 =>
        have h1 : (PR.read fuel n r).1 ≠ .hang ∧ ∀ e, (PR.read fuel n r).1 ≠ .err e := h0
        rw [hx] at h1
        cases x with
        | panic => left; rw [Go.bind_panic hx]
        | hang => exact absurd rfl h1.1
        | err e => exact absurd rfl (h1.2 e)
        | ok o =>
          obtain ⟨ps, a1, a2, a4⟩ := read_conserve hx
          have := a1.size_le
          rw [Go.bind_ok hx]
          rcases ih r1 (by omega) with h | ⟨os, r2, h⟩
          · left
            cases hy : PR.all fuel ns r1 with
            | mk y r2 =>
              rw [hy] at h
              simp only at h
              subst h
              rw [Go.bind_panic hy]
          · right
            rw [Go.bind_ok h]
            exact ⟨_, _, rfl⟩
  exact key ns _ hf

/-- A packet, a byte string that is no packet, another packet: the Read that meets it reports the missing prefix. -/
example : (PR.all 4000 [2, 4, 4] (PR.new (BR.ofBytes
    [0, 0, 1, 0xe0, 0, 6, 0x80, 0, 0, 1, 2, 3, 9, 9, 9]))).1 =
    .ok [([1, 2], none), ([3], some .startCodePrefixNotFound), ([], some .startCodePrefixNotFound)] := by
  decide +kernel

end Mpeg.PES
