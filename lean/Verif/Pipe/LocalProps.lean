/-
Property theorems C124: the readers read no further than they must.  A call that succeeds depends on the bits it consumes
and on nothing behind them: whatever follows, and also if nothing follows, it does the same.
-/
import Verif.Pipe.LocalLemmas
set_option linter.all false
namespace Mpeg

theorem Local.put_self {σ α : Type} {S : SrcLens σ} {p : Nat} {m : Go σ α} {s s' : σ} {a : α} (h : Local S p m s a s') : (S.get s).bits.length = (S.get s').bits.length + ((S.get s').pos - (S.get s).pos) ∧
    (S.get s').later = (S.get s).later ∧ (S.get s').stop = (S.get s).stop := by
  obtain ⟨k, h1, h2, _⟩ := h
  rw [h2]
  simp [BR.adv]
  omega
theorem Local.bytes {σ α : Type} {S : SrcLens σ} {p : Nat} {m : Go σ α} {s s' : σ} {a : α} (h : Local S p m s a s') (hb : (S.get s).Bytes) : (S.get s').Bytes := by
  obtain ⟨k, h1, h2, _⟩ := h
  rw [h2]
  exact BR.bytes_adv hb h1

/-- In other words: the call does the same if the source ends right behind the bits consumed, with whatever error, -/
theorem Local.cut {σ α : Type} {S : SrcLens σ} {m : Go σ α} {s s' : σ} {a : α} (h : Local S 0 m s a s') (stop : Err) (later : List (List Bool × Err)) :
    m (S.put s ⟨(S.get s).bits.take ((S.get s').pos - (S.get s).pos), (S.get s).pos, stop, later⟩) = (.ok a, S.put s' ⟨[], (S.get s').pos, stop, later⟩) := by
  obtain ⟨k, h1, h2, h3⟩ := h
  have hk : (S.get s').pos - (S.get s).pos = k := by rw [h2]; simp [BR.adv]
  rw [hk, h3 ⟨(S.get s).bits.take k, (S.get s).pos, stop, later⟩ rfl ⟨[], by simp⟩, h2]
  simp [BR.adv]
/-- and if anything is appended to it. -/
theorem Local.more {σ α : Type} {S : SrcLens σ} {m : Go σ α} {s s' : σ} {a : α} (h : Local S 0 m s a s') (t : List Bool) (stop : Err)
    (later : List (List Bool × Err)) :
    m (S.put s ⟨(S.get s).bits ++ t, (S.get s).pos, stop, later⟩) = (.ok a, S.put s' ⟨(S.get s').bits ++ t, (S.get s').pos, stop, later⟩) := by
  obtain ⟨k, h1, h2, h3⟩ := h
  rw [h3 ⟨(S.get s).bits ++ t, (S.get s).pos, stop, later⟩ rfl (List.IsPrefix.trans (List.take_prefix _ _) ⟨t, rfl⟩), h2]
  simp [BR.adv, List.drop_append_of_le_length h1]

namespace TS
open BR (Bytes)
open Spec (payloads)

def PR.src : SrcLens PR := ⟨fun r => r.st.br, fun r b => { r with st := { r.st with br := b } }⟩
def PU.src : SrcLens PU := ⟨fun r => r.st.br, fun r b => { r with st := { r.st with br := b } }⟩

/-- one call and then the rest, from the state it leaves -/
theorem local_step {σ τ α β : Type} {S : SrcLens σ} {T : SrcLens τ} {m : Go σ α} {f g : Go τ β} {s s' : σ} {t t' t'' : τ} {a : α} {b : β}
    (h1 : Local S 0 m s a s') (h2 : Local T 0 g t' b t'') (es : S.get s = T.get t) (es' : S.get s' = T.get t')
    (he : ∀ x y, m (S.put s x) = (.ok a, S.put s' y) → f (T.put t x) = g (T.put t' y)) : Local T 0 f t b t'' := by
  obtain ⟨k1, hk1, e1, l1⟩ := h1
  obtain ⟨k2, hk2, e2, l2⟩ := h2
  rw [es] at hk1 e1 l1
  rw [es'] at e1
  have hk2' : k1 + k2 ≤ (T.get t).bits.length := by
    rw [e1] at hk2
    simp only [BR.adv, List.length_drop] at hk2
    omega
  refine ⟨k1 + k2, hk2', by rw [e2, e1, adv_add], fun x hx hp => ?_⟩
  have hp1 : (T.get t).bits.take (k1 + 0) <+: x.bits := List.IsPrefix.trans (List.take_prefix_take_left (by omega)) hp
  have hp2 : (T.get t').bits.take (k2 + 0) <+: (x.adv k1).bits := by
    rw [e1]
    obtain ⟨r, hr⟩ := hp
    refine ⟨r, ?_⟩
    show ((T.get t).bits.drop k1).take (k2 + 0) ++ r = x.bits.drop k1
    rw [← hr, List.drop_append_of_le_length (by rw [List.length_take]; omega), List.drop_take]
    congr 2
    omega
  rw [he x _ (l1 x hx hp1), l2 (x.adv k1) (by rw [e1]; simp [BR.adv, hx]) hp2, adv_add]
/-- nothing of the source is touched -/
theorem local_still {τ β : Type} {T : SrcLens τ} {f : Go τ β} {t t' : τ} {b : β} (e : T.get t' = T.get t)
    (h : ∀ x, f (T.put t x) = (.ok b, T.put t' x)) : Local T 0 f t b t' :=
  ⟨0, by omega, by rw [e]; simp [BR.adv], fun x _ _ => by rw [h]; simp [BR.adv]⟩

theorem fill_local (c : PRCfg) : ∀ (f n : Nat) (out rem : List UInt8) (r r' : PR) (o : List UInt8) (e : Option Err), r.st.br.Bytes → r.closed = false →
    PR.fill c f n out rem r = (.ok (o, e), r') → e = none ∨ r'.closed = true → Local PR.src 0 (PR.fill c f n out rem) r (o, e) r'
  | 0, n, out, rem, r, r', o, e, hb, hc, h, he => by simp [PR.fill] at h
  | f + 1, n, out, rem, r, r', o, e, hb, hc, h, he => by
    by_cases h0 : n = 0
    · subst h0
      simp only [PR.fill, if_true, Prod.mk.injEq, Res.ok.injEq] at h
      obtain ⟨⟨rfl, rfl⟩, rfl⟩ := h
      exact local_still rfl fun x => by simp [PR.fill, PR.src]
    · simp only [PR.fill, if_neg h0] at h
      cases hx : Packet.next r.st with
      | mk x st =>
        rw [hx] at h
        cases x with
        | err e' =>
          simp only [Prod.mk.injEq, Res.ok.injEq] at h
          obtain ⟨⟨rfl, rfl⟩, rfl⟩ := h
          simp [hc] at he
        | panic => simp at h
        | hang => simp at h
        | ok u =>
          simp only at h
          obtain ⟨hb1, l1⟩ := loc_next r.st u st hb hx
          by_cases ht : c.takeWhile st.pkt = false
          · rw [if_pos ht] at h
            simp only [Prod.mk.injEq, Res.ok.injEq] at h
            obtain ⟨⟨rfl, rfl⟩, rfl⟩ := h
            refine local_step (S := St.src) (T := PR.src) (t' := { r with st := st, closed := true }) (g := pure (_, some .eof)) l1 (Local.pure _ _) rfl rfl fun x y hxy => ?_
            show PR.fill c (f + 1) n out rem { r with st := { r.st with br := x } } = _
            have hxy' : Packet.next { r.st with br := x } = (.ok u, { st with br := y }) := hxy
            simp only [PR.fill, if_neg h0, hxy', if_pos ht]
            rfl
          · rw [if_neg ht] at h
            refine local_step (S := St.src) (T := PR.src) (t' := { r with st := st }) l1 (fill_local c f _ _ _ _ r' o e hb1 hc h he) rfl rfl fun x y hxy => ?_
            show PR.fill c (f + 1) n out rem { r with st := { r.st with br := x } } = _
            have hxy' : Packet.next { r.st with br := x } = (.ok u, { st with br := y }) := hxy
            simp only [PR.fill, if_neg h0, hxy', if_neg ht]
            rfl

theorem read_drained {c : PRCfg} {fuel n : Nat} {r : PR} (hc : r.closed = false) (hs : c.skipUntil = none ∨ r.started = true) :
    PR.read c fuel n r = PR.drain c fuel n { r with started := true } := by
  obtain ⟨st, s, rem, cl⟩ := r
  simp only at hc hs
  subst hc
  unfold PR.read
  cases st with
  | true => simp
  | false =>
    rcases hs with hs | hs
    · simp [hs]
    · simp at hs

/-- `Packet.Next`: a packet that was parsed is parsed alike whatever follows it. -/
theorem C124_packet {s s' : St} (hb : s.br.Bytes) (h : Packet.next s = (.ok (), s')) : Local St.src 0 Packet.next s () s' :=
  (loc_next s () s' hb h).2

/-- The payload reader without `SkipUntil`: a `Read` that returned no error, or stopped at `TakeWhile`, needs no more than it consumed. -/
theorem C124_payload_partial (c : PRCfg) {fuel n : Nat} {r r' : PR} {o : List UInt8} {e : Option Err} (hb : r.st.br.Bytes)
    (hc : r.closed = false) (hs : c.skipUntil = none ∨ r.started = true)
    (h : PR.read c fuel n r = (.ok (o, e), r')) (he : e = none ∨ r'.closed = true) : Local PR.src 0 (PR.read c fuel n) r (o, e) r' := by
  have hr := read_drained (fuel := fuel) (n := n) hc hs
  have hg : ∀ x, PR.read c fuel n (PR.src.put r x) = PR.drain c fuel n { PR.src.put r x with started := true } := fun x => read_drained (r := PR.src.put r x) hc hs
  rw [hr] at h
  have l := fill_local c fuel (n - r.remainder.length) (r.remainder.take n) [] { r with started := true, remainder := r.remainder.drop n } r' o e hb hc h he
  obtain ⟨k, h1, h2, h3⟩ := l
  refine ⟨k, h1, h2, fun x hx hp => ?_⟩
  rw [hg]
  exact h3 x hx hp

theorem fill_minimal (c : PRCfg) : ∀ (f n : Nat) (out rem : List UInt8) (r r' : PR) (o : List UInt8),
    PR.fill c f n out rem r = (.ok (o, none), r') → ∃ ps, Run r.st ps r'.st ∧ n ≤ (payloads c.whre ps).length ∧
      (ps ≠ [] → (payloads c.whre ps.dropLast).length < n)
  | 0, n, out, rem, r, r', o, h => by simp [PR.fill] at h
  | f + 1, n, out, rem, r, r', o, h => by
    by_cases h0 : n = 0
    · subst h0
      simp only [PR.fill, if_true, Prod.mk.injEq, Res.ok.injEq] at h
      obtain ⟨_, rfl⟩ := h
      exact ⟨[], .nil _, by simp, by simp⟩
    · simp only [PR.fill, if_neg h0] at h
      cases hx : Packet.next r.st with
      | mk x st =>
        rw [hx] at h
        cases x with
        | err e' => simp at h
        | panic => simp at h
        | hang => simp at h
        | ok u =>
          simp only at h
          by_cases ht : c.takeWhile st.pkt = false
          · rw [if_pos ht] at h
            simp at h
          · rw [if_neg ht] at h
            obtain ⟨ps, h1, h2, h3⟩ := fill_minimal c f _ _ _ _ r' o h
            have hl : (payloads c.whre (st.pkt :: ps)).length = (if c.whre st.pkt then st.pkt.payload.length else 0) + (payloads c.whre ps).length := by
              rw [payloads_cons]
              split <;> simp
            refine ⟨st.pkt :: ps, .cons hx h1, ?_, fun _ => ?_⟩
            · rw [hl]
              by_cases hw : c.whre st.pkt = true
              · simp only [hw, if_true] at h2 ⊢
                omega
              · simp only [hw, if_false, Bool.false_eq_true] at h2 ⊢
                omega
            · cases ps with
              | nil => simp [payloads]; omega
              | cons p ps =>
                have := h3 (by simp)
                have hl' : (payloads c.whre (st.pkt :: (p :: ps).dropLast)).length =
                    (if c.whre st.pkt then st.pkt.payload.length else 0) + (payloads c.whre (p :: ps).dropLast).length := by
                  rw [payloads_cons]
                  split <;> simp
                show (payloads c.whre (st.pkt :: (p :: ps).dropLast)).length < n
                rw [hl']
                by_cases hw : c.whre st.pkt = true
                · simp only [hw, if_true] at this ⊢
                  omega
                · simp only [hw, if_false, Bool.false_eq_true] at this ⊢
                  omega

/-- It parses packets only as long as bytes are wanting: the payloads before the last packet parsed did not suffice. -/
theorem C124_payload_minimal (c : PRCfg) {fuel n : Nat} {r r' : PR} {o : List UInt8} (hc : r.closed = false) (hs : c.skipUntil = none ∨ r.started = true)
    (h : PR.read c fuel n r = (.ok (o, none), r')) :
    ∃ ps, Run r.st ps r'.st ∧ n ≤ r.remainder.length + (payloads c.whre ps).length ∧
      (ps ≠ [] → r.remainder.length + (payloads c.whre ps.dropLast).length < n) := by
  rw [read_drained hc hs] at h
  obtain ⟨ps, h1, h2, h3⟩ := fill_minimal c fuel (n - r.remainder.length) (r.remainder.take n) [] _ r' o h
  exact ⟨ps, h1, by omega, fun hp => by have := h3 hp; omega⟩

/-- Reading 250 bytes of three packets parses two of them, and the third may be missing. -/
example : (fun r => (r.1, r.2.st.br.pos)) (PR.read { whre := isPID 256 } 10 250 (PR.new (BR.ofBytes (onePacket true 1 ++ onePacket false 2 ++ onePacket false 3)))) =
      (.ok (List.replicate 184 1 ++ List.replicate 66 2, none), 2 * 1504) := by decide +kernel
example : (PR.new (BR.ofBytes (onePacket true 1 ++ onePacket false 2 ++ onePacket false 3))).st.br.Bytes := ⟨rfl, by decide +kernel⟩

/-- With `SkipUntil` this is false: `Next`'s error is ignored, so of a packet of which only the header is there, the reader delivers
the payload of the packet before it. -/
theorem C124_skip_false : ∃ (c : PRCfg) (fuel n : Nat) (r r' : PR) (o : List UInt8), r.st.br.Bytes ∧ r.closed = false ∧
    PR.read c fuel n r = (.ok (o, none), r') ∧ ¬ Local PR.src 0 (PR.read c fuel n) r (o, none) r' := by
  let c : PRCfg := { whre := isPID 256, skipUntil := some isPayloadUnitStart }
  let src := onePacket false 1 ++ (onePacket true 2).take 4
  let r := PR.new (BR.ofBytes src)
  refine ⟨c, 10, 100, r, (PR.read c 10 100 r).2, List.replicate 100 1, ?_, rfl, ?_, ?_⟩
  · exact ⟨rfl, by decide +kernel⟩
  · have : (PR.read c 10 100 r).1 = .ok (List.replicate 100 1, none) := by decide +kernel
    rw [← this]
  · rintro ⟨k, h1, h2, h3⟩
    have := h3 (BR.ofBytes (onePacket false 1 ++ onePacket true 2)) rfl (List.IsPrefix.trans (List.take_prefix _ _) (by decide +kernel))
    have h4 : (PR.read c 10 100 (PR.new (BR.ofBytes (onePacket false 1 ++ onePacket true 2)))).1 = .ok (List.replicate 100 2, none) := by decide +kernel
    have h5 := congrArg Prod.fst this
    have h6 : PR.src.put r (BR.ofBytes (onePacket false 1 ++ onePacket true 2)) = PR.new (BR.ofBytes (onePacket false 1 ++ onePacket true 2)) := rfl
    rw [h6, h4] at h5
    simp at h5

theorem seek_local (w : Tester) : ∀ (f : Nat) (r r' : PU), r.st.br.Bytes → PU.seek w f r = (.ok none, r') → Local PU.src 0 (PU.seek w f) r none r'
  | 0, r, r', hb, h => by simp [PU.seek] at h
  | f + 1, r, r', hb, h => by
    by_cases h0 : (w.and isPayloadUnitStart) r.st.pkt = true
    · simp only [PU.seek, h0, if_true, Prod.mk.injEq, true_and] at h
      subst h
      refine local_still rfl fun x => ?_
      have h0' : (w.and isPayloadUnitStart) (PU.src.put r x).st.pkt = true := h0
      simp only [PU.seek, h0', if_true]
    · simp only [PU.seek, if_neg h0] at h
      cases hx : Packet.next r.st with
      | mk x st =>
        rw [hx] at h
        cases x with
        | err e' => simp at h
        | panic => simp at h
        | hang => simp at h
        | ok u =>
          simp only at h
          obtain ⟨hb1, l1⟩ := loc_next r.st u st hb hx
          refine local_step (S := St.src) (T := PU.src) (t' := { r with st := st }) l1 (seek_local w f _ r' hb1 h) rfl rfl fun x y hxy => ?_
          have hxy' : Packet.next { r.st with br := x } = (.ok u, { st with br := y }) := hxy
          show PU.seek w (f + 1) { r with st := { r.st with br := x } } = _
          have h0' : ¬ (w.and isPayloadUnitStart) ({ r with st := { r.st with br := x } } : PU).st.pkt = true := h0
          simp only [PU.seek, if_neg h0', hxy']
          rfl
/-- one packet's payload is added -/
def PU.add (w : Tester) (r : PU) : PU := if w r.st.pkt then { r with buffer := r.buffer ++ r.st.pkt.payload } else r
theorem collect_eq (w : Tester) (f : Nat) (r : PU) : PU.collect w (f + 1) r =
    match Packet.next (PU.add w r).st with
    | (.panic, st) => (.panic, { PU.add w r with st := st })
    | (.hang, st) => (.hang, { PU.add w r with st := st })
    | (.err e, st) => (.ok (some e), { PU.add w r with st := st })
    | (.ok _, st) =>
      if (w.and isPayloadUnitStart) st.pkt then (.ok none, { PU.add w r with st := st })
      else PU.collect w f { PU.add w r with st := st } := rfl
theorem add_put (w : Tester) (r : PU) (x : BR) : PU.add w (PU.src.put r x) = PU.src.put (PU.add w r) x := by
  unfold PU.add
  have : (PU.src.put r x).st.pkt = r.st.pkt := rfl
  rw [this]
  split <;> rfl
theorem add_st (w : Tester) (r : PU) : (PU.add w r).st = r.st := by
  unfold PU.add
  split <;> rfl
theorem collect_local (w : Tester) : ∀ (f : Nat) (r r' : PU), r.st.br.Bytes → PU.collect w f r = (.ok none, r') → Local PU.src 0 (PU.collect w f) r none r'
  | 0, r, r', hb, h => by simp [PU.collect] at h
  | f + 1, r, r', hb, h => by
    rw [collect_eq] at h
    rw [add_st] at h
    cases hx : Packet.next r.st with
    | mk x st =>
      rw [hx] at h
      cases x with
      | err e' => simp at h
      | panic => simp at h
      | hang => simp at h
      | ok u =>
        simp only at h
        obtain ⟨hb1, l1⟩ := loc_next r.st u st hb hx
        by_cases h0 : (w.and isPayloadUnitStart) st.pkt = true
        · rw [if_pos h0] at h
          simp only [Prod.mk.injEq, true_and] at h
          subst h
          refine local_step (S := St.src) (T := PU.src) (t' := { PU.add w r with st := st }) (g := pure none) l1 (Local.pure _ _) rfl rfl fun x y hxy => ?_
          have hxy' : Packet.next { r.st with br := x } = (.ok u, { st with br := y }) := hxy
          rw [collect_eq, add_put]
          have e1 : (PU.src.put (PU.add w r) x).st = { r.st with br := x } := by simp [PU.src, add_st]
          rw [e1, hxy']
          have h0' : (w.and isPayloadUnitStart) ({ st with br := y } : St).pkt = true := h0
          simp only [h0', if_true]
          rfl
        · rw [if_neg h0] at h
          refine local_step (S := St.src) (T := PU.src) (t' := { PU.add w r with st := st }) l1 (collect_local w f _ r' hb1 h) rfl rfl fun x y hxy => ?_
          have hxy' : Packet.next { r.st with br := x } = (.ok u, { st with br := y }) := hxy
          rw [collect_eq, add_put]
          have e1 : (PU.src.put (PU.add w r) x).st = { r.st with br := x } := by simp [PU.src, add_st]
          rw [e1, hxy']
          have h0' : ¬ (w.and isPayloadUnitStart) ({ st with br := y } : St).pkt = true := h0
          simp only [if_neg h0']
          rfl
theorem collect_start (w : Tester) : ∀ (f : Nat) (r r' : PU), PU.collect w f r = (.ok none, r') → (w.and isPayloadUnitStart) r'.st.pkt = true
  | 0, r, r', h => by simp [PU.collect] at h
  | f + 1, r, r', h => by
    rw [collect_eq] at h
    split at h
    · simp at h
    · simp at h
    · simp at h
    · split at h
      · rename_i h0
        simp only [Prod.mk.injEq, true_and] at h
        subst h
        exact h0
      · exact collect_start w f _ r' h
theorem fill_start {w : Tester} {f : Nat} {r r' : PU} (h : PU.fill w f r = (.ok none, r')) : (w.and isPayloadUnitStart) r'.st.pkt = true := by
  unfold PU.fill at h
  split at h
  · exact collect_start w f r r' h
  · obtain ⟨e, r1, h1, h2⟩ := Go.bind_eq_ok h
    cases e with
    | some e => simp at h2
    | none => exact collect_start w f r1 r' h2
theorem pu_fill_local (w : Tester) (f : Nat) {r r' : PU} (hb : r.st.br.Bytes) (h : PU.fill w f r = (.ok none, r')) :
    Local PU.src 0 (PU.fill w f) r none r' := by
  unfold PU.fill at h
  by_cases hst : r.started = true
  · rw [if_pos hst] at h
    obtain ⟨k, h1, h2, h3⟩ := collect_local w f r r' hb h
    refine ⟨k, h1, h2, fun x hx hp => ?_⟩
    have hst' : (PU.src.put r x).started = true := hst
    rw [PU.fill, if_pos hst']
    exact h3 x hx hp
  · rw [if_neg hst] at h
    obtain ⟨e, r1, h1, h2⟩ := Go.bind_eq_ok h
    cases e with
    | some e => simp at h2
    | none =>
      have l1 := seek_local w f { r with started := true } r1 hb h1
      have l2 := collect_local w f r1 r' (l1.bytes hb) h2
      obtain ⟨k, h3, h4, h5⟩ := l1.bind (f := fun e => match e with | some e => pure (some e) | none => PU.collect w f) l2 (c := 0) l2.pos (by omega)
      refine ⟨k, h3, h4, fun x hx hp => ?_⟩
      have hst' : ¬ (PU.src.put r x).started = true := hst
      rw [PU.fill, if_neg hst']
      exact h5 x hx hp

/-- While a unit is being handed out, no input is touched. -/
theorem C124_unit_ready (w : Tester) {fuel n : Nat} {r r' : PU} {o : List UInt8} {e : Option Err} (hr : r.ready = true)
    (h : PU.read w fuel n r = (.ok (o, e), r')) : r'.st = r.st ∧ ∀ b, PU.read w fuel n (PU.src.put r b) = (.ok (o, e), PU.src.put r' b) := by
  have g : ∀ b, PU.read w fuel n (PU.src.put r b) = PU.give n (PU.src.put r b) := fun b => by
    have : (PU.src.put r b).ready = true := hr
    simp [PU.read, this]
  have h' : PU.give n r = (.ok (o, e), r') := by simpa [PU.read, hr] using h
  unfold PU.give at h'
  split at h'
  · rename_i hl
    simp only [Prod.mk.injEq, Res.ok.injEq] at h'
    obtain ⟨⟨rfl, rfl⟩, rfl⟩ := h'
    refine ⟨rfl, fun b => ?_⟩
    have hl' : n ≤ (PU.src.put r b).buffer.length := hl
    rw [g, PU.give, if_pos hl']
    rfl
  · rename_i hl
    simp only [Prod.mk.injEq, Res.ok.injEq] at h'
    obtain ⟨⟨rfl, rfl⟩, rfl⟩ := h'
    refine ⟨rfl, fun b => ?_⟩
    have hl' : ¬ n ≤ (PU.src.put r b).buffer.length := hl
    rw [g, PU.give, if_neg hl']
    rfl

/-- The payload unit reader: a `Read` that returned bytes, or no error, needs no more than it consumed, which is the input up to
the end of the packet that starts the next unit. -/
theorem C124_unit (w : Tester) {fuel n : Nat} {r r' : PU} {o : List UInt8} {e : Option Err} (hb : r.st.br.Bytes)
    (h : PU.read w fuel n r = (.ok (o, e), r')) (he : e = none ∨ o ≠ []) :
    Local PU.src 0 (PU.read w fuel n) r (o, e) r' ∧ (r.ready = false → (w.and isPayloadUnitStart) r'.st.pkt = true) := by
  by_cases hr : r.ready = true
  · obtain ⟨h1, h2⟩ := C124_unit_ready w hr h
    exact ⟨local_still (by show r'.st.br = r.st.br; rw [h1]) h2, fun hf => by rw [hr] at hf; cases hf⟩
  · have g : ∀ b, PU.read w fuel n (PU.src.put r b) = (do
        let e ← PU.fill w fuel
        match e with
        | some e => pure ([], some e)
        | none => do
          Go.modify (fun r => { r with ready := true })
          PU.give n) (PU.src.put r b) := fun b => by
      have : ¬ (PU.src.put r b).ready = true := hr
      rw [PU.read, if_neg this]
      rfl
    rw [PU.read, if_neg hr] at h
    obtain ⟨e1, r1, h1, h2⟩ := Go.bind_eq_ok h
    cases e1 with
    | some e1 =>
      simp only [Go.pure_apply, Prod.mk.injEq, Res.ok.injEq] at h2
      obtain ⟨⟨rfl, rfl⟩, rfl⟩ := h2
      simp at he
    | none =>
      have l1 := pu_fill_local w fuel hb h1
      have h3 : PU.read w 0 n { r1 with ready := true } = (.ok (o, e), r') := by
        simp only [PU.read, if_true]
        exact h2
      obtain ⟨h4, h5⟩ := C124_unit_ready w (r := { r1 with ready := true }) rfl h3
      have l2 : Local PU.src 0 (do Go.modify (fun r => { r with ready := true }); PU.give n) r1 (o, e) r' :=
        local_still (by show r'.st.br = r1.st.br; rw [h4]) fun x => by
          have h9 : PU.give n { PU.src.put r1 x with ready := true } = (.ok (o, e), PU.src.put r' x) := by
            have := h5 x
            simpa [PU.read, PU.src] using this
          exact h9
      obtain ⟨k, h6, h7, h8⟩ := l1.bind (f := fun e => match e with
        | some e => pure ([], some e)
        | none => do
          Go.modify (fun r => { r with ready := true })
          PU.give n) l2 (c := 0) l2.pos (by omega)
      refine ⟨⟨k, h6, h7, fun x hx hp => by rw [g]; exact h8 x hx hp⟩, fun _ => ?_⟩
      rw [h4]
      have := fill_start h1
      exact this

end TS
namespace PES

def PR.src : SrcLens PR := ⟨fun r => r.st.br, fun r b => { r with st := { r.st with br := b } }⟩

theorem dead_fails {s : St} (h : s.br.Dead) : ∃ e s', Packet.next s = (.err e, s') := by
  have e : BR.peek 24 s.br = (.err s.br.failErr, s.br.failTo) := BR.peek_short (by rw [h.2]; decide)
  refine ⟨s.br.failErr, { s with br := s.br.failTo }, ?_⟩
  have e1 : prefix24 s.br = (.err s.br.failErr, s.br.failTo) := by
    unfold prefix24
    rw [Go.bind_err e]
  have e2 : St.lift prefix24 s = (.err s.br.failErr, { s with br := s.br.failTo }) := by simp [St.lift, e1]
  unfold Packet.next
  rw [Go.bind_err e2]
/-- after a packet without a length nothing is left -/
theorem unbounded_dead {s s' : St} {u : Unit} (hl : s.br.later = []) (h : Packet.next s = (.ok u, s'))
    (hb : Bounded s'.pkt.streamID s'.pkt.packetLength = false) : s'.br.Dead := by
  unfold Packet.next at h
  obtain ⟨_, s1, h1, h2⟩ := Go.bind_eq_ok h
  obtain ⟨id, s2, h3, h4⟩ := Go.bind_eq_ok h2
  obtain ⟨len, s3, h5, h6⟩ := Go.bind_eq_ok h4
  have e := body_keeps h6
  have e1 : s3.pkt.streamID = id := by rw [readInto_ok h5]; simp [readInto_ok h3]
  have e2 : s3.pkt.packetLength = len := by rw [readInto_ok h5]
  rw [e.1, e.2, e1, e2] at hb
  have g1 := (((loc_lift loc_prefix) s _ s1 trivial h1).2).put_self.2.1
  have g2 := (((loc_into (loc_num 8)) s1 id s2 trivial h3).2).put_self.2.1
  have g3 := (((loc_into (loc_num 16)) s2 len s3 trivial h5).2).put_self.2.1
  have hl3 : s3.br.later = [] := by
    have g1' : s1.br.later = s.br.later := g1
    have g2' : s2.br.later = s1.br.later := g2
    have g3' : s3.br.later = s2.br.later := g3
    rw [g3', g2', g1', hl]
  have hh : hasPESHeader id = true ∧ len = 0 := by
    simp [Bounded] at hb
    exact hb
  unfold Packet.body at h6
  rw [if_pos hh.1] at h6
  obtain ⟨n, s4, h7, h8⟩ := Go.bind_eq_ok h6
  have g4 : s4.br.later = s3.br.later := ((loc_headerInto s3 n s4 trivial h7).2).put_self.2.1
  rw [hh.2, if_neg (by omega)] at h8
  have hd : s4.br.failTo.Dead := by
    have h1 : s4.br.later = [] := g4.trans hl3
    unfold BR.failTo BR.Dead
    rw [h1]
    simp [h1]
  unfold unboundedPayload at h8
  cases hx : BR.readAll s4.br with
  | mk r b =>
    have hb : b = s4.br.failTo := by
      unfold BR.readAll at hx
      simp only [Prod.mk.injEq] at hx
      exact hx.2.symm
    rw [hx] at h8
    cases r with
    | ok v =>
      obtain ⟨bs, e⟩ := v
      cases e with
      | some e => cases e <;> first | (simp at h8; done) | (simp only [Prod.mk.injEq] at h8; rw [← h8.2, hb]; exact hd)
      | none => simp only [Prod.mk.injEq] at h8; rw [← h8.2, hb]; exact hd
    | err e => simp at h8
    | panic => simp at h8
    | hang => simp at h8

/-- `Packet.Next`: a packet that says where it ends is parsed alike whatever follows it.  No hypothesis on the source. -/
theorem C124_packet_partial {s s' : St} (h : Packet.next s = (.ok (), s')) (hb : Bounded s'.pkt.streamID s'.pkt.packetLength = true) :
    Local St.src 0 Packet.next s () s' := next_local h hb

theorem put_pkt (s : St) (b : BR) : (St.src.put s b).pkt = s.pkt := rfl

/-- A packet without a length takes whatever follows: two bytes more in the source are two bytes more of payload. -/
theorem C124_packet_false : ∃ s s' : St, Packet.next s = (.ok (), s') ∧ ¬ Local St.src 0 Packet.next s () s' := by
  let src : List UInt8 := [0, 0, 1, 0xe0, 0, 0, 0x80, 0, 0, 7]
  let s : St := ⟨{}, BR.ofBytes src⟩
  refine ⟨s, (Packet.next s).2, ?_, ?_⟩
  · have : (Packet.next s).1 = .ok () := by decide +kernel
    rw [← this]
  · rintro ⟨k, h1, h2, h3⟩
    have := h3 (BR.ofBytes (src ++ [8, 9])) rfl (List.IsPrefix.trans (List.take_prefix _ _) (by decide +kernel))
    have h4 : (Packet.next (St.src.put s (BR.ofBytes (src ++ [8, 9])))).2.pkt.payload = [7, 8, 9] := by decide +kernel
    have h5 : (Packet.next s).2.pkt.payload = [7] := by decide +kernel
    have h6 := congrArg (fun t => t.2.pkt.payload) this
    simp only [h4] at h6
    rw [put_pkt, h5] at h6
    simp at h6

theorem fill_local : ∀ (f n : Nat) (out rem : List UInt8) (r r' : PR) (o : List UInt8), r.st.br.later = [] →
    PR.fill f n out rem r = (.ok (o, none), r') → Local PR.src 0 (PR.fill f n out rem) r (o, none) r' ∨ r'.st.br.Dead
  | 0, n, out, rem, r, r', o, hb, h => by simp [PR.fill] at h
  | f + 1, n, out, rem, r, r', o, hb, h => by
    by_cases h0 : n = 0
    · subst h0
      simp only [PR.fill, if_true, Prod.mk.injEq, Res.ok.injEq] at h
      obtain ⟨⟨rfl, _⟩, rfl⟩ := h
      exact .inl (TS.local_still rfl fun x => by simp [PR.fill, PR.src])
    · have h' := h
      simp only [PR.fill, if_neg h0] at h
      cases hx : Packet.next r.st with
      | mk x st =>
        rw [hx] at h
        cases x with
        | err e' => simp at h
        | panic => simp at h
        | hang => simp at h
        | ok u =>
          simp only at h
          cases hbd : Bounded st.pkt.streamID st.pkt.packetLength with
          | true =>
            have l1 := next_local hx hbd
            have hl1 : st.br.later = [] := l1.put_self.2.1.trans hb
            rcases fill_local f _ _ _ _ r' o hl1 h with l2 | hd
            · left
              refine TS.local_step (S := St.src) (T := PR.src) (t' := { r with st := st }) l1 l2 rfl rfl fun x y hxy => ?_
              show PR.fill (f + 1) n out rem { r with st := { r.st with br := x } } = _
              have hxy' : Packet.next { r.st with br := x } = (.ok u, { st with br := y }) := hxy
              simp only [PR.fill, if_neg h0, hxy']
              rfl
            · exact .inr hd
          | false =>
            right
            have hd := unbounded_dead hb hx hbd
            cases f with
            | zero => simp [PR.fill] at h
            | succ f =>
              by_cases h1 : n - min n st.pkt.payload.length = 0
              · simp only [PR.fill, if_pos h1, Prod.mk.injEq] at h
                rw [← h.2]
                exact hd
              · obtain ⟨e, s', he⟩ := dead_fails hd
                simp only [PR.fill, if_neg h1, he] at h
                simp at h

/-- The payload reader: a `Read` without error needs no more than it consumed, unless it consumed all there is. -/
theorem C124_reader_partial {fuel n : Nat} {r r' : PR} {o : List UInt8} (hb : r.st.br.later = [])
    (h : PR.read fuel n r = (.ok (o, none), r')) : Local PR.src 0 (PR.read fuel n) r (o, none) r' ∨ r'.st.br.Dead := by
  rcases fill_local fuel (n - r.remainder.length) (r.remainder.take n) [] { r with remainder := r.remainder.drop n } r' o hb h with ⟨k, h1, h2, h3⟩ | hd
  · exact .inl ⟨k, h1, h2, fun x hx hp => h3 x hx hp⟩
  · exact .inr hd

/-- A padding packet of one byte, a packet of four bytes with one byte of payload, and the beginning of a third packet: one byte is read,
and five bytes are left. -/
example : (fun r => (r.1, r.2.st.br.bits.length))
      (PR.read 10 1 (PR.new (BR.ofBytes ([0, 0, 1, 0xbe, 0, 1, 255] ++ [0, 0, 1, 0xe0, 0, 4, 0x80, 0, 0, 7] ++ [0, 0, 1, 0xe0, 0])))) =
      (.ok ([7], none), 40) := by decide +kernel

end PES

namespace PS
open BR (Kept kept_bytes Bytes)

theorem loc_marker (k v : Nat) : Loc SrcLens.self 0 Bytes Bytes (marker k v) := (BR.loc_read (kept_bytes _)).bind fun _ => Loc.check
theorem loc_num (k : Nat) : Loc SrcLens.self 0 Bytes Bytes (BR.read k) := BR.loc_read (kept_bytes _)
theorem loc_one : Loc SrcLens.self 0 Bytes Bytes BR.read1 := BR.loc_read1 (kept_bytes _)
theorem loc_readStream' {I : BR → Prop} (hk : ∀ k, Kept I I k) : Loc SrcLens.self 0 I I readStream :=
  (BR.loc_read (hk _)).bind fun _ => ((BR.loc_read (hk _)).bind fun _ => Loc.check).bind fun _ => (BR.loc_read1 (hk _)).bind fun _ =>
    (BR.loc_read (hk _)).bind fun _ => Loc.pure _
theorem loc_readStream : Loc SrcLens.self 0 Bytes Bytes readStream := loc_readStream' kept_bytes
theorem loc_streamsLoop : ∀ f, Loc SrcLens.self 1 Bytes Bytes (streamsLoop f)
  | 0 => fun s a s' hi h => by simp [streamsLoop] at h
  | f + 1 => BR.loc_peek.bindL (fun _ => Loc.ite (loc_readStream.bind fun _ => (loc_streamsLoop f).bindL (fun _ => (Loc.pure _).mono (Nat.zero_le _)) (Nat.le_refl _))
      ((Loc.pure _).mono (Nat.zero_le _))) (Nat.le_refl _)
/-- the loop runs once for every entry -/
theorem streamsLoop_fuel : ∀ (f : Nat) (s s' : BR) (l : List Stream), streamsLoop f s = (.ok l, s') →
    s.pos + l.length ≤ s'.pos ∧ ∀ f', l.length < f' → streamsLoop f' s = (.ok l, s')
  | 0, s, s', l, h => by simp [streamsLoop] at h
  | f + 1, s, s', l, h => by
    have hh := h
    unfold streamsLoop at h
    obtain ⟨b, s1, h1, h2⟩ := Go.bind_eq_ok h
    have e1 : s1 = s := by
      unfold BR.peek at h1
      split at h1
      · simp only [Prod.mk.injEq] at h1; exact h1.2.symm
      · simp at h1
    subst e1
    by_cases hb : b = 1
    · rw [if_pos hb] at h2
      obtain ⟨x, s2, h3, h4⟩ := Go.bind_eq_ok h2
      obtain ⟨l', s3, h5, h6⟩ := Go.bind_eq_ok h4
      simp only [Go.pure_apply, Prod.mk.injEq, Res.ok.injEq] at h6
      obtain ⟨rfl, rfl⟩ := h6
      obtain ⟨g1, g2⟩ := streamsLoop_fuel f s2 s3 l' h5
      have g3 : s1.pos + 1 ≤ s2.pos := by
        have t1 := readStream_took h3
        have t2 : s1.bits.length = s2.bits.length + (s2.pos - s1.pos) := (loc_readStream' (I := PES.Any) BR.kept_any s1 x s2 trivial h3).2.put_self.1
        omega
      refine ⟨by simp; omega, fun f' hf' => ?_⟩
      cases f' with
      | zero => omega
      | succ f' =>
        unfold streamsLoop
        rw [Go.bind_ok h1, if_pos hb, Go.bind_ok h3, Go.bind_ok (g2 f' (by simpa using hf'))]
        rfl
    · rw [if_neg hb] at h2
      simp only [Go.pure_apply, Prod.mk.injEq, Res.ok.injEq] at h2
      obtain ⟨rfl, rfl⟩ := h2
      refine ⟨by simp, fun f' hf' => ?_⟩
      cases f' with
      | zero => omega
      | succ f' =>
        unfold streamsLoop
        rw [Go.bind_ok h1, if_neg hb]
        rfl
theorem loc_readStreams : Loc SrcLens.self 1 Bytes Bytes readStreams := by
  intro s l s' hi h
  unfold readStreams at h
  obtain ⟨h1, k, h2, h3, h4⟩ := loc_streamsLoop _ s l s' hi h
  refine ⟨h1, k, h2, h3, fun b hb hp => ?_⟩
  have e := h4 b hb hp
  have hk : k ≤ b.bits.length := (BR.take_of_prefix (s := s) h2 (List.IsPrefix.trans (List.take_prefix_take_left (by omega)) hp)).1
  have hl : l.length ≤ k := by
    have := (streamsLoop_fuel _ s s' l h).1
    rw [show s' = s.adv k from h3] at this
    simp only [BR.adv] at this
    omega
  show readStreams b = _
  unfold readStreams
  exact (streamsLoop_fuel _ b _ l e).2 _ (by omega)
theorem loc_system : Loc SrcLens.self 1 Bytes Bytes readSystemHeader :=
  (BR.loc_skip (kept_bytes _)).bind fun _ => (loc_num _).bind fun _ => (loc_marker _ _).bind fun _ => (loc_num _).bind fun _ => (loc_marker _ _).bind fun _ =>
    (loc_num _).bind fun _ => loc_one.bind fun _ => loc_one.bind fun _ => loc_one.bind fun _ => loc_one.bind fun _ => (loc_marker _ _).bind fun _ =>
    (loc_num _).bind fun _ => loc_one.bind fun _ => (BR.loc_skip (kept_bytes _)).bind fun _ => loc_readStreams.bindL (fun _ => (Loc.pure _).mono (Nat.zero_le _)) (Nat.le_refl _)

theorem dead_skip {s s' : BR} {k : Nat} {u : Unit} (hd : s.Dead) (h : Go.ignoreErr (BR.skip k) s = (.ok u, s')) : s'.Dead := by
  by_cases hk : k = 0
  · subst hk
    have e : BR.skip 0 s = (.ok (), s.adv 0) := BR.skip_ok (by omega)
    simp [Go.ignoreErr, e, BR.adv] at h
    rw [← h]
    exact hd
  · have e : BR.skip k s = (.err s.failErr, s.failTo) := BR.skip_short (by rw [hd.2]; simp; omega)
    simp [Go.ignoreErr, e] at h
    rw [← h]
    unfold BR.failTo BR.Dead
    rw [hd.1]
    simp [hd.1]
theorem dead_stuffing : ∀ (n : Nat) {s s' : BR} {u : Unit}, s.Dead → skipStuffing n s = (.ok u, s') → s'.Dead
  | 0, s, s', u, hd, h => by
    simp only [skipStuffing, Go.pure_apply, Prod.mk.injEq] at h
    rw [← h.2]; exact hd
  | n + 1, s, s', u, hd, h => by
    unfold skipStuffing at h
    obtain ⟨_, s1, h1, h2⟩ := Go.bind_eq_ok h
    exact dead_stuffing n (dead_skip hd h1) h2
theorem locD_stuffing : ∀ n, LocD SrcLens.self 0 Bytes Bytes (skipStuffing n)
  | 0 => (Loc.pure _).d
  | n + 1 => fun s a s' hi h => by
    unfold skipStuffing at h
    obtain ⟨u, s1, h1, h2⟩ := Go.bind_eq_ok h
    rcases BR.locD_skip s u s1 hi h1 with ⟨hb, l1⟩ | hd
    · rcases locD_stuffing n s1 a s' hb h2 with ⟨hb', l2⟩ | hd
      · left
        refine ⟨hb', ?_⟩
        unfold skipStuffing
        exact l1.bind (f := fun _ => skipStuffing n) l2 (c := 0) l2.pos (by omega)
      · exact .inr hd
    · exact .inr (dead_stuffing n hd h2)
theorem locD_fixed : LocD SrcLens.self 0 Bytes Bytes readPackFixed :=
  (BR.loc_assert (kept_bytes _) _ _).bindD fun _ => (loc_marker _ _).bindD fun _ => (loc_num _).bindD fun _ => (loc_marker _ _).bindD fun _ =>
    (loc_num _).bindD fun _ => (loc_marker _ _).bindD fun _ => (loc_num _).bindD fun _ => (loc_marker _ _).bindD fun _ => (loc_num _).bindD fun _ =>
    (loc_marker _ _).bindD fun _ => (loc_num _).bindD fun _ => (loc_marker _ _).bindD fun _ => (loc_marker _ _).bindD fun _ =>
    (BR.loc_skip (kept_bytes _)).bindD fun _ => (loc_num _).bindD fun n => fun s a s' hi h => by
      obtain ⟨u, s1, h1, h2⟩ := Go.bind_eq_ok h
      have h2' := h2
      simp only [Go.pure_apply, Prod.mk.injEq, Res.ok.injEq] at h2
      obtain ⟨_, rfl⟩ := h2
      rcases locD_stuffing n s u s1 hi h1 with ⟨hb, l1⟩ | hd
      · have l2 := (Loc.pure (I := Bytes) _ s1 a s1 hb h2').2
        exact .inl ⟨hb, l1.bind (f := fun _ => pure _) l2 (c := 0) l2.pos (by omega)⟩
      · exact .inr hd
theorem loc_packHeader : Loc SrcLens.self 32 Bytes Bytes newPackHeader :=
  locD_fixed.kill (fun h => (BR.loc_check _).bindL (fun t => (Loc.opt ((loc_system.mono (by omega)).map _)).bindL (fun _ => (Loc.pure _).mono (Nat.zero_le _)) (Nat.le_refl _)) (Nat.le_refl _))
    fun a s b s' hd h => by
      obtain ⟨t, s1, h1, h2⟩ := Go.bind_eq_ok h
      unfold codeCheck at h1
      obtain ⟨v, s2, h3, h4⟩ := Go.bind_eq_ok h1
      exact absurd h3 (BR.not_peek (by decide) hd v s2)

/-- one packet, with the pack header before it if there is one -/
def packet1 : Go BR PES.Packet := do
  let v ← BR.peek 32
  if v = programEndCode then Go.throw .eof
  else if v = packStartCode then do
    let _ ← newPackHeader
    newPacket
  else newPacket

theorem newPacket_local {s b : BR} {p : PES.Packet} (hs : s.later = []) (h : newPacket s = (.ok p, b)) :
    (Local SrcLens.self 0 newPacket s p b ∧ s.pos + 48 ≤ b.pos) ∨ b.Dead := by
  unfold newPacket at h
  cases hx : PES.Packet.next ⟨{}, s⟩ with
  | mk r t =>
    rw [hx] at h
    cases r with
    | err e => simp at h
    | panic => simp at h
    | hang => simp at h
    | ok u =>
      simp only [Prod.mk.injEq, Res.ok.injEq] at h
      obtain ⟨rfl, rfl⟩ := h
      cases hb : PES.Bounded t.pkt.streamID t.pkt.packetLength with
      | false => exact .inr (PES.unbounded_dead (s := ⟨{}, s⟩) hs hx hb)
      | true =>
        left
        refine ⟨?_, PES.next_pos hx hb⟩
        obtain ⟨k, h1, h2, h3⟩ := PES.next_local hx hb
        refine ⟨k, h1, h2, fun x hx hp => ?_⟩
        have e : PES.Packet.next ⟨{}, x⟩ = (.ok u, { t with br := x.adv k }) := h3 x hx hp
        show newPacket x = (.ok t.pkt, x.adv k)
        simp only [newPacket, e]
theorem peek_same {k v : Nat} {s s' : BR} (h : BR.peek k s = (.ok v, s')) : s' = s := by
  unfold BR.peek at h
  split at h
  · simp only [Prod.mk.injEq] at h; exact h.2.symm
  · simp at h
theorem packet1_local {s b : BR} {p : PES.Packet} (hs : s.Bytes) (h : packet1 s = (.ok p, b)) :
    (Local SrcLens.self 0 packet1 s p b ∧ s.pos + 48 ≤ b.pos) ∨ b.Dead := by
  have h' := h
  unfold packet1 at h
  obtain ⟨v, s1, h1, h2⟩ := Go.bind_eq_ok h
  have e1 := peek_same h1
  subst e1
  have l1 := (BR.loc_peek (I := Bytes) s1 v s1 hs h1).2
  by_cases hv : v = programEndCode
  · rw [if_pos hv] at h2; simp at h2
  · rw [if_neg hv] at h2
    by_cases hv' : v = packStartCode
    · rw [if_pos hv'] at h2
      obtain ⟨hd, s2, h3, h4⟩ := Go.bind_eq_ok h2
      obtain ⟨hb2, l2⟩ := loc_packHeader s1 hd s2 hs h3
      rcases newPacket_local hb2.1 h4 with ⟨l3, hp⟩ | hdead
      · left
        have hp2 : s1.pos ≤ s2.pos := l2.pos
        have hp3 : s2.pos + 48 ≤ b.pos := hp
        refine ⟨?_, by omega⟩
        have l4 := l2.bind (f := fun _ => newPacket) l3 (c := 48) hp (by omega)
        unfold packet1
        refine l1.bind (f := fun v => if v = programEndCode then Go.throw .eof else if v = packStartCode then do
          let _ ← newPackHeader
          newPacket
          else newPacket) ?_ (c := 48) (by show s1.pos + 48 ≤ b.pos; omega) (by omega)
        rw [if_neg hv, if_pos hv']
        exact l4
      · exact .inr hdead
    · rw [if_neg hv'] at h2
      rcases newPacket_local hs.1 h2 with ⟨l3, hp⟩ | hdead
      · left
        refine ⟨?_, hp⟩
        unfold packet1
        refine l1.bind (f := fun v => if v = programEndCode then Go.throw .eof else if v = packStartCode then do
          let _ ← newPackHeader
          newPacket
          else newPacket) ?_ (c := 48) hp (by omega)
        rw [if_neg hv, if_neg hv']
        exact l3
      · exact .inr hdead

/-- what `step` does with a packet -/
theorem step_packet {f k : Nat} {out : List UInt8} {r : PackReader} {p : PES.Packet} {b : BR} (h : packet1 r.br = (.ok p, b)) :
    PackReader.step (f + 1) k out r =
      if k ≤ p.payload.length then
        (.ok ⟨out ++ p.payload.take k, (out ++ p.payload.take k).length, none⟩, { r with br := b, remainder := r.remainder ++ p.payload.drop k })
      else PackReader.step f (k - p.payload.length) (out ++ p.payload) { r with br := b } := by
  unfold packet1 at h
  obtain ⟨v, s1, h1, h2⟩ := Go.bind_eq_ok h
  have e1 := peek_same h1
  subst e1
  simp only [PackReader.step, h1]
  by_cases hv : v = programEndCode
  · rw [if_pos hv] at h2; simp at h2
  · rw [if_neg hv] at h2
    rw [if_neg hv]
    by_cases hv' : v = packStartCode
    · rw [if_pos hv'] at h2
      obtain ⟨hd, s2, h3, h4⟩ := Go.bind_eq_ok h2
      simp only [if_pos hv', h3, PackReader.more, h4]
    · rw [if_neg hv'] at h2
      simp only [if_neg hv', PackReader.more, h2]
/-- bytes and no error come from a packet -/
theorem step_inv {f k : Nat} {out : List UInt8} {r r' : PackReader} {x : RR} (h : PackReader.step (f + 1) k out r = (.ok x, r'))
    (he : x.err = none) (hc : x.count ≠ 0) : ∃ p b, packet1 r.br = (.ok p, b) := by
  unfold packet1
  simp only [PackReader.step] at h
  cases hx : BR.peek 32 r.br with
  | mk q b =>
    rw [hx] at h
    cases q with
    | panic => simp at h
    | hang => simp at h
    | err e =>
      simp only [Prod.mk.injEq, Res.ok.injEq] at h
      rw [← h.1] at hc
      simp at hc
    | ok v =>
      rw [Go.bind_ok hx]
      simp only at h
      by_cases hv : v = programEndCode
      · rw [if_pos hv] at h
        simp only [Prod.mk.injEq, Res.ok.injEq] at h
        rw [← h.1] at he
        simp at he
      · rw [if_neg hv] at h ⊢
        have more : ∀ b, (PackReader.more (PackReader.step f) k out { r with br := b }) = (.ok x, r') → ∃ p b', newPacket b = (.ok p, b') := by
          intro b h
          unfold PackReader.more at h
          cases hy : newPacket b with
          | mk q c =>
            cases q with
            | ok p => exact ⟨p, c, rfl⟩
            | err e =>
              simp only [hy, Prod.mk.injEq, Res.ok.injEq] at h
              rw [← h.1] at hc
              simp at hc
            | panic => simp [hy] at h
            | hang => simp [hy] at h
        by_cases hv' : v = packStartCode
        · rw [if_pos hv'] at h ⊢
          cases hy : newPackHeader b with
          | mk q c =>
            rw [hy] at h
            cases q with
            | ok hd =>
              rw [Go.bind_ok hy]
              exact more c h
            | err e =>
              simp only [Prod.mk.injEq, Res.ok.injEq] at h
              rw [← h.1] at he
              simp at he
            | panic => simp at h
            | hang => simp at h
        · rw [if_neg hv'] at h ⊢
          exact more b h
theorem dead_packet1 {s b : BR} {p : PES.Packet} (hd : s.Dead) : packet1 s ≠ (.ok p, b) := by
  intro h
  unfold packet1 at h
  obtain ⟨v, s1, h1, h2⟩ := Go.bind_eq_ok h
  exact BR.not_peek (by decide) hd v s1 h1

theorem step_local : ∀ (f k : Nat) (out : List UInt8) (r r' : PackReader) (x : RR), r.br.Bytes → PackReader.step f k out r = (.ok x, r') →
    x.err = none → x.count ≠ 0 →
    (∃ c, c ≤ r.br.bits.length ∧ r'.br = r.br.adv c ∧ ∀ b : BR, b.pos = r.br.pos → r.br.bits.take c <+: b.bits → ∀ f', c < f' →
      PackReader.step f' k out { r with br := b } = (.ok x, { r' with br := b.adv c })) ∨ r'.br.Dead
  | 0, k, out, r, r', x, hb, h, he, hc => by simp [PackReader.step] at h
  | f + 1, k, out, r, r', x, hb, h, he, hc => by
    obtain ⟨p, b1, hp⟩ := step_inv h he hc
    rw [step_packet hp] at h
    rcases packet1_local hb hp with ⟨⟨c1, g1, g2, g3⟩, hpos⟩ | hd
    · have g2' : b1 = r.br.adv c1 := g2
      have hc1 : 48 ≤ c1 := by
        rw [g2'] at hpos
        simp only [BR.adv] at hpos
        omega
      by_cases hk : k ≤ p.payload.length
      · rw [if_pos hk] at h
        simp only [Prod.mk.injEq, Res.ok.injEq] at h
        obtain ⟨rfl, rfl⟩ := h
        left
        refine ⟨c1, g1, g2, fun b hbp hpre f' hf' => ?_⟩
        cases f' with
        | zero => omega
        | succ f' =>
          have e : packet1 b = (.ok p, b.adv c1) := g3 b hbp hpre
          rw [step_packet (r := { r with br := b }) e, if_pos hk]
      · rw [if_neg hk] at h
        rcases step_local f _ _ { r with br := b1 } r' x (by rw [g2']; exact BR.bytes_adv hb g1) h he hc with ⟨c2, k1, k2, k3⟩ | hd
        · left
          have k1' : c2 ≤ r.br.bits.length - c1 := by
            have : c2 ≤ b1.bits.length := k1
            rw [g2'] at this
            simpa [BR.adv] using this
          have g1' : c1 ≤ r.br.bits.length := g1
          refine ⟨c1 + c2, by omega, ?_, fun b hbp hpre f' hf' => ?_⟩
          · rw [k2]
            show b1.adv c2 = _
            rw [g2', adv_add]
          · cases f' with
            | zero => omega
            | succ f' =>
              have hp1 : r.br.bits.take (c1 + 0) <+: b.bits := List.IsPrefix.trans (List.take_prefix_take_left (by omega)) hpre
              have e : packet1 b = (.ok p, b.adv c1) := g3 b hbp hp1
              rw [step_packet (r := { r with br := b }) e, if_neg hk]
              have hp2 : b1.bits.take c2 <+: (b.adv c1).bits := by
                rw [g2']
                obtain ⟨t, ht⟩ := hpre
                refine ⟨t, ?_⟩
                show (r.br.bits.drop c1).take c2 ++ t = b.bits.drop c1
                rw [← ht, List.drop_append_of_le_length (by rw [List.length_take]; omega), List.drop_take]
                congr 2
                omega
              have := k3 (b.adv c1) (by show b.pos + c1 = b1.pos; rw [g2', hbp]; rfl) hp2 f' (by omega)
              rw [adv_add] at this
              exact this
        · exact .inr hd
    · right
      by_cases hk : k ≤ p.payload.length
      · rw [if_pos hk] at h
        simp only [Prod.mk.injEq] at h
        rw [← h.2]
        exact hd
      · rw [if_neg hk] at h
        cases f with
        | zero => simp [PackReader.step] at h
        | succ f =>
          obtain ⟨p', b', hp'⟩ := step_inv h he hc
          exact absurd hp' (dead_packet1 hd)

def PackReader.src : SrcLens PackReader := ⟨fun r => r.br, fun r b => { r with br := b }⟩

/-- The pack reader: a `Read` that filled the buffer needs no more than it consumed, unless it consumed all there is. -/
theorem C124_pack_partial {n : Nat} {r r' : PackReader} {x : RR} (hb : r.br.Bytes) (h : PackReader.read n r = (.ok x, r')) (he : x.err = none)
    (hc : x.count = n) : Local PackReader.src 0 (PackReader.read n) r x r' ∨ r'.br.Dead := by
  unfold PackReader.read at h
  by_cases hn : n ≤ r.remainder.length
  · rw [if_pos hn] at h
    simp only [Prod.mk.injEq, Res.ok.injEq] at h
    obtain ⟨rfl, rfl⟩ := h
    exact .inl (TS.local_still rfl fun y => by
      have : n ≤ (PackReader.src.put r y).remainder.length := hn
      rw [PackReader.read, if_pos this]
      rfl)
  · rw [if_neg hn] at h
    rcases step_local _ _ _ { r with remainder := [] } r' x hb h he (by omega) with ⟨c, h1, h2, h3⟩ | hd
    · refine .inl ⟨c, h1, h2, fun b hbp hpre => ?_⟩
      have : ¬ n ≤ (PackReader.src.put r b).remainder.length := hn
      rw [PackReader.read, if_neg this]
      have hl : c ≤ b.bits.length := (BR.take_of_prefix (s := r.br) h1 hpre).1
      exact h3 b hbp hpre _ (by show c < bitsLeft b + 1; unfold bitsLeft; omega)
    · exact .inr hd

/-- A pack with one packet, and the beginning of the next packet. -/
example : (fun r => (r.1, r.2.br.bits.length)) (PackReader.read 1 (PackReader.new (BR.ofBytes
      ([0, 0, 1, 0xba, 0x44, 0, 4, 0, 4, 1, 0, 0, 3, 0xf8] ++ [0, 0, 1, 0xe0, 0, 4, 0x80, 0, 0, 7] ++ [0, 0, 1, 0xe0, 0])))) =
      (.ok ⟨[7], 1, none⟩, 40) := by decide +kernel

end PS
end Mpeg
