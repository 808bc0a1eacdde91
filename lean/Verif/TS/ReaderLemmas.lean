/-
Lemmas about the stream readers: the packet trace of a source, termination, the loops of Read.
-/
import Verif.TS.ReaderSpec
import Verif.TS.Inv2
set_option linter.all false
namespace Mpeg

/-- total number of unread bits -/
def BR.size (s : BR) : Nat := s.bits.length + (s.later.map (fun x => x.1.length)).sum

/-- `m` never increases the measure. -/
def Go.NonInc {σ α : Type} (f : σ → Nat) (m : Go σ α) : Prop := ∀ s, f (m s).2 ≤ f s

namespace Go.NonInc
variable {σ α β : Type} {f : σ → Nat}
theorem pure (a : α) : NonInc f (Pure.pure a : Go σ α) := fun s => Nat.le_refl _
theorem throw (e : Err) : NonInc f (Go.throw e : Go σ α) := fun s => Nat.le_refl _
theorem panic : NonInc f (Go.panic : Go σ α) := fun s => Nat.le_refl _
theorem bind {m : Go σ α} {g : α → Go σ β} (h : NonInc f m) (hg : ∀ a, NonInc f (g a)) :
    NonInc f (m >>= g) := by
  intro s
  have h1 := h s
  rw [Go.bind_apply]
  cases hm : m s with
  | mk r s' =>
    rw [hm] at h1
    cases r with
    | ok a => exact Nat.le_trans (hg a s') h1
    | _ => exact h1
theorem map {m : Go σ α} (g : α → β) (h : NonInc f m) : NonInc f (g <$> m) := by
  intro s
  have h1 := h s
  rw [Go.map_apply]
  cases hm : m s with
  | mk r s' => rw [hm] at h1; cases r <;> exact h1
theorem opt {m : Go σ α} (c : Bool) (d : α) (h : NonInc f m) : NonInc f (Go.opt c d m) := by
  cases c
  · exact pure d
  · exact h
theorem ite {c : Prop} [Decidable c] {m m' : Go σ α} (h : NonInc f m) (h' : NonInc f m') :
    NonInc f (if c then m else m') := by split <;> assumption
theorem ignoreErr {m : Go σ α} (h : NonInc f m) : NonInc f (Go.ignoreErr m) := by
  intro s
  have h1 := h s
  unfold Go.ignoreErr
  cases hm : m s with
  | mk r s' => rw [hm] at h1; cases r <;> exact h1
end Go.NonInc

namespace BR
theorem size_failTo (s : BR) : s.failTo.size ≤ s.size := by
  unfold failTo size
  split
  · rename_i h; simp [h]
  · rename_i h; simp [h]
theorem size_adv (s : BR) (k : Nat) : (s.adv k).size ≤ s.size := by
  simp [adv, size]
theorem size_adv_lt (s : BR) {k : Nat} (h : k ≤ s.bits.length) : (s.adv k).size + k = s.size := by
  simp [adv, size]; omega
theorem noninc_read (k : Nat) : Go.NonInc size (read k) := by
  intro s; unfold read; split
  · exact size_adv _ _
  · exact size_failTo _
theorem noninc_skip (k : Nat) : Go.NonInc size (skip k) := by
  intro s; unfold skip; split
  · exact size_adv _ _
  · exact size_failTo _
theorem noninc_peek (k : Nat) : Go.NonInc size (peek k) := by
  intro s; unfold peek; split
  · exact Nat.le_refl _
  · exact size_failTo _
theorem noninc_read1 : Go.NonInc size read1 := by
  intro s; unfold read1; split
  · exact size_adv _ _
  · exact size_failTo _
theorem noninc_align : Go.NonInc size align := by
  intro s; exact size_adv _ _
theorem noninc_readFull (k : Nat) : Go.NonInc size (readFull k) := by
  intro s; unfold readFull; split
  · exact size_adv _ _
  · exact size_failTo _
theorem noninc_readAll : Go.NonInc size readAll := by
  intro s; exact size_failTo _
end BR

namespace TS
open Go.NonInc BR

theorem noninc_readFullUE (n : Nat) : Go.NonInc BR.size (readFullUE n) := by
  unfold readFullUE
  refine bind (noninc_readFull n) fun r => ?_
  split
  · exact pure _
  · exact throw _
  · exact throw _

theorem noninc_af : Go.NonInc BR.size newAdaptationField := by
  have h1 : Go.NonInc BR.size newTransportPrivateData := by
    unfold newTransportPrivateData
    exact bind (noninc_read _) fun _ => bind (opt _ _ (noninc_readFullUE _)) fun _ => pure _
  have hp : Go.NonInc BR.size readPcr := by
    unfold readPcr
    exact bind (noninc_read _) fun _ => bind (noninc_read _) fun _ => bind (noninc_read _) fun _ => pure _
  have he : Go.NonInc BR.size newAdaptationExt := by
    unfold newAdaptationExt
    refine bind (noninc_read _) fun _ => bind ?_ fun _ => bind ?_ fun _ => bind ?_ fun _ => bind ?_ fun _ => pure _
    · exact opt _ _ (bind noninc_read1 fun _ => bind noninc_read1 fun _ => bind noninc_read1 fun _ =>
        bind (ignoreErr (noninc_skip _)) fun _ => pure _)
    · exact opt _ _ (bind noninc_read1 fun _ => bind (noninc_read _) fun _ => pure _)
    · exact opt _ _ (bind (ignoreErr (noninc_skip _)) fun _ => noninc_read _)
    · exact opt _ _ (bind (noninc_read _) fun _ => bind (noninc_read _) fun _ =>
        bind (ignoreErr (noninc_skip _)) fun _ => bind (noninc_read _) fun _ =>
        bind (ignoreErr (noninc_skip _)) fun _ => bind (noninc_read _) fun _ => pure _)
  unfold newAdaptationField
  refine bind (noninc_read _) fun _ => bind ?_ fun _ => bind (opt _ _ hp) fun _ => bind (opt _ _ hp) fun _ =>
    bind (opt _ _ (noninc_read _)) fun _ => bind (opt _ _ (map _ h1)) fun _ =>
    bind (opt _ _ (map _ he)) fun _ => bind (opt _ _ (noninc_readFullUE _)) fun _ => pure _
  unfold afFlags
  exact opt _ _ (bind noninc_read1 fun _ => bind noninc_read1 fun _ => bind noninc_read1 fun _ =>
    bind noninc_read1 fun _ => bind noninc_read1 fun _ => bind noninc_read1 fun _ =>
    bind noninc_read1 fun _ => bind noninc_read1 fun _ => pure _)

def St.size (s : St) : Nat := s.br.size

theorem noninc_lift {α : Type} {m : Go BR α} (h : Go.NonInc BR.size m) : Go.NonInc St.size (St.lift m) :=
  fun s => h s.br
theorem noninc_readInto {α : Type} {m : Go BR α} (h : Go.NonInc BR.size m) (z : α)
    (set : α → Packet → Packet) : Go.NonInc St.size (readInto m z set) := by
  intro s
  have := h s.br
  unfold readInto
  cases hm : m s.br with
  | mk r b => rw [hm] at this; cases r <;> exact this
theorem noninc_readAdaptation : Go.NonInc St.size readAdaptation := by
  intro s
  have := noninc_af s.br
  unfold readAdaptation
  cases hm : newAdaptationField s.br with
  | mk r b => rw [hm] at this; cases r <;> exact this
theorem noninc_readPayload (n : Nat) : Go.NonInc St.size (readPayload n) := by
  intro s
  have := noninc_readFull n s.br
  unfold readPayload
  split
  · exact Nat.le_refl _
  · cases hm : BR.readFull n s.br with
    | mk r b =>
      rw [hm] at this
      cases r with
      | ok a =>
        obtain ⟨bs, e⟩ := a
        cases e with
        | none => exact this
        | some e => cases e <;> exact this
      | _ => exact this

theorem noninc_afterSync : Go.NonInc St.size afterSync := by
  unfold afterSync
  refine bind (noninc_readInto noninc_read1 _ _) fun _ => bind (noninc_readInto noninc_read1 _ _) fun _ =>
    bind (noninc_readInto noninc_read1 _ _) fun _ => bind (noninc_readInto (noninc_read _) _ _) fun _ =>
    bind (noninc_readInto (noninc_read _) _ _) fun _ => bind (noninc_lift (noninc_read _)) fun _ =>
    bind (fun s => Nat.le_refl _) fun _ => bind (noninc_readInto (noninc_read _) _ _) fun _ =>
    bind (opt _ _ (bind noninc_readAdaptation fun _ => pure _)) fun _ =>
    opt _ _ (noninc_readPayload _)

theorem noninc_realignLoop : ∀ n, Go.NonInc BR.size (realignLoop n)
  | 0 => throw _
  | n + 1 => by
    unfold realignLoop
    exact bind (noninc_peek _) fun v => ite (pure _) (bind (noninc_skip _) fun _ => noninc_realignLoop n)

theorem noninc_isAligned : Go.NonInc BR.size isAligned := by
  intro s
  unfold isAligned
  split
  · exact Nat.le_refl _
  · exact bind (noninc_peek 8) (fun _ => pure _) s

theorem noninc_realign : Go.NonInc BR.size realign := by
  intro s
  unfold realign
  split
  · exact bind noninc_align (fun _ => noninc_realignLoop _) s
  · exact noninc_realignLoop _ s

theorem sync_dec {s s' : BR} {u : Unit} (h : sync s = (.ok u, s')) : s'.size + 8 ≤ s.size := by
  unfold sync at h
  obtain ⟨a, s1, h1, h⟩ := Go.bind_eq_ok h
  obtain ⟨u2, s2, h2, h⟩ := Go.bind_eq_ok h
  have e1 := noninc_isAligned s
  rw [h1] at e1
  have e2 := opt (!a) () noninc_realign s1
  rw [h2] at e2
  have e3 : s'.size + 8 = s2.size := by
    unfold BR.skip at h
    split at h
    · rename_i hk
      simp only [Prod.mk.injEq] at h
      rw [← h.2]; exact size_adv_lt _ hk
    · simp at h
  simp only at e1 e2
  omega

theorem next_dec {s s' : St} {u : Unit} (h : Packet.next s = (.ok u, s')) : s'.size + 8 ≤ s.size := by
  rw [next_eq] at h
  obtain ⟨u1, s1, h1, h⟩ := Go.bind_eq_ok h
  have e1 : s1.size + 8 ≤ s.size := by
    obtain ⟨x, y⟩ := lift_inv h1
    exact sync_dec x
  have e2 := noninc_afterSync s1
  rw [h] at e2
  simp only at e2
  omega

theorem sync_noninc : Go.NonInc BR.size sync := by
  unfold sync
  exact bind noninc_isAligned fun _ => bind (opt _ _ noninc_realign) fun _ => noninc_skip _

theorem next_noninc : Go.NonInc St.size Packet.next := by
  rw [next_eq]
  exact bind (noninc_lift sync_noninc) fun _ => noninc_afterSync

theorem Run.length_le {s s' : St} {ps : List Packet} (h : Run s ps s') :
    8 * ps.length + s'.size ≤ s.size := by
  induction h with
  | nil s => simp
  | cons h _ ih => have := next_dec h; simp only [List.length_cons]; omega

theorem Run.append {s s1 s2 : St} {ps qs : List Packet} (h : Run s ps s1) (h' : Run s1 qs s2) :
    Run s (ps ++ qs) s2 := by
  induction h with
  | nil s => exact h'
  | cons h _ ih => exact .cons h (ih h')

theorem Run.split {s s' : St} {ps qs : List Packet} (h : Run s (ps ++ qs) s') :
    ∃ s1, Run s ps s1 ∧ Run s1 qs s' := by
  induction ps generalizing s with
  | nil => exact ⟨s, .nil s, h⟩
  | cons p ps ih =>
    cases h with
    | cons h1 h2 =>
      obtain ⟨s1, a, b⟩ := ih h2
      exact ⟨s1, .cons h1 a, b⟩

/-- Every source yields finitely many packets and then an error or a panic. -/
theorem exists_run (s : St) : ∃ ps s1, Run s ps s1 ∧
    ((∃ e s', Packet.next s1 = (.err e, s')) ∨ ∃ s', Packet.next s1 = (.panic, s')) := by
  induction hn : s.size using Nat.strongRecOn generalizing s with
  | _ n ih =>
    cases h : Packet.next s with
    | mk r s' =>
      cases r with
      | ok u =>
        have hd := next_dec h
        obtain ⟨ps, s1, h1, h2⟩ := ih s'.size (by omega) s' rfl
        exact ⟨s'.pkt :: ps, s1, .cons h h1, h2⟩
      | err e => exact ⟨[], s, .nil s, .inl ⟨e, s', h⟩⟩
      | panic => exact ⟨[], s, .nil s, .inr ⟨s', h⟩⟩
      | hang => exact absurd (by rw [h]) (next_ne_hang s)

/-! ### the payload reader loops -/

open Spec

@[simp] theorem payloads_nil (w : Tester) : payloads w [] = [] := rfl
theorem payloads_cons (w : Tester) (p : Packet) (ps : List Packet) :
    payloads w (p :: ps) = (if w p then p.payload else []) ++ payloads w ps := by
  unfold payloads
  by_cases h : w p <;> simp [h]
theorem payloads_append (w : Tester) (ps qs : List Packet) :
    payloads w (ps ++ qs) = payloads w ps ++ payloads w qs := by
  simp [payloads]

theorem fill_zero (c : PRCfg) (f : Nat) (out rem : List UInt8) (r : PR) :
    PR.fill c (f + 1) 0 out rem r = (.ok (out, none), { r with remainder := r.remainder ++ rem }) := by
  simp [PR.fill]
theorem fill_err (c : PRCfg) (f n : Nat) (out rem : List UInt8) (r : PR) {e : Err} {s : St} (h0 : n ≠ 0)
    (h : Packet.next r.st = (.err e, s)) :
    PR.fill c (f + 1) n out rem r = (.ok (out, some e), { r with st := s }) := by
  simp [PR.fill, h, h0]
theorem fill_w (c : PRCfg) (f n : Nat) (out rem : List UInt8) (r : PR) {s : St} (h0 : n ≠ 0)
    (h : Packet.next r.st = (.ok (), s)) (hw : c.whre s.pkt = true) (ht : c.takeWhile s.pkt = true) :
    PR.fill c (f + 1) n out rem r = PR.fill c f (n - min n s.pkt.payload.length)
      (out ++ s.pkt.payload.take n) (s.pkt.payload.drop n) { r with st := s } := by
  simp [PR.fill, h, h0, hw, ht]
theorem fill_nw (c : PRCfg) (f n : Nat) (out rem : List UInt8) (r : PR) {s : St} (h0 : n ≠ 0)
    (h : Packet.next r.st = (.ok (), s)) (hw : c.whre s.pkt = false) (ht : c.takeWhile s.pkt = true) :
    PR.fill c (f + 1) n out rem r = PR.fill c f n out rem { r with st := s } := by
  simp [PR.fill, h, h0, hw, ht]
theorem fill_reject (c : PRCfg) (f n : Nat) (out rem : List UInt8) (r : PR) {s : St} (h0 : n ≠ 0)
    (h : Packet.next r.st = (.ok (), s)) (ht : c.takeWhile s.pkt = false) :
    PR.fill c (f + 1) n out rem r =
      (.ok (out ++ if c.whre s.pkt then s.pkt.payload.take n else [], some .eof),
        { r with st := s, closed := true }) := by
  by_cases hw : c.whre s.pkt <;> simp [PR.fill, h, h0, ht, hw]

theorem fill_enough (c : PRCfg) {s s' : St} {ps : List Packet} (h : Run s ps s')
    (ht : ∀ p ∈ ps, c.takeWhile p = true) :
    ∀ (fuel n : Nat) (out rem : List UInt8) (r : PR), r.st = s → ps.length < fuel →
      n ≤ (payloads c.whre ps).length → (n ≠ 0 → rem = []) →
      ∃ ps2 s1 rem', Run s1 ps2 s' ∧ (∀ p ∈ ps2, c.takeWhile p = true) ∧ ps2.length ≤ ps.length ∧
        PR.fill c fuel n out rem r = (.ok (out ++ (payloads c.whre ps).take n, none),
          { r with st := s1, remainder := r.remainder ++ rem' }) ∧
        rem' ++ payloads c.whre ps2 = rem ++ (payloads c.whre ps).drop n := by
  induction h with
  | nil s =>
    intro fuel n out rem r hr hf hn hrem
    obtain ⟨f, rfl⟩ : ∃ f, fuel = f + 1 := ⟨fuel - 1, by omega⟩
    have : n = 0 := by simpa using hn
    subst this
    exact ⟨[], s, rem, .nil s, by simp, by simp, by simp [PR.fill, ← hr], by simp⟩
  | @cons s s1 s2 ps h hrun ih =>
    intro fuel n out rem r hr hf hn hrem
    obtain ⟨f, rfl⟩ : ∃ f, fuel = f + 1 := ⟨fuel - 1, by omega⟩
    by_cases h0 : n = 0
    · subst h0
      exact ⟨s1.pkt :: ps, s, rem, .cons h hrun, ht, Nat.le_refl _, by simp [PR.fill, ← hr], by simp⟩
    · have hrem0 := hrem h0
      subst hrem0
      have htw : c.takeWhile s1.pkt = true := ht _ (by simp)
      have ht' : ∀ p ∈ ps, c.takeWhile p = true := fun p hp => ht p (by simp [hp])
      simp only [List.length_cons] at hf
      rw [payloads_cons] at hn ⊢
      by_cases hw : c.whre s1.pkt = true
      · simp only [hw, if_true, List.length_append] at hn ⊢
        obtain ⟨ps2, st, rem', hr2, ht2, hl2, he, hd⟩ :=
          ih ht' f (n - min n s1.pkt.payload.length) (out ++ s1.pkt.payload.take n)
            (s1.pkt.payload.drop n) { r with st := s1 } rfl (by omega) (by omega) (by
              intro hne
              have : s1.pkt.payload.length < n := by omega
              exact List.drop_eq_nil_of_le (by omega))
        refine ⟨ps2, st, rem', hr2, ht2, by simp only [List.length_cons]; omega, ?_, ?_⟩
        · rw [fill_w c f n out [] r h0 (hr ▸ h) hw htw, he]
          simp only [List.take_append, List.append_assoc]
          rw [show n - min n s1.pkt.payload.length = n - s1.pkt.payload.length by omega]
        · rw [hd, List.drop_append, List.nil_append]
          rw [show n - min n s1.pkt.payload.length = n - s1.pkt.payload.length by omega]
      · have hw' : c.whre s1.pkt = false := by simpa using hw
        simp only [hw', Bool.false_eq_true, if_false, List.nil_append] at hn ⊢
        obtain ⟨ps2, st, rem', hr2, ht2, hl2, he, hd⟩ :=
          ih ht' f n out [] { r with st := s1 } rfl (by omega) hn (fun _ => rfl)
        refine ⟨ps2, st, rem', hr2, ht2, by simp only [List.length_cons]; omega, ?_, by simpa using hd⟩
        rw [fill_nw c f n out [] r h0 (hr ▸ h) hw' htw, he]

/-- the packets do not fill the buffer: what happens next -/
theorem fill_more (c : PRCfg) {s s' : St} {ps : List Packet} (h : Run s ps s')
    (ht : ∀ p ∈ ps, c.takeWhile p = true) :
    ∀ (f n : Nat) (out rem : List UInt8) (r : PR), r.st = s → 
      (payloads c.whre ps).length < n → rem = [] →
        PR.fill c (f + 1 + ps.length) n out rem r =
          PR.fill c (f + 1) (n - (payloads c.whre ps).length) (out ++ payloads c.whre ps) []
            { r with st := s' } := by
  induction h with
  | nil s =>
    intro f n out rem r hr hn hrem
    subst hr; subst hrem
    simp
  | @cons s s1 s2 ps h hrun ih =>
    intro f n out rem r hr hn hrem
    subst hrem
    have htw : c.takeWhile s1.pkt = true := ht _ (by simp)
    have ht' : ∀ p ∈ ps, c.takeWhile p = true := fun p hp => ht p (by simp [hp])
    have h0 : n ≠ 0 := by omega
    rw [payloads_cons] at hn ⊢
    rw [List.length_cons, ← Nat.add_assoc]
    by_cases hw : c.whre s1.pkt = true
    · simp only [hw, if_true, List.length_append] at hn ⊢
      rw [fill_w c _ n out [] r h0 (hr ▸ h) hw htw,
        ih ht' f _ _ _ { r with st := s1 } rfl (by omega) (List.drop_eq_nil_of_le (by omega)),
        List.take_of_length_le (by omega), List.append_assoc]
      congr 1
      omega
    · have hw' : c.whre s1.pkt = false := by simpa using hw
      simp only [hw', Bool.false_eq_true, if_false, List.nil_append] at hn ⊢
      rw [fill_nw c _ n out [] r h0 (hr ▸ h) hw' htw,
        ih ht' f _ _ _ { r with st := s1 } rfl hn rfl]

/-! ### Read of the payload reader -/

/-- An open, started reader whose source yields `ps` (all accepted by takeWhile) and reaches `s'`. -/
structure Open (c : PRCfg) (r : PR) (ps : List Packet) (s' : St) : Prop where
  closed : r.closed = false
  started : r.started = true
  run : Run r.st ps s'
  take : ∀ p ∈ ps, c.takeWhile p = true

/-- the bytes still to be delivered -/
def content (c : PRCfg) (r : PR) (ps : List Packet) : List UInt8 := r.remainder ++ payloads c.whre ps

theorem read_drain (c : PRCfg) {fuel n : Nat} {r : PR} (h : r.closed = false) (h' : r.started = true) :
    PR.read c fuel n r = PR.drain c fuel n r := by
  simp [PR.read, h, h']

theorem read_enough (c : PRCfg) {r : PR} {ps : List Packet} {s' : St} (h : Open c r ps s')
    {fuel n : Nat} (hf : ps.length < fuel) (hn : n ≤ (content c r ps).length) :
    ∃ r' ps', PR.read c fuel n r = (.ok ((content c r ps).take n, none), r') ∧ Open c r' ps' s' ∧
      ps'.length ≤ ps.length ∧ content c r' ps' = (content c r ps).drop n := by
  rw [read_drain c h.closed h.started]
  unfold content at *
  rw [List.length_append] at hn
  unfold PR.drain
  obtain ⟨ps2, s1, rem', h1, h2, h3, h4, h5⟩ := fill_enough c h.run h.take fuel
    (n - r.remainder.length) (r.remainder.take n) [] { r with remainder := r.remainder.drop n } rfl hf
    (by omega) (fun _ => rfl)
  refine ⟨{ r with st := s1, remainder := r.remainder.drop n ++ rem' }, ps2, ?_,
    ⟨h.closed, h.started, h1, h2⟩, h3, ?_⟩
  · rw [h4, List.take_append]
  · simp only [List.append_assoc]
    rw [h5, List.drop_append, List.nil_append]

theorem read_more (c : PRCfg) {r : PR} {ps : List Packet} {s' : St} (h : Open c r ps s')
    {f n : Nat} (hn : (content c r ps).length < n) :
    PR.read c (f + 1 + ps.length) n r =
      PR.fill c (f + 1) (n - (content c r ps).length) (content c r ps) []
        { r with st := s', remainder := [] } := by
  rw [read_drain c h.closed h.started]
  unfold content at *
  rw [List.length_append] at hn ⊢
  unfold PR.drain
  rw [fill_more c h.run h.take f _ _ _ { r with remainder := r.remainder.drop n } rfl (by omega) rfl]
  rw [List.take_of_length_le (by omega), List.drop_eq_nil_of_le (by omega), Nat.sub_sub]

theorem read_closed (c : PRCfg) {fuel n : Nat} {r : PR} (h : r.closed = true) :
    PR.read c fuel n r = (.ok ([], some .eof), r) := by
  simp [PR.read, h]

theorem reads_cons_ok (c : PRCfg) {fuel n : Nat} {ns : List Nat} {r r' r'' : PR} {d : List UInt8}
    {os : List (List UInt8 × Option Err)}
    (h : PR.read c fuel n r = (.ok (d, none), r')) (h' : PR.reads c fuel ns r' = (.ok os, r'')) :
    PR.reads c fuel (n :: ns) r = (.ok ((d, none) :: os), r'') := by
  rw [PR.reads, Go.bind_ok h]
  simp only [Option.isSome_none, Bool.false_eq_true, if_false]
  rw [Go.bind_ok h']
  rfl
theorem reads_cons_err (c : PRCfg) {fuel n : Nat} {ns : List Nat} {r r' : PR} {d : List UInt8} {e : Err}
    (h : PR.read c fuel n r = (.ok (d, some e), r')) :
    PR.reads c fuel (n :: ns) r = (.ok [(d, some e)], r') := by
  rw [PR.reads, Go.bind_ok h]
  rfl

/-- Reads over a source that reaches `s'` and then gives one of the two endings. -/
theorem reads_deliver (c : PRCfg) {s' s'' : St} {e : Err} (he : Packet.next s' = (.err e, s'')) :
    ∀ (ns : List Nat) (r : PR) (ps : List Packet), Open c r ps s' → ∀ fuel, ps.length < fuel →
      ∃ r', PR.reads c fuel ns r = (.ok (deliver (content c r ps) e ns), r') ∧
        (ns.sum ≤ (content c r ps).length ∨ r'.st = s'' ∧ r'.started = true ∧ r'.remainder = []) := by
  intro ns
  induction ns with
  | nil => intro r ps h fuel hf; exact ⟨r, rfl, by simp⟩
  | cons n ns ih =>
    intro r ps h fuel hf
    unfold deliver
    by_cases hn : n ≤ (content c r ps).length
    · obtain ⟨r1, ps1, h1, h2, h3, h4⟩ := read_enough c h hf hn
      obtain ⟨r', h5, h6⟩ := ih r1 ps1 h2 fuel (by omega)
      refine ⟨r', ?_, ?_⟩
      · rw [reads_cons_ok c h1 h5, h4, if_pos hn]
      · rw [h4] at h6
        rcases h6 with h6 | h6
        · left; simp only [List.length_drop] at h6; simp only [List.sum_cons]; omega
        · right; exact h6
    · obtain ⟨f, rfl⟩ : ∃ f, fuel = f + 1 + ps.length := ⟨fuel - 1 - ps.length, by omega⟩
      have h1 := read_more c h (f := f) (n := n) (by omega)
      rw [fill_err c _ _ _ _ _ (by omega) he] at h1
      exact ⟨{ r with st := s'', remainder := [] }, by rw [reads_cons_err c h1, if_neg hn],
        .inr ⟨rfl, h.started, rfl⟩⟩

theorem reads_deliverCut (c : PRCfg) {s' s'' : St} (he : Packet.next s' = (.ok (), s''))
    (ht : c.takeWhile s''.pkt = false) :
    ∀ (ns : List Nat) (r : PR) (ps : List Packet), Open c r ps s' → ∀ fuel, ps.length < fuel →
      ∃ r', PR.reads c fuel ns r =
          (.ok (deliverCut (content c r ps) (payloads c.whre [s''.pkt]) .eof ns), r') ∧
        (ns.sum ≤ (content c r ps).length ∨ r'.closed = true) := by
  intro ns
  induction ns with
  | nil => intro r ps h fuel hf; exact ⟨r, rfl, by simp⟩
  | cons n ns ih =>
    intro r ps h fuel hf
    unfold deliverCut
    by_cases hn : n ≤ (content c r ps).length
    · obtain ⟨r1, ps1, h1, h2, h3, h4⟩ := read_enough c h hf hn
      obtain ⟨r', h5, h6⟩ := ih r1 ps1 h2 fuel (by omega)
      refine ⟨r', ?_, ?_⟩
      · rw [reads_cons_ok c h1 h5, h4, if_pos hn]
      · rw [h4] at h6
        rcases h6 with h6 | h6
        · left; simp only [List.length_drop] at h6; simp only [List.sum_cons]; omega
        · right; exact h6
    · obtain ⟨f, rfl⟩ : ∃ f, fuel = f + 1 + ps.length := ⟨fuel - 1 - ps.length, by omega⟩
      have h1 := read_more c h (f := f) (n := n) (by omega)
      rw [fill_reject c _ _ _ _ _ (by omega) he ht] at h1
      refine ⟨{ r with st := s'', remainder := [], closed := true }, ?_, .inr rfl⟩
      rw [reads_cons_err c h1, if_neg hn, payloads_cons]
      by_cases hw : c.whre s''.pkt <;> simp [hw]

/-- a reader that has not read yet, without SkipUntil -/
theorem reads_new (c : PRCfg) (hs : c.skipUntil = none) (fuel : Nat) (n : Nat) (ns : List Nat) (br : BR) :
    PR.reads c fuel (n :: ns) (PR.new br) =
      PR.reads c fuel (n :: ns) { PR.new br with started := true } := by
  have : PR.read c fuel n (PR.new br) = PR.read c fuel n { PR.new br with started := true } := by
    simp [PR.read, PR.new, hs]
  rw [PR.reads, Go.bind_apply, Go.bind_apply, this]

/-! ### SkipUntil -/

theorem realign_ok (t : Tester) {s s1 : St} {ps : List Packet} (h : Run s ps s1)
    (hp : ∀ p ∈ ps, t p = false) {s2 : St} (h2 : Packet.next s1 = (.ok (), s2)) (ht : t s2.pkt = true) :
    ∀ (f : Nat) (r : PR), r.st = s → PR.realign t (f + 1 + ps.length) r =
      (.ok (), { r with st := s2, remainder := r.remainder ++ s2.pkt.payload }) := by
  induction h with
  | nil s => intro f r hr; subst hr; simp [PR.realign, h2, ht]
  | @cons s sa sb ps h hrun ih =>
    intro f r hr
    rw [List.length_cons, ← Nat.add_assoc, PR.realign]
    simp only [hr, h, hp sa.pkt (by simp), Bool.false_eq_true, if_false]
    exact ih (fun p hq => hp p (by simp [hq])) h2 f { r with st := sa } rfl

theorem realign_hang (t : Tester) {s : St} {e : Err} (h : Packet.next s = (.err e, s))
    (ht : t s.pkt = false) : ∀ (f : Nat) (r : PR), r.st = s → (PR.realign t f r).1 = .hang := by
  intro f
  induction f with
  | zero => intro r _; rfl
  | succ f ih =>
    intro r hr
    rw [PR.realign]
    simp only [hr, h, ht, Bool.false_eq_true, if_false]
    exact ih _ rfl

theorem realign_hang_run (t : Tester) {s s1 : St} {ps : List Packet} (h : Run s ps s1)
    (hp : ∀ p ∈ ps, t p = false) (hs : t s.pkt = false) {e : Err} (h2 : Packet.next s1 = (.err e, s1)) :
    ∀ (f : Nat) (r : PR), r.st = s → (PR.realign t f r).1 = .hang := by
  induction h with
  | nil s => exact realign_hang t h2 hs
  | @cons s sa sb ps h hrun ih =>
    intro f r hr
    cases f with
    | zero => rfl
    | succ f =>
      rw [PR.realign]
      simp only [hr, h, hp sa.pkt (by simp), Bool.false_eq_true, if_false]
      exact ih (fun p hq => hp p (by simp [hq])) (hp sa.pkt (by simp)) h2 f _ rfl

/-- at the end of the source `Next` reports the same error again and changes nothing -/
theorem next_at_end {s : St} (h : s.br.bits = []) (hl : s.br.later = []) (h8 : s.br.pos % 8 = 0) :
    Packet.next s = (.err s.br.stop, s) := by
  obtain ⟨p, ⟨b, pos, stop, l⟩⟩ := s
  simp only at h hl h8
  subst h; subst hl
  have hp : isAligned ⟨[], pos, stop, []⟩ = (.err stop, ⟨[], pos, stop, []⟩) := by
    simp [isAligned, BR.isAligned, h8, BR.peek, BR.failErr, BR.failTo, Go.bind_apply]
  have hs : sync ⟨[], pos, stop, []⟩ = (.err stop, ⟨[], pos, stop, []⟩) := Go.bind_err hp
  rw [next_eq]
  exact Go.bind_err (by simp [St.lift, hs])

end TS
end Mpeg
