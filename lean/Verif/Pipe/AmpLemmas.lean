/-
What a packet gives and what it costs: lemmas for `AmpProps`.
-/
import Verif.Pipe.HoldProps
import Verif.Pipe.ErrLemmas
set_option linter.all false
namespace Mpeg

/-- The number of bytes a list of results of `Read` contains. -/
def bytesIn (outs : List (List UInt8 × Option Err)) : Nat := (outs.map fun o => o.1.length).sum

@[simp] theorem bytesIn_nil : bytesIn [] = 0 := rfl
@[simp] theorem bytesIn_cons (o : List UInt8 × Option Err) (outs : List (List UInt8 × Option Err)) :
    bytesIn (o :: outs) = o.1.length + bytesIn outs := by simp [bytesIn]

namespace TS

/-- Success costs `d` bits; a failure leaves the payload alone. -/
def Charged {α : Type} (d : Nat) (m : Go St α) : Prop := ∀ s r s', m s = (r, s') →
  s'.size ≤ s.size ∧ ((∃ a, r = .ok a) → s'.size + d ≤ s.size) ∧ s'.pkt.payload = s.pkt.payload

/-- Success costs `d` bits; a failure costs `d` bits or leaves the payload alone. -/
def Paid {α : Type} (d : Nat) (m : Go St α) : Prop := ∀ s r s', m s = (r, s') →
  s'.size ≤ s.size ∧ (s'.size + d ≤ s.size ∨ ((∀ a, r ≠ .ok a) ∧ s'.pkt.payload = s.pkt.payload))

theorem Charged.bind {α β : Type} {d e : Nat} {m : Go St α} {f : α → Go St β} (hm : Charged d m) (hf : ∀ a, Paid e (f a)) :
    Paid (d + e) (m >>= f) := by
  intro s r s' h
  rw [Go.bind_apply] at h
  cases hx : m s with
  | mk x s1 =>
    obtain ⟨h1, h2, h3⟩ := hm s x s1 hx
    rw [hx] at h
    cases x with
    | ok a =>
      obtain ⟨h4, h5⟩ := hf a s1 r s' h
      have h2 := h2 ⟨a, rfl⟩
      refine ⟨by omega, ?_⟩
      rcases h5 with h5 | ⟨h5, h6⟩
      · left; omega
      · right; exact ⟨h5, h6.trans h3⟩
    | err e => cases h; exact ⟨h1, .inr ⟨by simp, h3⟩⟩
    | panic => cases h; exact ⟨h1, .inr ⟨by simp, h3⟩⟩
    | hang => cases h; exact ⟨h1, .inr ⟨by simp, h3⟩⟩

theorem Paid.of {α : Type} {m : Go St α} (h : Go.NonInc St.size m) : Paid 0 m := by
  intro s r s' hx
  have := h s
  rw [hx] at this
  exact ⟨this, .inl this⟩

theorem charged_readInto {α : Type} {d : Nat} {m : Go BR α} {z : α} {set : α → Packet → Packet}
    (hn : Go.NonInc BR.size m) (hd : ∀ {a s s'}, m s = (.ok a, s') → s'.size + d ≤ s.size)
    (hs : ∀ a p, (set a p).payload = p.payload) : Charged d (readInto m z set) := by
  intro s r s' h
  unfold readInto at h
  have h0 := hn s.br
  cases hx : m s.br with
  | mk x b =>
    rw [hx] at h h0
    cases x with
    | ok a =>
      cases h
      exact ⟨h0, fun _ => hd hx, hs _ _⟩
    | err e => cases h; exact ⟨h0, by simp, hs _ _⟩
    | panic => cases h; exact ⟨h0, by simp, rfl⟩
    | hang => cases h; exact ⟨h0, by simp, rfl⟩

theorem charged_lift {α : Type} {d : Nat} {m : Go BR α}
    (hn : Go.NonInc BR.size m) (hd : ∀ {a s s'}, m s = (.ok a, s') → s'.size + d ≤ s.size) : Charged d (St.lift m) := by
  intro s r s' h
  have h0 := hn s.br
  unfold St.lift at h
  cases hx : m s.br with
  | mk x b =>
    rw [hx] at h h0
    cases h
    refine ⟨h0, ?_, rfl⟩
    rintro ⟨a, rfl⟩
    exact hd hx

theorem read_paid {k v : Nat} {s s' : BR} (h : BR.read k s = (.ok v, s')) : s'.size + k ≤ s.size := by
  obtain ⟨l, h1, h2, _⟩ := BR.read_inv h
  have := PES.took_size h1
  omega

theorem read1_paid {v : Bool} {s s' : BR} (h : BR.read1 s = (.ok v, s')) : s'.size + 1 ≤ s.size := by
  unfold BR.read1 at h
  split at h
  · rename_i b t hb
    cases h
    exact Nat.le_of_eq (BR.size_adv_lt s (k := 1) (by simp [hb]))
  · cases h

/-- `Next` reads 32 bits of the source before it changes the payload, and always if it succeeds. -/
theorem next_paid : Paid 32 Packet.next := by
  unfold Packet.next
  refine Charged.bind (d := 8) (e := 24) (charged_lift sync_noninc sync_dec) fun _ => ?_
  refine Charged.bind (d := 1) (e := 23) (charged_readInto BR.noninc_read1 read1_paid fun _ _ => rfl) fun _ => ?_
  refine Charged.bind (d := 1) (e := 22) (charged_readInto BR.noninc_read1 read1_paid fun _ _ => rfl) fun _ => ?_
  refine Charged.bind (d := 1) (e := 21) (charged_readInto BR.noninc_read1 read1_paid fun _ _ => rfl) fun _ => ?_
  refine Charged.bind (d := 13) (e := 8) (charged_readInto (BR.noninc_read _) read_paid fun _ _ => rfl) fun _ => ?_
  refine Charged.bind (d := 2) (e := 6) (charged_readInto (BR.noninc_read _) read_paid fun _ _ => rfl) fun _ => ?_
  refine Charged.bind (d := 2) (e := 4) (charged_lift (BR.noninc_read _) read_paid) fun _ => ?_
  refine Charged.bind (d := 0) (e := 4) ?_ fun _ => ?_
  · intro s r s' h
    cases h
    exact ⟨Nat.le_refl _, fun _ => Nat.le_refl _, rfl⟩
  refine Charged.bind (d := 4) (e := 0) (charged_readInto (BR.noninc_read _) read_paid fun _ _ => rfl) fun _ => ?_
  exact .of (.bind (.opt _ _ (.bind noninc_readAdaptation fun _ => .pure _)) fun _ => .opt _ _ (noninc_readPayload _))

/-! ### the payload reader -/

/-- What may still be given: the bytes kept, and 184 bytes for every 32 bits of the source. -/
def PR.due (r : PR) : Nat := 32 * r.remainder.length + 184 * r.st.size

theorem due_fill (c : PRCfg) : ∀ (f n : Nat) (out rem : List UInt8) (r : PR), Fits r.st →
    ∀ o r', PR.fill c f n out rem r = (.ok o, r') →
      32 * o.1.length + r'.due ≤ 32 * out.length + 32 * rem.length + r.due
  | 0, n, out, rem, r, h1, o, r', h => by simp [PR.fill, Go.hang] at h
  | f + 1, n, out, rem, r, h1, o, r', h => by
    unfold PR.fill at h
    by_cases hn : n = 0
    · rw [if_pos hn] at h
      cases h
      simp only [PR.due, List.length_append]
      omega
    · rw [if_neg hn] at h
      have hk := fits_next r.st h1
      cases hx : Packet.next r.st with
      | mk x st =>
        obtain ⟨h3, h4⟩ := next_paid r.st x st hx
        rw [hx] at h hk
        cases x with
        | panic => cases h
        | hang => cases h
        | err e =>
          cases h
          simp only [PR.due]
          omega
        | ok u =>
          have h4 : st.size + 32 ≤ r.st.size := by
            rcases h4 with h4 | ⟨h4, _⟩
            · exact h4
            · exact absurd rfl (h4 u)
          have h5 : st.pkt.payload.length ≤ 184 := Fits.le hk
          have h6 : 32 * (if c.whre st.pkt then out ++ st.pkt.payload.take n else out).length +
              32 * (if c.whre st.pkt then st.pkt.payload.drop n else rem).length ≤
              32 * out.length + 32 * rem.length + 184 * 32 := by
            split
            · simp only [List.length_append, List.length_take, List.length_drop]; omega
            · omega
          dsimp only at h
          split at h
          · cases h
            simp only [PR.due] at h6 ⊢
            omega
          · have := due_fill c f _ _ _ { r with st := st } hk o r' h
            simp only [PR.due] at this h6 ⊢
            omega

theorem due_drain (c : PRCfg) (fuel n : Nat) (r : PR) (hf : Fits r.st) (o : List UInt8 × Option Err) (r' : PR)
    (h : PR.drain c fuel n r = (.ok o, r')) : 32 * o.1.length + r'.due ≤ r.due := by
  unfold PR.drain at h
  have := due_fill c _ _ _ _ { r with remainder := r.remainder.drop n } hf o r' h
  simp only [PR.due, List.length_nil, List.length_take, List.length_drop] at this ⊢
  omega

/-- Up to the first packet the current payload is empty or has been paid for. -/
theorem due_realign (t : Tester) : ∀ (f : Nat) (k : Nat) (r : PR), Fits r.st → r.remainder = [] →
    (r.st.pkt.payload = [] ∨ r.st.size + 32 ≤ k) → r.st.size ≤ k →
    ∀ r', PR.realign t f r = (.ok (), r') → r'.due ≤ 184 * k
  | 0, k, r, h1, h2, h3, h4, r', h => by simp [PR.realign, Go.hang] at h
  | f + 1, k, r, h1, h2, h3, h4, r', h => by
    unfold PR.realign at h
    have hk := fits_next r.st h1
    cases hx : Packet.next r.st with
    | mk x st =>
      obtain ⟨h5, h6⟩ := next_paid r.st x st hx
      rw [hx] at h hk
      have h7 : st.pkt.payload.length ≤ 184 := Fits.le hk
      have h8 : st.pkt.payload = [] ∨ st.size + 32 ≤ k := by
        rcases h6 with h6 | ⟨_, h6⟩
        · right; omega
        · rw [h6]
          rcases h3 with h3 | h3
          · exact .inl h3
          · right; omega
      have key : PR.due { r with st := st, remainder := r.remainder ++ st.pkt.payload } ≤ 184 * k := by
        simp only [PR.due, h2, List.nil_append]
        rcases h8 with h8 | h8
        · rw [h8]; simp only [List.length_nil]; omega
        · omega
      cases x with
      | panic => cases h
      | hang => cases h
      | err e =>
        dsimp only at h
        split at h
        · cases h; exact key
        · exact due_realign t f k { r with st := st } hk h2 h8 (by dsimp only; omega) r' h
      | ok u =>
        dsimp only at h
        split at h
        · cases h; exact key
        · exact due_realign t f k { r with st := st } hk h2 h8 (by dsimp only; omega) r' h

/-- Before the first Read the payload is empty. -/
def Fresh (r : PR) : Prop := Slim r ∧ (r.started = false → r.st.pkt.payload = [])

theorem started_fill (c : PRCfg) : ∀ (f n : Nat) (out rem : List UInt8) (r : PR), r.started = true →
    (PR.fill c f n out rem r).2.started = true
  | 0, n, out, rem, r, h => h
  | f + 1, n, out, rem, r, h => by
    unfold PR.fill
    split
    · exact h
    · cases hx : Packet.next r.st with
      | mk x st =>
        cases x with
        | panic => exact h
        | hang => exact h
        | err e => exact h
        | ok u =>
          dsimp only
          split
          · exact h
          · exact started_fill c f _ _ _ _ h

theorem due_read (c : PRCfg) (fuel n : Nat) (r : PR) (hr : Fresh r) (o : List UInt8 × Option Err) (r' : PR)
    (h : PR.read c fuel n r = (.ok o, r')) : 32 * o.1.length + r'.due ≤ r.due ∧ Fresh r' := by
  have hs := slim_read c fuel n r hr.1
  rw [h] at hs
  unfold PR.read at h
  split at h
  · cases h; exact ⟨by simp, hr⟩
  · split at h
    · rename_i h0
      refine ⟨due_drain c fuel n r hr.1.1 o r' h, hs, fun hx => ?_⟩
      have := started_fill c fuel (n - r.remainder.length) (r.remainder.take n) [] { r with remainder := r.remainder.drop n } h0
      unfold PR.drain at h
      rw [h] at this
      rw [show r'.started = true from this] at hx; cases hx
    · rename_i h0
      have h0 : r.started = false := by simpa using h0
      have he := hr.1.2.2 h0
      split at h
      · refine ⟨due_drain c fuel n { r with started := true } hr.1.1 o r' h, hs, fun hx => ?_⟩
        have := started_fill c fuel (n - r.remainder.length) (r.remainder.take n) []
          { r with started := true, remainder := r.remainder.drop n } rfl
        unfold PR.drain at h
        rw [h] at this
        rw [show r'.started = true from this] at hx; cases hx
      · rename_i t ht
        obtain ⟨u, r1, h1, h⟩ := Go.bind_eq_ok h
        have h2 := due_realign t fuel r.st.size { r with started := true } hr.1.1 he (.inl (hr.2 h0)) (Nat.le_refl _) r1 h1
        have h3 := slim_realign t fuel { r with started := true } hr.1.1 he rfl
        rw [h1] at h3
        have h4 := due_drain c fuel n r1 h3.1.1 o r' h
        refine ⟨?_, hs, fun hx => ?_⟩
        · simp only [PR.due, he, List.length_nil] at h2 h4 ⊢
          omega
        · have := started_fill c fuel (n - r1.remainder.length) (r1.remainder.take n) []
            { r1 with remainder := r1.remainder.drop n } h3.2
          unfold PR.drain at h
          rw [h] at this
          rw [show r'.started = true from this] at hx; cases hx

theorem due_all (c : PRCfg) (fuel : Nat) : ∀ (ns : List Nat) (r : PR), Fresh r →
    ∀ outs r', PR.all c fuel ns r = (.ok outs, r') → 32 * bytesIn outs + r'.due ≤ r.due
  | [], r, hr, outs, r', h => by
    cases h; simp
  | n :: ns, r, hr, outs, r', h => by
    unfold PR.all at h
    obtain ⟨o, r1, h1, h⟩ := Go.bind_eq_ok h
    obtain ⟨os, r2, h2, h⟩ := Go.bind_eq_ok h
    cases h
    obtain ⟨h3, h4⟩ := due_read c fuel n r hr o r1 h1
    have := due_all c fuel ns r1 h4 os r' h2
    rw [bytesIn_cons]
    omega

/-! ### the payload unit reader -/

/-- The current packet of a unit reader that has started and waits for the next Read has not been stored. -/
def PU.due (r : PU) : Nat := 32 * r.buffer.length + 32 * r.st.pkt.payload.length + 184 * r.st.size

theorem due_seek (w : Tester) : ∀ (f : Nat) (r : PU), Fits r.st →
    ∀ o r', PU.seek w f r = (.ok o, r') → r'.due ≤ r.due ∧ Fits r'.st
  | 0, r, h1, o, r', h => by simp [PU.seek, Go.hang] at h
  | f + 1, r, h1, o, r', h => by
    unfold PU.seek at h
    split at h
    · cases h; exact ⟨Nat.le_refl _, h1⟩
    · have hk := fits_next r.st h1
      cases hx : Packet.next r.st with
      | mk x st =>
        obtain ⟨h5, h6⟩ := next_paid r.st x st hx
        rw [hx] at h hk
        have h7 : st.pkt.payload.length ≤ 184 := Fits.le hk
        have h8 : PU.due { r with st := st } ≤ r.due := by
          simp only [PU.due]
          rcases h6 with h6 | ⟨_, h6⟩
          · omega
          · rw [h6]; omega
        cases x with
        | panic => cases h
        | hang => cases h
        | err e => cases h; exact ⟨h8, hk⟩
        | ok u =>
          have := due_seek w f { r with st := st } hk o r' h
          exact ⟨Nat.le_trans this.1 h8, this.2⟩

theorem due_collect (w : Tester) : ∀ (f : Nat) (r : PU), Fits r.st →
    ∀ o r', PU.collect w f r = (.ok o, r') → Fits r'.st ∧ (o = none → r'.due ≤ r.due)
  | 0, r, h1, o, r', h => by simp [PU.collect, Go.hang] at h
  | f + 1, r, h1, o, r', h => by
    unfold PU.collect at h
    dsimp only at h
    have h9 : (if w r.st.pkt then { r with buffer := r.buffer ++ r.st.pkt.payload } else r).st = r.st := by split <;> rfl
    have h10 : (if w r.st.pkt then { r with buffer := r.buffer ++ r.st.pkt.payload } else r).buffer.length ≤
        r.buffer.length + r.st.pkt.payload.length := by
      split
      · simp
      · omega
    generalize (if w r.st.pkt then { r with buffer := r.buffer ++ r.st.pkt.payload } else r) = r0 at h h9 h10
    have hk := fits_next r.st h1
    rw [h9] at h
    cases hx : Packet.next r.st with
    | mk x st =>
      obtain ⟨h5, h6⟩ := next_paid r.st x st hx
      rw [hx] at h hk
      have h7 : st.pkt.payload.length ≤ 184 := Fits.le hk
      cases x with
      | panic => cases h
      | hang => cases h
      | err e => cases h; exact ⟨hk, by simp⟩
      | ok u =>
        have h6 : st.size + 32 ≤ r.st.size := by
          rcases h6 with h6 | ⟨h6, _⟩
          · exact h6
          · exact absurd rfl (h6 u)
        have h8 : PU.due { r0 with st := st } ≤ r.due := by
          simp only [PU.due]
          omega
        dsimp only at h
        split at h
        · cases h; exact ⟨hk, fun _ => h8⟩
        · have := due_collect w f { r0 with st := st } hk o r' h
          exact ⟨this.1, fun ho => Nat.le_trans (this.2 ho) h8⟩

theorem due_punit (w : Tester) (fuel : Nat) (r : PU) (h1 : Fits r.st) (o : Option Err) (r' : PU)
    (h : PU.fill w fuel r = (.ok o, r')) : Fits r'.st ∧ (o = none → r'.due ≤ r.due) := by
  unfold PU.fill at h
  split at h
  · exact due_collect w fuel r h1 o r' h
  · obtain ⟨e, r1, h2, h⟩ := Go.bind_eq_ok h
    obtain ⟨h3, h4⟩ := due_seek w fuel { r with started := true } h1 e r1 h2
    cases e with
    | some e => cases h; exact ⟨h4, by simp⟩
    | none =>
      have := due_collect w fuel r1 h4 o r' h
      exact ⟨this.1, fun ho => Nat.le_trans (this.2 ho) h3⟩

theorem due_give (n : Nat) (r : PU) (o : List UInt8 × Option Err) (r' : PU) (h : PU.give n r = (.ok o, r')) :
    32 * o.1.length + r'.due = r.due ∧ r'.st = r.st ∧ (o.2 = none ∨ o.2 = some .eop) := by
  unfold PU.give at h
  split at h
  · cases h
    refine ⟨?_, rfl, .inl rfl⟩
    simp only [PU.due, List.length_take, List.length_drop]
    omega
  · cases h
    refine ⟨?_, rfl, .inr rfl⟩
    simp only [PU.due, List.length_nil]
    omega

theorem mv_pufill (w : Tester) (f : Nat) : Go.Mv (fun r : PU => r.st.br) (PU.fill w f) := by
  intro r
  unfold PU.fill
  split
  · exact (pucollect w f r).1
  · rw [Go.bind_apply]
    have h0 := (puseek w f { r with started := true }).1
    cases hm : PU.seek w f { r with started := true } with
    | mk x r1 =>
      rw [hm] at h0
      cases x with
      | ok y =>
        cases y with
        | some z => exact h0
        | none => exact h0.trans (pucollect w f r1).1
      | err y => exact h0
      | panic => exact h0
      | hang => exact h0

theorem due_uread (w : Tester) (fuel n : Nat) (r : PU) (h1 : Fits r.st) (hb : .eop ∉ r.st.br.stops)
    (o : List UInt8 × Option Err) (r' : PU) (h : PU.read w fuel n r = (.ok o, r')) :
    Fits r'.st ∧ .eop ∉ r'.st.br.stops ∧ 32 * o.1.length ≤ r.due ∧
      (o.2 = none ∨ o.2 = some .eop → 32 * o.1.length + r'.due ≤ r.due) := by
  unfold PU.read at h
  split at h
  · obtain ⟨h2, h3, h4⟩ := due_give n r o r' h
    rw [h3]
    exact ⟨h1, hb, by omega, fun _ => by omega⟩
  · obtain ⟨e, r1, h2, h⟩ := Go.bind_eq_ok h
    obtain ⟨h3, h4⟩ := due_punit w fuel r h1 e r1 h2
    have hm := mv_pufill w fuel r
    rw [h2] at hm
    have hb' : .eop ∉ r1.st.br.stops := fun hx => hb (hm.stops _ hx)
    cases e with
    | some e =>
      have h5 := pufill w fuel r r1 e h2
      cases h
      refine ⟨h3, hb', by simp, fun he => ?_⟩
      have he : e = .eop := by simpa using he
      subst he
      rcases h5 with h5 | ⟨h5, _⟩
      · cases h5
      · rcases h5 with h5 | ⟨h5, _⟩
        · exact absurd h5 hb
        · cases h5
    | none =>
      obtain ⟨h5, h6, h7⟩ := due_give n { r1 with ready := true } o r' h
      have h4 := h4 rfl
      rw [h6]
      have : PU.due { r1 with ready := true } = r1.due := rfl
      exact ⟨h3, hb', by omega, fun _ => by omega⟩

theorem due_ureads (w : Tester) (fuel : Nat) : ∀ (ns : List Nat) (r : PU), Fits r.st → .eop ∉ r.st.br.stops →
    ∀ outs r', PU.reads w fuel ns r = (.ok outs, r') → 32 * bytesIn outs ≤ r.due
  | [], r, hr, hb, outs, r', h => by
    cases h; simp
  | n :: ns, r, hr, hb, outs, r', h => by
    unfold PU.reads at h
    obtain ⟨o, r1, h1, h⟩ := Go.bind_eq_ok h
    obtain ⟨h2, h3, h4, h5⟩ := due_uread w fuel n r hr hb o r1 h1
    split at h
    · rename_i ho
      obtain ⟨os, r2, h6, h⟩ := Go.bind_eq_ok h
      cases h
      have := due_ureads w fuel ns r1 h2 h3 os r' h6
      have := h5 ho
      rw [bytesIn_cons]
      omega
    · cases h
      rw [bytesIn_cons, bytesIn_nil]
      omega

end TS
end Mpeg
