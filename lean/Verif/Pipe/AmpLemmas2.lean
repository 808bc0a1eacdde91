/-
What a PES packet gives and what it costs: lemmas for `AmpProps`.
-/
import Verif.Pipe.AmpLemmas
import Verif.PS.DecoderLemmas
set_option linter.all false
namespace Mpeg
namespace PES

/-- `m` moves the source and leaves the payload alone. -/
def Kept {α : Type} (m : Go St α) : Prop := ∀ s, BR.Moves s.br (m s).2.br ∧ (m s).2.pkt.payload = s.pkt.payload

/-- The payload is what it was, or it has been read from the source, or `m` has failed at the end of a segment and the
payload has some length below 2^32. -/
def Gives {α : Type} (m : Go St α) : Prop := ∀ s r s', m s = (r, s') → BR.Moves s.br s'.br ∧
  (s'.pkt.payload = s.pkt.payload ∨ 8 * s'.pkt.payload.length + s'.size ≤ s.size ∨
    ((∀ a, r ≠ .ok a) ∧ s'.pkt.payload.length < 2 ^ 32 ∧ s.br.Left s'.br))

theorem Kept.bind {α β : Type} {m : Go St α} {f : α → Go St β} (hm : Kept m) (hf : ∀ a, Gives (f a)) : Gives (m >>= f) := by
  intro s r s' h
  rw [Go.bind_apply] at h
  obtain ⟨h1, h2⟩ := hm s
  cases hx : m s with
  | mk x s1 =>
    rw [hx] at h h1 h2
    cases x with
    | ok a =>
      obtain ⟨h3, h4⟩ := hf a s1 r s' h
      refine ⟨h1.trans h3, ?_⟩
      rcases h4 with h4 | h4 | ⟨h4, h5, h6⟩
      · exact .inl (h4.trans h2)
      · have : s1.size ≤ s.size := h1.size
        exact .inr (.inl (by omega))
      · exact .inr (.inr ⟨h4, h5, h6.of_moves h1⟩)
    | err e => cases h; exact ⟨h1, .inl h2⟩
    | panic => cases h; exact ⟨h1, .inl h2⟩
    | hang => cases h; exact ⟨h1, .inl h2⟩

theorem Kept.gives {α : Type} {m : Go St α} (hm : Kept m) : Gives m := by
  intro s r s' h
  obtain ⟨h1, h2⟩ := hm s
  rw [h] at h1 h2
  exact ⟨h1, .inl h2⟩

theorem kept_lift {α : Type} {m : Go BR α} (h : BR.Mv m) : Kept (St.lift m) := fun s => ⟨h s.br, rfl⟩
theorem kept_pure {α : Type} (a : α) : Kept (pure a : Go St α) := fun s => ⟨.refl, rfl⟩
theorem kept_readInto {α : Type} {m : Go BR α} {z : α} {set : α → Packet → Packet} (h : BR.Mv m)
    (hs : ∀ a p, (set a p).payload = p.payload) : Kept (readInto m z set) := by
  intro s
  have := h s.br
  unfold readInto
  cases hx : m s.br with
  | mk x b => rw [hx] at this; cases x <;> exact ⟨this, by first | exact hs _ _ | rfl⟩
theorem kept_headerInto : Kept headerInto := by
  intro s
  have := er_header.mv s.br
  unfold headerInto
  cases hx : readHeader s.br with
  | mk x b => rw [hx] at this; cases x <;> exact ⟨this, rfl⟩

theorem gives_bounded {n : Nat} (hn : n < 2 ^ 32) : Gives (boundedPayload n) := by
  intro s r s' h
  have hm := BR.mv_readFull n s.br
  unfold boundedPayload at h
  cases hx : BR.readFull n s.br with
  | mk x b =>
    rw [hx] at h hm
    cases x with
    | ok a =>
      obtain ⟨bs, e⟩ := a
      cases e with
      | none =>
        obtain ⟨h1, h2⟩ := BR.readFull_inv hx
        have h3 := took_size h1
        cases h
        refine ⟨hm, .inr (.inl ?_)⟩
        simp only [St.size, h2, Nat.sub_self, List.replicate_zero, List.append_nil]
        rw [length_bitsOfBytes] at h3
        omega
      | some e =>
        have h1 := (BR.readFull_err hx).2
        have h2 : bs.length ≤ n := by
          unfold BR.readFull at hx
          split at hx
          · cases hx
          · cases hx
            rw [length_bytesOfBits]
            omega
        cases h
        refine ⟨hm, .inr (.inr ⟨by simp, ?_, h1⟩)⟩
        simp only [List.length_append, List.length_replicate]
        omega
    | err e => cases h; exact ⟨hm, .inl rfl⟩
    | panic => cases h; exact ⟨hm, .inl rfl⟩
    | hang => cases h; exact ⟨hm, .inl rfl⟩

theorem gives_unbounded : Gives unboundedPayload := by
  intro s r s' h
  have hm : BR.Moves s.br s.br.failTo := .fail .refl
  have hs : 8 * (bytesOfBits (s.br.bits.length / 8) s.br.bits).length + s.br.failTo.size ≤ s.size := by
    rw [length_bytesOfBits]
    simp only [St.size, BR.size, BR.failTo]
    split <;> simp_all <;> omega
  have h2 : s'.br = s.br.failTo ∧ s'.pkt.payload = bytesOfBits (s.br.bits.length / 8) s.br.bits := by
    unfold unboundedPayload at h
    have hx : BR.readAll s.br = (.ok (bytesOfBits (s.br.bits.length / 8) s.br.bits,
      if s.br.stop = .eof then none else some s.br.stop), s.br.failTo) := rfl
    rw [hx] at h
    generalize (if s.br.stop = .eof then none else some s.br.stop) = e at h
    dsimp only at h
    split at h <;> (cases h; exact ⟨rfl, rfl⟩)
  refine ⟨h2.1 ▸ hm, .inr (.inl ?_)⟩
  simp only [St.size, h2.1, h2.2]
  exact hs

theorem gives_next : Gives Packet.next := by
  unfold Packet.next
  refine (kept_lift ?_).bind fun _ => ?_
  · unfold prefix24
    exact Go.Er.mv (F := P) (.bind (BR.er_peek _) fun _ => .bind .check fun _ => .ignoreErr (BR.er_skip _))
  · refine (kept_readInto (BR.er_read (F := P) _).mv (by intro a p; rfl)).bind fun id => ?_
    refine (kept_readInto (BR.er_read (F := P) _).mv (by intro a p; rfl)).bind fun len => ?_
    unfold Packet.body
    split
    · refine kept_headerInto.bind fun hlen => ?_
      split
      · exact gives_bounded (Nat.mod_lt _ (by decide))
      · exact gives_unbounded
    · split
      · exact ((kept_lift (er_readExact (F := P) _).mv).bind fun _ => (kept_pure _).gives)
      · exact (kept_pure _).gives

/-! ### the payload reader -/

/-- The invariant of the bound: nothing is kept that is longer than `M` bits, unless the source is at its end. -/
structure Low (N M : Nat) (p : Bool) (s : St) : Prop where
  size : s.size ≤ N
  pay : 8 * s.pkt.payload.length ≤ M ∨ s.size = 0
  plain : p = true → s.br.later = []

theorem low_next {N M : Nat} {p : Bool} (h1 : N ≤ M) (h2 : p = true ∨ 2 ^ 35 ≤ M) {s s' : St} {r : Res Unit}
    (h : Packet.next s = (r, s')) (hl : Low N M p s) : Low N M p s' := by
  obtain ⟨h3, h4⟩ := gives_next s r s' h
  have h5 : s'.size ≤ s.size := h3.size
  have h6 := h3.later
  have h7 := hl.size
  refine ⟨by omega, ?_, fun hp => ?_⟩
  · rcases h4 with h4 | h4 | ⟨_, h4, h8⟩
    · rw [h4]
      rcases hl.pay with h | h
      · exact .inl h
      · right; omega
    · left; omega
    · rcases h2 with h2 | h2
      · right
        have := hl.plain h2
        rcases h8 with h8 | ⟨h8, h9⟩
        · rw [this] at h8; simp at h8
        · simp [St.size, BR.size, h8, h9]
      · left; omega
  · rw [hl.plain hp] at h6
    exact List.eq_nil_of_length_eq_zero (by simpa using h6)

theorem low_ok {N M : Nat} {p : Bool} (h1 : N ≤ M) {s s' : St} {u : Unit}
    (h : Packet.next s = (.ok u, s')) (hl : Low N M p s) : 8 * s'.pkt.payload.length ≤ M := by
  obtain ⟨h3, h4⟩ := gives_next s _ s' h
  have h5 := next_dec h
  have h7 := hl.size
  rcases h4 with h4 | h4 | ⟨h4, _⟩
  · rw [h4]
    rcases hl.pay with h | h
    · exact h
    · omega
  · omega
  · exact absurd rfl (h4 u)

def PR.due (M : Nat) (r : PR) : Nat := 384 * r.remainder.length + M * r.st.size

theorem due_fill {N M : Nat} {p : Bool} (h1 : N ≤ M) (h2 : p = true ∨ 2 ^ 35 ≤ M) :
    ∀ (f n : Nat) (out rem : List UInt8) (r : PR), Low N M p r.st →
    ∀ o r', PR.fill f n out rem r = (.ok o, r') →
      384 * o.1.length + r'.due M ≤ 384 * out.length + 384 * rem.length + r.due M ∧ Low N M p r'.st
  | 0, n, out, rem, r, hl, o, r', h => by simp [PR.fill, Go.hang] at h
  | f + 1, n, out, rem, r, hl, o, r', h => by
    unfold PR.fill at h
    by_cases hn : n = 0
    · rw [if_pos hn] at h
      cases h
      refine ⟨?_, hl⟩
      simp only [PR.due, List.length_append]
      omega
    · rw [if_neg hn] at h
      cases hx : Packet.next r.st with
      | mk x st =>
        have hk := low_next h1 h2 hx hl
        have h3 : st.size ≤ r.st.size := (gives_next _ _ _ hx).1.size
        have h4 := Nat.mul_le_mul_left M h3
        rw [hx] at h
        cases x with
        | panic => cases h
        | hang => cases h
        | err e =>
          cases h
          refine ⟨?_, hk⟩
          simp only [PR.due]
          omega
        | ok u =>
          have h5 := low_ok h1 hx hl
          have h6 := Nat.mul_le_mul_left M (next_dec hx)
          rw [Nat.mul_add] at h6
          obtain ⟨h7, h8⟩ := due_fill h1 h2 f _ _ _ { r with st := st } hk o r' h
          refine ⟨?_, h8⟩
          simp only [PR.due, List.length_append, List.length_take, List.length_drop] at h7 ⊢
          omega

theorem due_all {N M : Nat} {p : Bool} (h1 : N ≤ M) (h2 : p = true ∨ 2 ^ 35 ≤ M) (fuel : Nat) :
    ∀ (ns : List Nat) (r : PR), Low N M p r.st →
    ∀ outs r', PR.all fuel ns r = (.ok outs, r') → 384 * bytesIn outs + r'.due M ≤ r.due M
  | [], r, hr, outs, r', h => by
    cases h; simp
  | n :: ns, r, hr, outs, r', h => by
    unfold PR.all at h
    obtain ⟨o, r1, h3, h⟩ := Go.bind_eq_ok h
    obtain ⟨os, r2, h4, h⟩ := Go.bind_eq_ok h
    cases h
    unfold PR.read at h3
    obtain ⟨h5, h6⟩ := due_fill h1 h2 _ _ _ _ { r with remainder := r.remainder.drop n } hr o r1 h3
    have := due_all h1 h2 fuel ns r1 h6 os r' h4
    simp only [PR.due, List.length_take, List.length_drop, List.length_nil] at h5 this ⊢
    rw [bytesIn_cons]
    omega

end PES

namespace PS

/-- The bytes that the results of a program stream reader contain (the bytes stored, whatever count is reported). -/
def stored (outs : List RR) : Nat := (outs.map fun o => o.stored.length).sum

theorem newPacket_pays {b b' : BR} {p : PES.Packet} (h : newPacket b = (.ok p, b')) : 8 * p.payload.length + b'.size ≤ b.size := by
  unfold newPacket at h
  cases hx : PES.Packet.next ⟨{}, b⟩ with
  | mk x t =>
    obtain ⟨h1, h2⟩ := PES.gives_next _ _ _ hx
    rw [hx] at h
    cases x with
    | ok u =>
      cases h
      have h3 : t.br.size ≤ b.size := h1.size
      rcases h2 with h2 | h2 | ⟨h2, _⟩
      · rw [h2]; simpa using h3
      · exact h2
      · exact absurd rfl (h2 u)
    | _ => cases h

def PackReader.due (r : PackReader) : Nat := 8 * r.remainder.length + r.br.size

theorem due_more (again : Nat → List UInt8 → Go PackReader RR)
    (ha : ∀ k out r o r', again k out r = (.ok o, r') → 8 * o.stored.length + r'.due ≤ 8 * out.length + r.due)
    (k : Nat) (out : List UInt8) (r : PackReader) (o : RR) (r' : PackReader) (h : PackReader.more again k out r = (.ok o, r')) :
    8 * o.stored.length + r'.due ≤ 8 * out.length + r.due := by
  unfold PackReader.more at h
  have hn := noninc_newPacket r.br
  split at h
  · rename_i p b hp
    have h1 := newPacket_pays hp
    split at h
    · cases h
      simp only [PackReader.due, List.length_append, List.length_take, List.length_drop]
      omega
    · have := ha _ _ _ _ _ h
      simp only [PackReader.due, List.length_append] at this ⊢
      omega
  · rename_i e b hp
    rw [hp] at hn
    cases h
    simp only [PackReader.due] at hn ⊢
    omega
  · cases h
  · cases h

theorem due_step : ∀ (f k : Nat) (out : List UInt8) (r : PackReader) (o : RR) (r' : PackReader),
    PackReader.step f k out r = (.ok o, r') → 8 * o.stored.length + r'.due ≤ 8 * out.length + r.due
  | 0, _, _, r, o, r', h => by simp [PackReader.step, Go.hang] at h
  | f + 1, k, out, r, o, r', h => by
    unfold PackReader.step at h
    have h0 := BR.noninc_peek 32 r.br
    split at h
    · rename_i v b hp
      rw [hp] at h0
      dsimp only at h0
      split at h
      · have := BR.noninc_skip 32 b
        cases h
        simp only [PackReader.due]
        omega
      · split at h
        · have h1 := noninc_newPackHeader b
          split at h
          · rename_i hh b' hb
            rw [hb] at h1
            have := due_more _ (due_step f) _ _ _ _ _ h
            simp only [PackReader.due] at this h1 ⊢
            omega
          · rename_i hh b' hb
            rw [hb] at h1
            cases h
            simp only [PackReader.due] at h1 ⊢
            omega
          · cases h
          · cases h
        · have := due_more _ (due_step f) _ _ _ _ _ h
          simp only [PackReader.due] at this ⊢
          omega
    · rename_i e b hp
      rw [hp] at h0
      cases h
      simp only [PackReader.due] at h0 ⊢
      omega
    · cases h
    · cases h

theorem due_read (n : Nat) (r : PackReader) (o : RR) (r' : PackReader) (h : PackReader.read n r = (.ok o, r')) :
    8 * o.stored.length + r'.due ≤ r.due := by
  unfold PackReader.read at h
  split at h
  · cases h
    simp only [PackReader.due, List.length_take, List.length_drop]
    omega
  · have := due_step _ _ _ _ _ _ h
    simp only [PackReader.due, List.length_nil] at this ⊢
    omega

theorem due_all : ∀ (ns : List Nat) (r : PackReader) (outs : List RR) (r' : PackReader),
    PackReader.all ns r = (.ok outs, r') → 8 * stored outs + r'.due ≤ r.due
  | [], r, outs, r', h => by cases h; simp [stored]
  | n :: ns, r, outs, r', h => by
    unfold PackReader.all at h
    obtain ⟨o, r1, h1, h⟩ := Go.bind_eq_ok h
    obtain ⟨os, r2, h2, h⟩ := Go.bind_eq_ok h
    cases h
    have h3 := due_read n r o r1 h1
    have := due_all ns r1 os r' h2
    simp only [stored, List.map_cons, List.sum_cons] at this ⊢
    omega

end PS
end Mpeg
