/-
C122: calling again after an error.
-/
import Verif.Pipe.AllocProps
import Verif.TS.NoiseProps
import Verif.TS.ConserveProps
import Verif.PES.TruncProps
set_option linter.all false
namespace Mpeg

/-- What is left of the input: bits, and segments behind the current one. -/
def BR.todo (s : BR) : Nat := s.bits.length + (s.later.map fun x => x.1.length).sum + s.later.length

namespace BR
theorem todo_adv (s : BR) (k : Nat) (hk : k ≤ s.bits.length) : (s.adv k).todo + k = s.todo := by
  simp only [todo, adv, List.length_drop]; omega
theorem todo_failTo (s : BR) : s.failTo.todo < s.todo ∨ s.todo = 0 := by
  unfold failTo
  cases hl : s.later with
  | nil => simp only [todo, hl, List.length_nil, List.map_nil, List.sum_nil]; omega
  | cons x l => simp only [todo, hl, List.length_cons, List.map_cons, List.sum_cons]; omega
theorem Moves.todo {a b : BR} (h : Moves a b) : b.todo ≤ a.todo := by
  induction h with
  | refl => exact Nat.le_refl _
  | @adv b k _ ih =>
    refine Nat.le_trans ?_ ih
    simp only [BR.todo, BR.adv, List.length_drop]; omega
  | @fail b _ ih =>
    refine Nat.le_trans ?_ ih
    unfold BR.failTo
    cases hl : b.later with
    | nil => simp only [BR.todo, hl, List.length_nil, List.map_nil, List.sum_nil]; omega
    | cons x l => simp only [BR.todo, hl, List.length_cons, List.map_cons, List.sum_cons]; omega
end BR

/-- `m` moves over the input, and if it reports an error, it has consumed something, or the input was at its end, or the
error is one of `X` and nothing was consumed. -/
def Prog {σ α : Type} (X : Err → Prop) (gt : σ → BR) (m : Go σ α) : Prop :=
  Go.Mv gt m ∧ ∀ s e, (m s).1 = .err e →
    (gt (m s).2).todo < (gt s).todo ∨ (gt s).todo = 0 ∨ (X e ∧ (gt (m s).2).todo = (gt s).todo)

/-- Whatever the result of `m` other than an error: something was consumed, or the input was at its end. -/
def Takes {σ α : Type} (gt : σ → BR) (m : Go σ α) : Prop :=
  ∀ s v, (m s).1 = .ok v → (gt (m s).2).todo < (gt s).todo ∨ (gt s).todo = 0

section
variable {σ α β : Type} {gt : σ → BR} {X : Err → Prop}

theorem Prog.pure (a : α) : Prog X gt (Pure.pure a : Go σ α) := ⟨.pure a, fun s e h => by cases h⟩
theorem Prog.panic : Prog X gt (Go.panic : Go σ α) := ⟨.panic, fun s e h => by cases h⟩
theorem Prog.hang : Prog X gt (Go.hang : Go σ α) := ⟨.hang, fun s e h => by cases h⟩
theorem Prog.get : Prog X gt (Go.get : Go σ σ) := ⟨.get, fun s e h => by cases h⟩
theorem Prog.modify {f : σ → σ} (h : ∀ s, gt (f s) = gt s) : Prog X gt (Go.modify f) := ⟨.modify h, fun s e h => by cases h⟩
theorem Prog.check {c : Bool} {x : Err} (hx : X x) : Prog X gt (Go.check c x : Go σ Unit) := by
  refine ⟨.check, fun s e h => ?_⟩
  cases c
  · cases h
    exact .inr (.inr ⟨hx, rfl⟩)
  · cases h
theorem Prog.bind {m : Go σ α} {f : α → Go σ β} (hm : Prog X gt m) (hf : ∀ a, Prog X gt (f a)) : Prog X gt (m >>= f) := by
  refine ⟨.bind hm.1 fun a => (hf a).1, ?_⟩
  intro s e
  have h1 := (hm.1 s).todo
  have h2 := hm.2 s e
  rw [Go.bind_apply]
  cases h : m s with
  | mk r s' =>
    rw [h] at h1 h2
    cases r with
    | ok a =>
      intro he
      have h3 := (hf a).2 s' e he
      have h4 := ((hf a).1 s').todo
      have h1 : (gt s').todo ≤ (gt s).todo := h1
      show (gt (f a s').2).todo < _ ∨ _ ∨ (_ ∧ (gt (f a s').2).todo = _)
      rcases h3 with h3 | h3 | ⟨hx, h3⟩
      · exact .inl (by omega)
      · by_cases h0 : (gt s).todo = 0
        · exact .inr (.inl h0)
        · exact .inl (by omega)
      · by_cases h0 : (gt s').todo = (gt s).todo
        · exact .inr (.inr ⟨hx, by omega⟩)
        · exact .inl (by omega)
    | err x => intro he; cases he; exact h2 rfl
    | panic => intro he; cases he
    | hang => intro he; cases he
/-- once something has been consumed, any error is progress -/
theorem Prog.eat {m : Go σ α} {f : α → Go σ β} (hm : Prog X gt m) (he : Takes gt m) (hf : ∀ a, Go.Mv gt (f a)) :
    Prog X gt (m >>= f) := by
  refine ⟨.bind hm.1 hf, ?_⟩
  intro s e
  have h1 := he s
  have h2 := hm.2 s e
  rw [Go.bind_apply]
  cases h : m s with
  | mk r s' =>
    rw [h] at h1 h2
    cases r with
    | ok a =>
      intro _
      have h3 := h1 a rfl
      have h4 := (hf a s').todo
      show (gt (f a s').2).todo < _ ∨ _ ∨ (_ ∧ (gt (f a s').2).todo = _)
      rcases h3 with h3 | h3
      · have h3 : (gt s').todo < (gt s).todo := h3
        exact .inl (by omega)
      · exact .inr (.inl h3)
    | err x => intro he; cases he; exact h2 rfl
    | panic => intro he; cases he
    | hang => intro he; cases he
theorem Prog.map {m : Go σ α} (f : α → β) (hm : Prog X gt m) : Prog X gt (f <$> m) := by
  rw [map_eq_pure_bind]; exact .bind hm fun _ => .pure _
theorem Prog.opt {c : Bool} {d : α} {m : Go σ α} (hm : Prog X gt m) : Prog X gt (Go.opt c d m) := by
  cases c
  · exact .pure _
  · exact hm
theorem Prog.ite {c : Prop} [Decidable c] {m m' : Go σ α} (hm : Prog X gt m) (hm' : Prog X gt m') :
    Prog X gt (if c then m else m') := by split <;> assumption
theorem Prog.ignoreErr {m : Go σ α} (hm : Go.Mv gt m) : Prog X gt (Go.ignoreErr m) := by
  refine ⟨.ignoreErr hm, fun s e h => ?_⟩
  unfold Go.ignoreErr at h
  cases hx : m s with
  | mk r s' => rw [hx] at h; cases r <;> cases h
theorem Prog.mono {Y : Err → Prop} {m : Go σ α} (h : ∀ e, X e → Y e) (hm : Prog X gt m) : Prog Y gt m :=
  ⟨hm.1, fun s e he => by
    rcases hm.2 s e he with h1 | h1 | ⟨h1, h2⟩
    · exact .inl h1
    · exact .inr (.inl h1)
    · exact .inr (.inr ⟨h e h1, h2⟩)⟩

theorem Takes.left {m : Go σ α} {f : α → Go σ β} (hm : Takes gt m) (hf : ∀ a, Go.Mv gt (f a)) : Takes gt (m >>= f) := by
  intro s v
  have h1 := hm s
  rw [Go.bind_apply]
  cases h : m s with
  | mk r s' =>
    rw [h] at h1
    cases r with
    | ok a =>
      intro _
      have h4 := (hf a s').todo
      show (gt (f a s').2).todo < _ ∨ _
      rcases h1 a rfl with h3 | h3
      · have h3 : (gt s').todo < (gt s).todo := h3
        exact .inl (by omega)
      · exact .inr h3
    | err x => intro he; cases he
    | panic => intro he; cases he
    | hang => intro he; cases he
theorem Takes.right {m : Go σ α} {f : α → Go σ β} (hm : Go.Mv gt m) (hf : ∀ a, Takes gt (f a)) (hg : ∀ a, Go.Mv gt (f a)) :
    Takes gt (m >>= f) := by
  intro s v
  have h1 := (hm s).todo
  rw [Go.bind_apply]
  cases h : m s with
  | mk r s' =>
    rw [h] at h1
    have h1 : (gt s').todo ≤ (gt s).todo := h1
    cases r with
    | ok a =>
      intro hv
      show (gt (f a s').2).todo < _ ∨ _
      rcases hf a s' v hv with h3 | h3
      · exact .inl (by omega)
      · by_cases h0 : (gt s).todo = 0
        · exact .inr h0
        · refine .inl ?_
          have := (hg a s').todo
          omega
    | err x => intro he; cases he
    | panic => intro he; cases he
    | hang => intro he; cases he
end

namespace BR
variable {X : Err → Prop}
theorem prog_read (k : Nat) : Prog X (fun s : BR => s) (read k) := by
  refine ⟨mv_read k, fun s e h => ?_⟩
  unfold read at h ⊢
  split at h
  · cases h
  · rename_i hk
    rw [if_neg hk]
    rcases todo_failTo s with h | h
    · exact .inl h
    · exact .inr (.inl h)
theorem prog_peek (k : Nat) : Prog X (fun s : BR => s) (peek k) := by
  refine ⟨mv_peek k, fun s e h => ?_⟩
  unfold peek at h ⊢
  split at h
  · cases h
  · rename_i hk
    rw [if_neg hk]
    rcases todo_failTo s with h | h
    · exact .inl h
    · exact .inr (.inl h)
theorem prog_skip (k : Nat) : Prog X (fun s : BR => s) (skip k) := by
  refine ⟨mv_skip k, fun s e h => ?_⟩
  unfold skip at h ⊢
  split at h
  · cases h
  · rename_i hk
    rw [if_neg hk]
    rcases todo_failTo s with h | h
    · exact .inl h
    · exact .inr (.inl h)
theorem prog_align : Prog X (fun s : BR => s) align := ⟨mv_align, fun s e h => by cases h⟩
theorem eats_read {k : Nat} (hk : 0 < k) : Takes (fun s : BR => s) (read k) := by
  intro s v h
  unfold read at h ⊢
  split at h
  · rename_i hl
    rw [if_pos hl]
    have := todo_adv s k hl
    exact .inl (by show (s.adv k).todo < s.todo; omega)
  · cases h
theorem eats_skip {k : Nat} (hk : 0 < k) : Takes (fun s : BR => s) (skip k) := by
  intro s v h
  unfold skip at h ⊢
  split at h
  · rename_i hl
    rw [if_pos hl]
    have := todo_adv s k hl
    exact .inl (by show (s.adv k).todo < s.todo; omega)
  · cases h
/-- also if the error is dropped -/
theorem eats_ignoreSkip {k : Nat} (hk : 0 < k) : Takes (fun s : BR => s) (Go.ignoreErr (skip k)) := by
  intro s v h
  unfold Go.ignoreErr
  cases hx : skip k s with
  | mk r s' =>
    cases r with
    | ok x => have := eats_skip hk s x (by rw [hx]); rw [hx] at this; exact this
    | err e =>
      have : s' = s.failTo := by
        unfold skip at hx; split at hx
        · cases hx
        · cases hx; rfl
      subst this
      exact todo_failTo s
    | panic => unfold Go.ignoreErr at h; rw [hx] at h; cases h
    | hang => unfold Go.ignoreErr at h; rw [hx] at h; cases h
theorem prog_codeAssert {k v : Nat} {x : Err} (hx : X x) : Prog X (fun s : BR => s) (codeAssert k v x) := by
  unfold codeAssert codeCheck
  exact .bind (.bind (prog_peek _) fun _ => .pure _) fun _ => .bind (.check hx) fun _ => prog_skip _
theorem eats_codeAssert {k v : Nat} {x : Err} (hk : 0 < k) : Takes (fun s : BR => s) (codeAssert k v x) := by
  unfold codeAssert codeCheck
  exact .right (.bind (mv_peek _) fun _ => .pure _) (fun _ => .right .check (fun _ => eats_skip hk) fun _ => mv_skip _)
    fun _ => .bind .check fun _ => mv_skip _
end BR

/-! ### transport packets -/

namespace TS
open BR
theorem prog_realignLoop : ∀ n, 0 < n → Prog (fun _ => False) (fun s : BR => s) (realignLoop n)
  | n + 1, _ => .bind (prog_peek _) fun _ => .ite (.pure _) (.eat (prog_skip _) (eats_skip (by decide)) fun _ => mv_realignLoop n)
theorem prog_sync : Prog (fun _ => False) (fun s : BR => s) sync := by
  refine .bind ⟨?_, ?_⟩ fun a => .bind (.opt ⟨?_, ?_⟩) fun _ => prog_skip _
  · intro s
    unfold isAligned
    split
    · exact .refl
    · exact (Go.Mv.bind (mv_peek 8) fun _ => .pure _ : BR.Mv _) s
  · intro s e h
    unfold isAligned at h ⊢
    split at h
    · cases h
    · rename_i hs
      rw [if_neg hs]
      exact (Prog.bind (prog_peek 8) fun _ => .pure _ : Prog (fun _ => False) (fun s : BR => s) _).2 s e h
  · intro s
    unfold realign
    split
    · exact (Go.Mv.bind mv_align fun _ => mv_realignLoop 188 : BR.Mv _) s
    · exact mv_realignLoop 188 s
  · intro s e h
    unfold realign at h ⊢
    split at h
    · rename_i hs
      rw [if_pos hs]
      exact (Prog.bind prog_align fun _ => prog_realignLoop 188 (by decide) : Prog (fun _ => False) (fun s : BR => s) _).2 s e h
    · rename_i hs
      rw [if_neg hs]
      exact (prog_realignLoop 188 (by decide)).2 s e h

theorem mv_newTransportPrivateData : BR.Mv newTransportPrivateData :=
  .bind (mv_read _) fun _ => .bind (.opt (mv_readFullUE _)) fun _ => .pure _
theorem mv_newAdaptationField : BR.Mv newAdaptationField :=
  .bind (mv_read _) fun _ => .bind (mv_afFlags _) fun _ => .bind (.opt mv_readPcr) fun _ => .bind (.opt mv_readPcr) fun _ =>
    .bind (.opt (mv_read _)) fun _ => .bind (.opt (.map _ mv_newTransportPrivateData)) fun _ =>
    .bind (.opt (.map _ mv_newAdaptationExt)) fun _ => .bind (.opt (mv_readFullUE _)) fun _ => .pure _
theorem mv_readAdaptation : Go.Mv St.br readAdaptation := by
  intro s
  have := mv_newAdaptationField s.br
  unfold readAdaptation
  cases hx : newAdaptationField s.br with
  | mk r b => rw [hx] at this; cases r <;> exact this
theorem mv_afterSync : Go.Mv St.br afterSync :=
  .bind (mv_readInto mv_read1) fun _ => .bind (mv_readInto mv_read1) fun _ => .bind (mv_readInto mv_read1) fun _ =>
    .bind (mv_readInto (mv_read _)) fun _ => .bind (mv_readInto (mv_read _)) fun _ => .bind (mv_stlift (mv_read _)) fun _ =>
    .bind (.modify fun _ => rfl) fun _ => .bind (mv_readInto (mv_read _)) fun _ =>
    .bind (.opt (.bind mv_readAdaptation fun _ => .pure _)) fun _ => .opt (mv_readPayload _)

/-- neither a panic nor an endless loop -/
def Tame {α : Type} (m : Go BR α) : Prop := ∀ s, (∃ u, (m s).1 = .ok u) ∨ ∃ e, (m s).1 = .err e
namespace Tame
theorem pure {α : Type} (a : α) : Tame (Pure.pure a : Go BR α) := fun _ => .inl ⟨a, rfl⟩
theorem bind {α β : Type} {m : Go BR α} {f : α → Go BR β} (hm : Tame m) (hf : ∀ a, Tame (f a)) : Tame (m >>= f) := by
  intro s
  have h := hm s
  rw [Go.bind_apply]
  cases hx : m s with
  | mk r s' =>
    rw [hx] at h
    cases r with
    | ok u => exact hf u s'
    | err e => exact .inr ⟨e, rfl⟩
    | panic => rcases h with ⟨_, h⟩ | ⟨_, h⟩ <;> cases h
    | hang => rcases h with ⟨_, h⟩ | ⟨_, h⟩ <;> cases h
theorem peek (k : Nat) : Tame (BR.peek k) := fun s => by
  unfold BR.peek; split
  · exact .inl ⟨_, rfl⟩
  · exact .inr ⟨_, rfl⟩
theorem skip (k : Nat) : Tame (BR.skip k) := fun s => by
  unfold BR.skip; split
  · exact .inl ⟨_, rfl⟩
  · exact .inr ⟨_, rfl⟩
theorem align : Tame BR.align := fun s => .inl ⟨_, rfl⟩
theorem ite {α : Type} {c : Prop} [Decidable c] {m m' : Go BR α} (h : Tame m) (h' : Tame m') : Tame (if c then m else m') := by
  split <;> assumption
end Tame
theorem tame_realignLoop : ∀ n, Tame (realignLoop n)
  | 0 => fun _ => .inr ⟨_, rfl⟩
  | n + 1 => .bind (.peek _) fun _ => .ite (.pure _) (.bind (.skip _) fun _ => tame_realignLoop n)
theorem sync_plain : Tame sync := by
  refine .bind ?_ fun a => .bind ?_ fun _ => .skip _
  · intro s
    unfold isAligned
    split
    · exact .inl ⟨_, rfl⟩
    · exact Tame.bind (.peek 8) (fun _ => .pure _) s
  · cases a
    · intro s
      show (∃ u, (realign s).1 = .ok u) ∨ ∃ e, (realign s).1 = .err e
      unfold realign
      split
      · exact Tame.bind .align (fun _ => tame_realignLoop 188) s
      · exact tame_realignLoop 188 s
    · exact .pure _

/-- **C122**, transport packets.  Every call of `Next`, whatever its result, consumes some of the input, or the input was at
its end. -/
theorem C122_progress (s : St) : (Packet.next s).2.br.todo < s.br.todo ∨ s.br.todo = 0 := by
  rw [next_eq, Go.bind_apply]
  have hp := prog_sync.2 s.br
  have he : Takes (fun s : BR => s) sync := by
    unfold sync
    refine .right ?_ (fun _ => .right ?_ (fun _ => eats_skip (by decide)) fun _ => mv_skip _) fun _ => ?_
    · have := prog_sync.1
      intro s
      unfold isAligned
      split
      · exact .refl
      · exact (Go.Mv.bind (mv_peek 8) fun _ => .pure _ : BR.Mv _) s
    · refine .opt fun s => ?_
      unfold realign
      split
      · exact (Go.Mv.bind mv_align fun _ => mv_realignLoop 188 : BR.Mv _) s
      · exact mv_realignLoop 188 s
    · refine .bind (.opt fun s => ?_) fun _ => mv_skip _
      unfold realign
      split
      · exact (Go.Mv.bind mv_align fun _ => mv_realignLoop 188 : BR.Mv _) s
      · exact mv_realignLoop 188 s
  have hx := sync_plain s.br
  unfold St.lift
  cases hs : sync s.br with
  | mk r b =>
    rw [hs] at hp hx
    dsimp only
    cases r with
    | ok u =>
      have h1 := he s.br u (by rw [hs])
      rw [hs] at h1
      have h2 := (mv_afterSync ⟨s.pkt, b⟩).todo
      have h2 : (afterSync ⟨s.pkt, b⟩).2.br.todo ≤ b.todo := h2
      show (afterSync ⟨s.pkt, b⟩).2.br.todo < _ ∨ _
      rcases h1 with h1 | h1
      · have h1 : b.todo < s.br.todo := h1
        exact .inl (by omega)
      · exact .inr h1
    | err e =>
      rcases hp e rfl with h | h | ⟨h, _⟩
      · exact .inl h
      · exact .inr h
      · exact h.elim
    | panic => rcases hx with ⟨_, h⟩ | ⟨_, h⟩ <;> cases h
    | hang => rcases hx with ⟨_, h⟩ | ⟨_, h⟩ <;> cases h

/-- The state after `n` calls of `Next`, whatever their results. -/
def again : Nat → St → St
  | 0, s => s
  | n + 1, s => again n (Packet.next s).2

/-- So a caller that calls again after every error is at the end of the input after finitely many calls. -/
theorem C122_retry : ∀ (n : Nat) (s : St), s.br.todo ≤ n → (again n s).br.todo = 0
  | 0, s, h => by show s.br.todo = 0; omega
  | n + 1, s, h => by
    have h1 := C122_progress s
    refine C122_retry n (Packet.next s).2 ?_
    rcases h1 with h1 | h1
    · omega
    · have : (Packet.next s).2.br.todo ≤ s.br.todo := by
        rw [next_eq]
        exact (Go.Mv.bind (mv_stlift prog_sync.1) fun _ => mv_afterSync : Go.Mv St.br _) s |>.todo
      omega

/-- the results of `n` calls -/
def results : Nat → St → List (Res Unit)
  | 0, _ => []
  | n + 1, s => (Packet.next s).1 :: results n (Packet.next s).2

/-- Packets with noise in front of each. -/
def noisyAll : List (List UInt8 × Spec.Pkt) → List Bool
  | [] => []
  | (g, p) :: l => bitsOfBytes g ++ (Spec.encPkt p ++ noisyAll l)

/-- **C122**, noise of any length.  Each full 188 bytes of noise cost one `ErrNoSyncByte`, and no packet is lost. -/
theorem C122_noise (later : List (List Bool × Err)) (stop : Err) : ∀ (l : List (List UInt8 × Spec.Pkt)) (p0 : Packet) (pos : Nat), pos % 8 = 0 →
    (∀ x ∈ l, (∀ b ∈ x.1, b ≠ 0x47) ∧ x.2.WF ∧ x.2.body.Plain) →
    results ((l.map fun x => x.1.length / 188 + 1).sum) ⟨p0, ⟨noisyAll l, pos, stop, later⟩⟩ =
      (l.map fun x => List.replicate (x.1.length / 188) (Res.err .noSyncByte) ++ [Res.ok ()]).flatten
  | [], _, _, _, _ => rfl
  | (g, p) :: l, p0, pos, hpos, h => by
    obtain ⟨hg, hw, hp⟩ := h (g, p) (.head _)
    have ih := C122_noise later stop l
    have hl : ∀ x ∈ l, (∀ b ∈ x.1, b ≠ 0x47) ∧ x.2.WF ∧ x.2.body.Plain := fun x hx => h x (.tail _ hx)
    have key : ∀ (k : Nat) (g : List UInt8) (p0 : Packet) (pos : Nat), pos % 8 = 0 → (∀ b ∈ g, b ≠ 0x47) → g.length / 188 = k →
        results (k + 1 + (l.map fun x => x.1.length / 188 + 1).sum) ⟨p0, ⟨bitsOfBytes g ++ (Spec.encPkt p ++ noisyAll l), pos, stop, later⟩⟩ =
          List.replicate k (Res.err .noSyncByte) ++ (Res.ok () ::
            (l.map fun x => List.replicate (x.1.length / 188) (Res.err .noSyncByte) ++ [Res.ok ()]).flatten) := by
      intro k
      induction k with
      | zero =>
        intro g p0 pos hpos hg hk
        obtain ⟨q, hq, _, _⟩ := C03_resync (r := noisyAll l) (pos := pos) (stop := stop) (later := later) p0 p hw hp []
          (by simp [hpos]) g hg (by omega)
        rw [List.nil_append] at hq
        have e : 0 + 1 + (l.map fun x => x.1.length / 188 + 1).sum = (l.map fun x => x.1.length / 188 + 1).sum + 1 := by omega
        rw [e]
        show (Packet.next _).1 :: results _ (Packet.next _).2 = _
        rw [hq, List.replicate_zero, List.nil_append]
        congr 1
        exact ih q _ (by simp only [List.length_nil]; omega) hl
      | succ k ihk =>
        intro g p0 pos hpos hg hk
        have e1 : bitsOfBytes g = bitsOfBytes (g.take 188) ++ bitsOfBytes (g.drop 188) := by
          rw [← bitsOfBytes_append, List.take_append_drop]
        have hq := C03_no_sync (r := bitsOfBytes (g.drop 188) ++ (Spec.encPkt p ++ noisyAll l)) (pos := pos) (stop := stop)
          (later := later) p0 [] (by simp [hpos]) (g.take 188) (fun b hb => hg b (List.mem_of_mem_take hb))
          (by rw [List.length_take]; omega)
        rw [List.nil_append] at hq
        have e : k + 1 + 1 + (l.map fun x => x.1.length / 188 + 1).sum = (k + 1 + (l.map fun x => x.1.length / 188 + 1).sum) + 1 := by omega
        rw [e, e1, List.append_assoc]
        show (Packet.next _).1 :: results _ (Packet.next _).2 = _
        rw [hq, List.replicate_succ, List.cons_append]
        congr 1
        exact ihk (g.drop 188) p0 _ (by simp only [List.length_nil]; omega) (fun b hb => hg b (List.mem_of_mem_drop hb))
          (by rw [List.length_drop]; omega)
    have := key (g.length / 188) g p0 pos hpos hg rfl
    simp only [List.map_cons, List.sum_cons, List.flatten_cons, List.append_assoc, List.singleton_append]
    exact this

/-- the packets after the successful ones of `n` calls -/
def accepted : Nat → St → List Packet
  | 0, _ => []
  | n + 1, s => (if (Packet.next s).1 = .ok () then [(Packet.next s).2.pkt] else []) ++ accepted n (Packet.next s).2

theorem next_noise_at (p0 : Packet) (p : Spec.Pkt) (hw : p.WF) (hp : p.body.Plain) (g : List UInt8) (hg : ∀ b ∈ g, b ≠ 0x47)
    (hn : g.length ≤ 187) (r : List Bool) (pos : Nat) (hpos : pos % 8 = 0) (stop : Err) (later : List (List Bool × Err)) :
    Packet.next ⟨p0, ⟨bitsOfBytes g ++ (Spec.encPkt p ++ r), pos, stop, later⟩⟩ =
      (.ok (), ⟨result p0 p.hdr p.body, ⟨r, pos + 8 * g.length + 188 * 8, stop, later⟩⟩) := by
  have hg' : ∀ b ∈ g, b.toNat ≠ 0x47 := by
    intro b hb he
    exact hg b hb (UInt8.toNat_inj.mp (by rw [he]; rfl))
  have e : Spec.encPkt p ++ r = bitsOf 8 0x47 ++ (hdrTail p.hdr p.body.afc ++ (Spec.encBody p.body ++ r)) := by
    simp [Spec.encPkt, Spec.encHdr, hdrTail]
  rw [next_eq, e]
  have hs := sync_garbage (r := hdrTail p.hdr p.body.afc ++ (Spec.encBody p.body ++ r)) (pos := pos) (stop := stop) (later := later)
    [] (by simp [hpos]) g hg' hn
  simp only [List.nil_append, List.length_nil, Nat.add_zero] at hs
  simp only [Go.bind_apply, St.lift, hs, afterSync_enc p0 p.hdr p.body hw.1 hw.2 hp]

/-- the values of one `Packet` that all packets are read into -/
def chain : Packet → List Spec.Pkt → List Packet
  | _, [] => []
  | p0, p :: l => result p0 p.hdr p.body :: chain (result p0 p.hdr p.body) l

theorem accepted_noise (later : List (List Bool × Err)) (stop : Err) : ∀ (l : List (List UInt8 × Spec.Pkt)) (p0 : Packet) (pos : Nat), pos % 8 = 0 →
    (∀ x ∈ l, (∀ b ∈ x.1, b ≠ 0x47) ∧ x.2.WF ∧ x.2.body.Plain) →
    accepted ((l.map fun x => x.1.length / 188 + 1).sum) ⟨p0, ⟨noisyAll l, pos, stop, later⟩⟩ = chain p0 (l.map (·.2))
  | [], _, _, _, _ => rfl
  | (g, p) :: l, p0, pos, hpos, h => by
    obtain ⟨hg, hw, hp⟩ := h (g, p) (.head _)
    have ih := accepted_noise later stop l
    have hl : ∀ x ∈ l, (∀ b ∈ x.1, b ≠ 0x47) ∧ x.2.WF ∧ x.2.body.Plain := fun x hx => h x (.tail _ hx)
    have key : ∀ (k : Nat) (g : List UInt8) (pos : Nat), pos % 8 = 0 → (∀ b ∈ g, b ≠ 0x47) → g.length / 188 = k →
        accepted (k + 1 + (l.map fun x => x.1.length / 188 + 1).sum) ⟨p0, ⟨bitsOfBytes g ++ (Spec.encPkt p ++ noisyAll l), pos, stop, later⟩⟩ =
          chain p0 (p :: l.map (·.2)) := by
      intro k
      induction k with
      | zero =>
        intro g pos hpos hg hk
        have hq := next_noise_at p0 p hw hp g hg (by omega) (noisyAll l) pos hpos stop later
        have e : 0 + 1 + (l.map fun x => x.1.length / 188 + 1).sum = (l.map fun x => x.1.length / 188 + 1).sum + 1 := by omega
        rw [e]
        show (if (Packet.next _).1 = .ok () then [(Packet.next _).2.pkt] else []) ++ accepted _ (Packet.next _).2 = _
        rw [hq, if_pos rfl]
        show _ :: accepted _ _ = _ :: _
        congr 1
        exact ih _ _ (by omega) hl
      | succ k ihk =>
        intro g pos hpos hg hk
        have e1 : bitsOfBytes g = bitsOfBytes (g.take 188) ++ bitsOfBytes (g.drop 188) := by
          rw [← bitsOfBytes_append, List.take_append_drop]
        have hq := C03_no_sync (r := bitsOfBytes (g.drop 188) ++ (Spec.encPkt p ++ noisyAll l)) (pos := pos) (stop := stop)
          (later := later) p0 [] (by simp [hpos]) (g.take 188) (fun b hb => hg b (List.mem_of_mem_take hb))
          (by rw [List.length_take]; omega)
        rw [List.nil_append] at hq
        have e : k + 1 + 1 + (l.map fun x => x.1.length / 188 + 1).sum = (k + 1 + (l.map fun x => x.1.length / 188 + 1).sum) + 1 := by omega
        rw [e, e1, List.append_assoc]
        show (if (Packet.next _).1 = .ok () then [(Packet.next _).2.pkt] else []) ++ accepted _ (Packet.next _).2 = _
        rw [hq, if_neg (by simp), List.nil_append]
        exact ihk (g.drop 188) _ (by simp only [List.length_nil]; omega) (fun b hb => hg b (List.mem_of_mem_drop hb))
          (by rw [List.length_drop]; omega)
    have := key (g.length / 188) g pos hpos hg rfl
    simp only [List.map_cons, List.sum_cons]
    exact this

/-- **C122**, noise of any length.  The packets are those of the stream without the noise. -/
theorem C122_noise_packets (l : List (List UInt8 × Spec.Pkt)) (h : ∀ x ∈ l, (∀ b ∈ x.1, b ≠ 0x47) ∧ x.2.WF ∧ x.2.body.Plain) :
    accepted ((l.map fun x => x.1.length / 188 + 1).sum) ⟨Packet.new, BR.ofBits (noisyAll l)⟩ =
      accepted l.length ⟨Packet.new, BR.ofBits ((l.map fun x => Spec.encPkt x.2).flatten)⟩ := by
  have h1 := accepted_noise [] .eof l Packet.new 0 rfl h
  have h2 := accepted_noise [] .eof (l.map fun x => ([], x.2)) Packet.new 0 rfl (by
    intro x hx
    obtain ⟨y, hy, rfl⟩ := List.mem_map.mp hx
    exact ⟨by simp, (h y hy).2⟩)
  have e1 : ((l.map fun x => (([] : List UInt8), x.2)).map fun x => x.1.length / 188 + 1).sum = l.length := by
    induction l with
    | nil => rfl
    | cons x l ih =>
      have := ih (fun y hy => h y (.tail _ hy)) (accepted_noise [] .eof l Packet.new 0 rfl fun y hy => h y (.tail _ hy))
        (accepted_noise [] .eof (l.map fun x => ([], x.2)) Packet.new 0 rfl (by
          intro z hz
          obtain ⟨y, hy, rfl⟩ := List.mem_map.mp hz
          exact ⟨by simp, (h y (.tail _ hy)).2⟩))
      simp only [List.map_cons, List.sum_cons, List.length_nil, List.length_cons] at this ⊢
      omega
  have e2 : ∀ l : List (List UInt8 × Spec.Pkt), noisyAll (l.map fun x => ([], x.2)) = (l.map fun x => Spec.encPkt x.2).flatten := by
    intro l
    induction l with
    | nil => rfl
    | cons x l ih => simp only [List.map_cons, noisyAll, List.flatten_cons, ih]; rfl
  rw [e1, e2] at h2
  have e3 : (l.map fun x => (([] : List UInt8), x.2)).map (·.2) = l.map (·.2) := by simp
  rw [e3] at h2
  exact h1.trans h2.symm

/-- 400 bytes of noise before a packet, none before the next: two errors, then both packets -/
def noiseExample : List (List UInt8 × Spec.Pkt) := [(List.replicate 400 0xff, pkt0), ([], pkt1)]
example : (∀ x ∈ noiseExample, (∀ b ∈ x.1, b ≠ 0x47) ∧ x.2.WF ∧ x.2.body.Plain) ∧
    (noiseExample.map fun x => List.replicate (x.1.length / 188) (Res.err .noSyncByte) ++ [Res.ok ()]).flatten =
      [.err .noSyncByte, .err .noSyncByte, .ok (), .ok ()] := by
  refine ⟨fun x hx => ?_, by decide +kernel⟩
  simp only [noiseExample, List.mem_cons, List.not_mem_nil, or_false] at hx
  rcases hx with rfl | rfl
  · refine ⟨fun b hb => ?_, pkt0_wf, trivial⟩
    rw [List.eq_of_mem_replicate hb]; decide
  · exact ⟨by simp, pkt1_wf⟩
end TS

/-! ### PES packets -/

theorem prog_pes_lift {α : Type} {X : Err → Prop} {m : Go BR α} (h : Prog X (fun s : BR => s) m) :
    Prog X PES.St.br (PES.St.lift m) := ⟨fun s => h.1 s.br, fun s e he => h.2 s.br e he⟩
theorem eats_pes_lift {α : Type} {m : Go BR α} (h : Takes (fun s : BR => s) m) : Takes PES.St.br (PES.St.lift m) :=
  fun s v hv => h s.br v hv

namespace PES
open BR
theorem mv_readExtension : BR.Mv readExtension :=
  .bind mv_read1 fun _ => .bind mv_read1 fun _ => .bind mv_read1 fun _ => .bind mv_read1 fun _ => .bind (mv_skip _) fun _ =>
    .bind mv_read1 fun _ => .bind (.opt (mv_readExact _)) fun _ => .bind (.opt .panic) fun _ => .bind (.opt .panic) fun _ =>
    .bind (.opt (.map _ mv_readPStd)) fun _ => .bind (.opt .panic) fun _ => .pure _
theorem mv_readHeader : BR.Mv readHeader :=
  .bind (mv_marker _ _) fun _ => .bind mv_readFixed fun _ => .bind (mv_readStamps _) fun _ => .bind (.opt .panic) fun _ =>
    .bind (.opt (.map _ mv_readExtension)) fun _ => .bind (mv_readStuffing _) fun _ => .pure _
theorem mv_headerInto : Go.Mv St.br headerInto := by
  intro s
  have := mv_readHeader s.br
  unfold headerInto
  cases hx : readHeader s.br with
  | mk r b => rw [hx] at this; cases r <;> exact this
theorem mv_packetBody (id len : Nat) : Go.Mv St.br (Packet.body id len) :=
  .ite (.bind mv_headerInto fun _ => .ite (mv_boundedPayload _) mv_unboundedPayload)
    (.ite (.bind (mv_stlift (mv_readExact _)) fun _ => .pure _) (.pure _))

theorem prog_next : Prog (· = .startCodePrefixNotFound) St.br Packet.next := by
  refine .eat (prog_pes_lift (.bind (prog_peek _) fun _ => .bind (.check rfl) fun _ => .ignoreErr (mv_skip _)))
    (eats_pes_lift (.right (mv_peek _) (fun _ => .right .check (fun _ => eats_ignoreSkip (by decide)) fun _ => .ignoreErr (mv_skip _))
      fun _ => .bind .check fun _ => .ignoreErr (mv_skip _))) fun _ => ?_
  exact .bind (mv_readInto (mv_read _)) fun _ => .bind (mv_readInto (mv_read _)) fun _ => mv_packetBody _ _

/-- **C122**, PES packets (partial).  An error other than `ErrStartCodePrefixNotFound` means that something was consumed or
that the input was at its end. -/
theorem C122_progress_partial (s : St) (e : Err) (h : (Packet.next s).1 = .err e) :
    (Packet.next s).2.br.todo < s.br.todo ∨ s.br.todo = 0 ∨
      (e = .startCodePrefixNotFound ∧ (Packet.next s).2.br.todo = s.br.todo) := prog_next.2 s e h

/-- **C122**, PES packets: this error is final.  Where no start code prefix is, `Next` reports it, changes nothing and
consumes nothing. -/
theorem C122_stuck (s : St) (h : 24 ≤ s.br.bits.length) (hp : s.br.bits.take 24 ≠ bitsOf 24 1) :
    Packet.next s = (.err .startCodePrefixNotFound, s) := by
  have hl : (s.br.bits.take 24).length = 24 := by rw [List.length_take]; omega
  have hv : natOfBits (s.br.bits.take 24) ≠ 1 := by
    intro hv
    apply hp
    rw [← hv, bitsOf_natOfBits' hl]
  have hk : prefix24 s.br = (.err .startCodePrefixNotFound, s.br) := by
    have h1 : BR.peek 24 s.br = (.ok (natOfBits (s.br.bits.take 24)), s.br) := by
      unfold BR.peek; rw [if_pos h]
    unfold prefix24
    rw [Go.bind_ok h1]
    have h2 : (natOfBits (s.br.bits.take 24) == startCodePrefix) = false := by
      simp only [startCodePrefix, beq_eq_false_iff_ne]; exact hv
    rw [h2]
    rfl
  unfold Packet.next
  rw [Go.bind_apply]
  simp only [St.lift, hk]

/-- any number of calls of `Next` -/
def again : Nat → St → St
  | 0, s => s
  | n + 1, s => again n (Packet.next s).2

/-- **C122**, PES packets: so does every later call. -/
theorem C122_stuck_again (s : St) (h : 24 ≤ s.br.bits.length) (hp : s.br.bits.take 24 ≠ bitsOf 24 1) :
    ∀ n, again n s = s ∧ (Packet.next (again n s)).1 = .err .startCodePrefixNotFound
  | 0 => ⟨rfl, by rw [again, C122_stuck s h hp]⟩
  | n + 1 => by
    have e : again (n + 1) s = again n s := by rw [again, C122_stuck s h hp]
    rw [e]
    exact C122_stuck_again s h hp n

/-- `Read` called with buffers of these lengths, whatever it returns -/
def PR.calls (fuel : Nat) : List Nat → Go PR (List (List UInt8 × Option Err))
  | [] => pure []
  | n :: ns => do
    let o ← PR.read fuel n
    let os ← PR.calls fuel ns
    pure (o :: os)

/-- **C122**, PES payload reader: where no start code prefix is, no call of `Read` delivers anything again, and each reports
`ErrStartCodePrefixNotFound`. -/
theorem C122_stuck_reader (fuel : Nat) (st : St) (h : 24 ≤ st.br.bits.length) (hp : st.br.bits.take 24 ≠ bitsOf 24 1) (hf : 0 < fuel) :
    ∀ ns : List Nat, (∀ n ∈ ns, 0 < n) → PR.calls fuel ns ⟨st, []⟩ =
      (.ok (ns.map fun _ => ([], some .startCodePrefixNotFound)), ⟨st, []⟩)
  | [], _ => rfl
  | n :: ns, hn => by
    have h1 : PR.read fuel n ⟨st, []⟩ = (.ok ([], some .startCodePrefixNotFound), ⟨st, []⟩) := by
      obtain ⟨f, rfl⟩ : ∃ f, fuel = f + 1 := ⟨fuel - 1, by omega⟩
      have h0 : 0 < n := hn n (.head _)
      have hq := C122_stuck st h hp
      unfold PR.read
      simp only [List.length_nil, Nat.sub_zero, List.take_nil, List.drop_nil]
      rw [PR.fill]
      show (if n = 0 then _ else _) = _
      rw [if_neg (by omega)]
      simp only [hq]
    have h2 := C122_stuck_reader fuel st h hp hf ns fun m hm => hn m (.tail _ hm)
    rw [PR.calls, Go.bind_ok h1, Go.bind_ok h2]
    rfl

namespace Spec
/-- Reading `cur` with buffers of the given sizes, where at its end every call reports `e`. -/
def deliverFor (e : Err) : List UInt8 → List Nat → List (List UInt8 × Option Err)
  | _, [] => []
  | cur, n :: ns =>
    if n ≤ cur.length then (cur.take n, none) :: deliverFor e (cur.drop n) ns else (cur, some e) :: deliverFor e [] ns
end Spec

theorem calls_stuck {fuel : Nat} {e : Err} {s' : St} (he : Packet.next s' = (.err e, s')) : ∀ (ns : List Nat) (r : PR) (ps : List Packet),
    Run r.st ps s' → ps.length < fuel → (PR.calls fuel ns r).1 = .ok (Spec.deliverFor e (content r ps) ns)
  | [], r, ps, _, _ => rfl
  | n :: ns, r, ps, h, hf => by
    by_cases hn : n ≤ (content r ps).length
    · obtain ⟨r1, ps1, h1, h2, h3, h4⟩ := read_enough (fuel := fuel) h (by omega) hn
      have ih := calls_stuck (fuel := fuel) he ns r1 ps1 h2 (by omega)
      rw [PR.calls, Go.bind_ok h1, Go.bind_apply]
      cases hx : PR.calls fuel ns r1 with
      | mk y r2 =>
        rw [hx] at ih
        cases ih
        simp only [Spec.deliverFor, hn, if_true, h4]
        rfl
    · have h1 := read_end (fuel := fuel) (n := n) h he (by omega) (by omega)
      have ih := calls_stuck (fuel := fuel) he ns ⟨s', []⟩ [] (.nil _) (by simp only [List.length_nil]; omega)
      rw [PR.calls, Go.bind_ok h1, Go.bind_apply]
      cases hx : PR.calls fuel ns ⟨s', []⟩ with
      | mk y r2 =>
        rw [hx] at ih
        cases ih
        simp only [Spec.deliverFor, hn, if_false]
        rfl

/-- **C122**, PES payload reader: after the packets `l` come three or more bytes that do not begin with a start code
prefix.  Whatever follows them (any number of well-formed packets, say), the calls of `Read` deliver the payloads of
`l` and never anything else; each call that finds too little reports `ErrStartCodePrefixNotFound`. -/
theorem C122_junk (l : List Item) (hw : ∀ i ∈ l, i.WF) (rest : List Bool) (h24 : 24 ≤ rest.length)
    (hp : rest.take 24 ≠ bitsOf 24 1) (fuel : Nat) (hf : l.length < fuel) (ns : List Nat) :
    (PR.calls fuel ns (PR.new (BR.ofBits ((l.map Item.enc).flatten ++ rest)))).1 =
      .ok (Spec.deliverFor .startCodePrefixNotFound (seen [] l).flatten ns) := by
  obtain ⟨ps, p', pos', hr, he, hl⟩ := run_items_tail rest .eof [] l {} 0 hw
  have := calls_stuck (fuel := fuel) (C122_stuck ⟨p', ⟨rest, pos', .eof, []⟩⟩ h24 hp) ns
    (PR.new (BR.ofBits ((l.map Item.enc).flatten ++ rest))) ps hr (by omega)
  rw [this]
  show Res.ok (Spec.deliverFor _ ([] ++ Spec.payloads ps) ns) = _
  rw [List.nil_append, Spec.payloads, he]

/-- the packet behind one stuffing byte is never delivered: the claim is false for PES packets -/
theorem C122_false : ∃ (p q : Item), p.WF ∧ q.WF ∧ q.payload = [8] ∧ ∀ fuel ns, 1 < fuel →
    (PR.calls fuel ns (PR.new (BR.ofBits (p.enc ++ (bitsOfBytes [255] ++ q.enc))))).1 =
      .ok (Spec.deliverFor .startCodePrefixNotFound [7] ns) := by
  have hw : ∀ d : UInt8, (Item.media 0xe0 {} [d]).WF := fun d =>
    ⟨by decide, by decide, by decide +kernel, by decide +kernel, by
      show 3 + Spec.Hdr.dataLen {} + 1 < 65536; decide +kernel⟩
  refine ⟨.media 0xe0 {} [7], .media 0xe0 {} [8], hw 7, hw 8, rfl, fun fuel ns hf => ?_⟩
  exact C122_junk [.media 0xe0 {} [7]] (by simp [hw 7]) _ (by decide +kernel) (by decide +kernel) fuel hf ns
end PES

/-! ### the decoder -/

namespace Video
open _root_.Mpeg.BR
/-- the error that leaves the input where it is -/
abbrev Stays (e : Err) : Prop := e = .unexpectedStartCode

theorem prog_vlift {α : Type} {X : Err → Prop} {m : Go BR α} (h : Prog X (fun s : BR => s) m) : Prog X VS.br (VS.lift m) :=
  ⟨fun s => h.1 s.br, fun s e he => h.2 s.br e he⟩
theorem eats_vlift {α : Type} {m : Go BR α} (h : Takes (fun s : BR => s) m) : Takes VS.br (VS.lift m) := fun s v hv => h s.br v hv

theorem prog_alignIfNeeded {X : Err → Prop} : Prog X (fun s : BR => s) alignIfNeeded := by
  refine ⟨mv_alignIfNeeded, fun s e h => ?_⟩
  unfold alignIfNeeded at h
  split at h <;> cases h
theorem prog_nscLoop {X : Err → Prop} : ∀ f, Prog X (fun s : BR => s) (nextStartCodeLoop f)
  | 0 => .hang
  | f + 1 => .bind (prog_peek _) fun _ => .ite (.pure _)
      (.eat (prog_read _) (eats_read (by decide)) fun _ => .ite (mv_nscLoop f) (.throw _))
theorem prog_nextStartCode {X : Err → Prop} : Prog X (fun s : BR => s) nextStartCode :=
  .bind prog_alignIfNeeded fun _ => ⟨fun s => mv_nscLoop _ s, fun s e h => (prog_nscLoop _).2 s e h⟩

theorem prog_eats_header {α : Type} {c : Nat} {f : Unit → Go BR α} (hm : BR.Mv (startCode c >>= f)) (hf : ∀ u, BR.Mv (f u)) :
    Prog Stays (fun s : BR => s) (startCode c >>= f) ∧ Takes (fun s : BR => s) (startCode c >>= f) :=
  ⟨.eat (prog_codeAssert rfl) (eats_codeAssert (by decide)) hf, .left (eats_codeAssert (by decide)) hf⟩
theorem pe_sequenceHeader : Prog Stays (fun s : BR => s) readSequenceHeader ∧ Takes (fun s : BR => s) readSequenceHeader := by
  have hm := mv_readSequenceHeader
  unfold readSequenceHeader at hm ⊢
  refine prog_eats_header hm fun _ => ?_
  mv_steps
theorem pe_gopHeader : Prog Stays (fun s : BR => s) readGOPHeader ∧ Takes (fun s : BR => s) readGOPHeader := by
  have hm := mv_readGOPHeader
  unfold readGOPHeader at hm ⊢
  refine prog_eats_header hm fun _ => ?_
  mv_steps
theorem pe_pictureHeader : Prog Stays (fun s : BR => s) readPictureHeader ∧ Takes (fun s : BR => s) readPictureHeader := by
  have hm := mv_readPictureHeader
  unfold readPictureHeader at hm ⊢
  refine prog_eats_header hm fun _ => ?_
  mv_steps

theorem prog_storeHeader {α : Type} {m : Go BR α} {put : VS → Option α → VS} (h : Prog Stays (fun s : BR => s) m ∧ Takes (fun s : BR => s) m)
    (hp : ∀ s x, (put s x).br = s.br) : Prog Stays VS.br (storeHeader m put) ∧ Takes VS.br (storeHeader m put) := by
  refine ⟨⟨mv_storeHeader h.1.1 hp, fun s e he => ?_⟩, fun s v he => ?_⟩
  · have h1 := (prog_vlift h.1).2 s
    have h2 := eats_vlift h.2 s
    unfold storeHeader at he ⊢
    cases hm : VS.lift m s with
    | mk r s' =>
      rw [hm] at h1 h2
      rw [hm] at he
      cases r with
      | ok a =>
        have h3 := (mv_vlift mv_nextStartCode (put s' (some a))).todo
        rw [hp] at h3
        show (VS.lift nextStartCode (put s' (some a))).2.br.todo < _ ∨ _ ∨ _
        have h2 : s'.br.todo < s.br.todo ∨ s.br.todo = 0 := h2 a rfl
        rcases h2 with h2 | h2
        · exact .inl (by omega)
        · exact .inr (.inl h2)
      | err e' =>
        cases he
        have := h1 e rfl
        show (put s' none).br.todo < _ ∨ _ ∨ (_ ∧ (put s' none).br.todo = _)
        rw [hp]
        exact this
      | panic => cases he
      | hang => cases he
  · have h2 := eats_vlift h.2 s
    unfold storeHeader at he ⊢
    cases hm : VS.lift m s with
    | mk r s' =>
      rw [hm] at h2
      rw [hm] at he
      cases r with
      | ok a =>
        have h3 := (mv_vlift mv_nextStartCode (put s' (some a))).todo
        rw [hp] at h3
        show (VS.lift nextStartCode (put s' (some a))).2.br.todo < _ ∨ _
        have h2 : s'.br.todo < s.br.todo ∨ s.br.todo = 0 := h2 a rfl
        rcases h2 with h2 | h2
        · exact .inl (by omega)
        · exact .inr h2
      | err e' => cases he
      | panic => cases he
      | hang => cases he

theorem pe_seq : Prog Stays VS.br sequenceHeader ∧ Takes VS.br sequenceHeader := by
  unfold sequenceHeader
  exact ⟨.eat (prog_vlift pe_sequenceHeader.1) (eats_vlift pe_sequenceHeader.2) fun _ => .modify fun _ => rfl,
    .left (eats_vlift pe_sequenceHeader.2) fun _ => .modify fun _ => rfl⟩
theorem pe_pic : Prog Stays VS.br pictureHeader ∧ Takes VS.br pictureHeader := prog_storeHeader pe_pictureHeader fun _ _ => rfl
theorem prog_groupHeader (f : Nat) : Prog Stays VS.br (groupHeader f) :=
  .bind (prog_vlift (prog_peek _)) fun _ => .opt (.eat (prog_vlift pe_gopHeader.1) (eats_vlift pe_gopHeader.2) fun _ =>
    .bind (.modify fun _ => rfl) fun _ => mv_extUser 1 f)
theorem prog_moreFrames (f : Nat) : Prog Stays VS.br (moreFrames f) :=
  .bind (prog_groupHeader f) fun _ => .eat pe_pic.1 pe_pic.2 fun _ => .bind mv_pictureCodingExtension fun _ =>
    .bind (mv_extUser 2 f) fun _ => mv_pictureStep
theorem prog_resume (f : Nat) : Prog Stays VS.br (resume f) :=
  .bind (prog_vlift (prog_peek _)) fun _ => .ite (prog_moreFrames f)
    (.ite (.eat (prog_vlift (prog_skip _)) (eats_vlift (eats_skip (by decide))) fun _ => .throw _)
      (.eat pe_seq.1 pe_seq.2 fun _ => .bind mv_sequenceExtension fun _ => mv_continueFrames f))
theorem prog_start (f : Nat) : Prog Stays VS.br (start f) :=
  .bind (prog_vlift prog_nextStartCode) fun _ => .eat pe_seq.1 pe_seq.2 fun _ => .bind (mv_vlift (mv_peek _)) fun _ =>
    .bind .check fun _ => .bind mv_sequenceExtension fun _ => mv_continueFrames f
theorem prog_step (f : Nat) : Prog Stays VS.br (step f) := by
  refine ⟨mv_step f, fun s e => ?_⟩
  unfold step
  split
  · exact (prog_resume f).2 s e
  · exact (prog_start f).2 s e
theorem prog_nextLoop (f : Nat) : ∀ k, Prog Stays VS.br (nextLoop f k)
  | 0 => .hang
  | k + 1 => by
    unfold nextLoop
    refine .bind (prog_step f) fun _ => .bind .get fun s => ?_
    cases s.ph with
    | none => exact .panic
    | some ph => exact .ite (.bind (.modify fun _ => rfl) fun _ => .pure _) (prog_nextLoop f k)

/-- **C122**, decoder (partial).  An error of `Next` other than `ErrUnexpectedStartCode` means that something was
consumed or that the input was at its end. -/
theorem C122_progress_partial (fuel k : Nat) (s : VS) (e : Err) (h : (VS.next fuel k s).1 = .err e) :
    (VS.next fuel k s).2.br.todo < s.br.todo ∨ s.br.todo = 0 ∨
      (e = .unexpectedStartCode ∧ (VS.next fuel k s).2.br.todo = s.br.todo) := by
  unfold VS.next at h ⊢
  cases ht : s.fs.tryGet s.frameCounter with
  | some f => rw [ht] at h; cases h
  | none =>
    rw [ht] at h
    exact (prog_nextLoop fuel k).2 s e h
end Video
end Mpeg
