/-
Generic facts about computations on a bit reader:
* `Safe`   : neither panics nor runs out of fuel;
* `ContAt` : a computation run on a truncated input either ends with an end-of-input
             error or does exactly what it does on the longer input.
-/
import Verif.Base.BR
set_option linter.all false
namespace Mpeg

namespace Go
variable {σ α β : Type}

/-- Neither panics nor runs out of fuel, from any state. -/
def Safe (m : Go σ α) : Prop := ∀ s, (m s).1 ≠ .panic ∧ (m s).1 ≠ .hang

theorem Safe.pure (a : α) : Safe (Pure.pure a : Go σ α) := fun s => by simp
theorem Safe.throw (e : Err) : Safe (Go.throw e : Go σ α) := fun s => by simp
theorem Safe.get : Safe (Go.get : Go σ σ) := fun s => by simp
theorem Safe.modify (f : σ → σ) : Safe (Go.modify f) := fun s => by simp
theorem Safe.bind {m : Go σ α} {f : α → Go σ β} (hm : Safe m) (hf : ∀ a, Safe (f a)) :
    Safe (m >>= f) := by
  intro s
  have := hm s
  rw [Go.bind_apply]
  cases h : m s with
  | mk r s' =>
    rw [h] at this
    cases r with
    | ok a => exact hf a s'
    | err e => simp
    | panic => simp at this
    | hang => simp at this
theorem Safe.map {m : Go σ α} (f : α → β) (hm : Safe m) : Safe (f <$> m) := by
  rw [map_eq_pure_bind]; exact Safe.bind hm (fun _ => Safe.pure _)
theorem Safe.opt {c : Bool} {d : α} {m : Go σ α} (hm : Safe m) : Safe (Go.opt c d m) := by
  cases c
  · exact Safe.pure _
  · exact hm
theorem Safe.ite {c : Prop} [Decidable c] {m m' : Go σ α} (hm : Safe m) (hm' : Safe m') :
    Safe (if c then m else m') := by split <;> assumption
theorem Safe.check {c : Bool} {e : Err} : Safe (Go.check c e : Go σ Unit) := by
  cases c
  · exact Safe.throw _
  · exact Safe.pure _
theorem Safe.ignoreErr {m : Go σ α} (hm : Safe m) : Safe (Go.ignoreErr m) := by
  intro s
  have := hm s
  unfold Go.ignoreErr
  cases h : m s with
  | mk r s' =>
    rw [h] at this
    cases r <;> simp_all
end Go

namespace BR
theorem safe_read (k : Nat) : Go.Safe (read k) := fun s => by unfold read; split <;> simp
theorem safe_read1 : Go.Safe read1 := fun s => by unfold read1; split <;> simp
theorem safe_peek (k : Nat) : Go.Safe (peek k) := fun s => by unfold peek; split <;> simp
theorem safe_skip (k : Nat) : Go.Safe (skip k) := fun s => by unfold skip; split <;> simp
theorem safe_readFull (k : Nat) : Go.Safe (readFull k) := fun s => by unfold readFull; split <;> simp
theorem safe_readAll : Go.Safe readAll := fun s => by unfold readAll; simp
theorem safe_align : Go.Safe align := fun s => by unfold align; simp
end BR

/-- end-of-input errors -/
def IsEnd (e : Err) : Prop := e = .eof ∨ e = .unexpectedEOF
instance (e : Err) : Decidable (IsEnd e) := by unfold IsEnd; infer_instance

/-- append bits to the (last) segment -/
def BR.ext (s : BR) (t : List Bool) : BR := { s with bits := s.bits ++ t }
/-- a plain stream: one segment, ended by `io.EOF` -/
def BR.Plain (s : BR) : Prop := s.stop = .eof ∧ s.later = []

theorem BR.failErr_end {s : BR} (h : s.Plain) : IsEnd s.failErr := by
  unfold BR.failErr IsEnd; rw [h.1]; split <;> simp
theorem BR.failErr_pos {s : BR} (h : s.Plain) (h' : s.bits ≠ []) : s.failErr = .unexpectedEOF := by
  unfold BR.failErr; rw [h.1]; simp [h']
theorem BR.plain_adv {s : BR} (h : s.Plain) (k : Nat) : (s.adv k).Plain := h
theorem BR.plain_failTo {s : BR} (h : s.Plain) : s.failTo.Plain := by
  obtain ⟨h1, h2⟩ := h
  unfold BR.failTo BR.Plain; rw [h2]; simp [h1]

section
variable {σ α β : Type}

/-- `m` from `s`, compared with `m` from `s` with `t` appended to the input: the same outcome with
`t` still unread, or an end-of-input error. -/
def ContAt (ext : σ → List Bool → σ) (m : Go σ α) (s : σ) (t : List Bool) : Prop :=
  match m s with
  | (.err e, s') => IsEnd e ∨ m (ext s t) = (.err e, ext s' t)
  | (r, s') => m (ext s t) = (r, ext s' t)

theorem ContAt.bind {ext : σ → List Bool → σ} {m : Go σ α} {f : α → Go σ β} {s : σ} {t : List Bool}
    (hm : ContAt ext m s t) (hf : ∀ a s', m s = (.ok a, s') → ContAt ext (f a) s' t) :
    ContAt ext (m >>= f) s t := by
  unfold ContAt at hm ⊢
  cases h : m s with
  | mk r s' =>
    rw [h] at hm
    cases r with
    | ok a =>
      simp only at hm
      rw [Go.bind_ok h, Go.bind_ok hm]
      exact hf a s' h
    | err e =>
      simp only at hm
      rw [Go.bind_err h]
      simp only
      rcases hm with hm | hm
      · exact Or.inl hm
      · exact Or.inr (Go.bind_err hm)
    | panic => simp only at hm; rw [Go.bind_panic h]; simp only; exact Go.bind_panic hm
    | hang => simp only at hm; rw [Go.bind_hang h]; simp only; exact Go.bind_hang hm

theorem ContAt.pure {ext : σ → List Bool → σ} (a : α) (s : σ) (t : List Bool) :
    ContAt ext (Pure.pure a : Go σ α) s t := by simp [ContAt]
theorem ContAt.throw {ext : σ → List Bool → σ} (e : Err) (s : σ) (t : List Bool) :
    ContAt ext (Go.throw e : Go σ α) s t := by simp [ContAt]
theorem ContAt.opt {ext : σ → List Bool → σ} {c : Bool} {d : α} {m : Go σ α} {s : σ} {t : List Bool}
    (h : c = true → ContAt ext m s t) : ContAt ext (Go.opt c d m) s t := by
  cases c
  · exact ContAt.pure _ _ _
  · exact h rfl
theorem ContAt.check {ext : σ → List Bool → σ} {c : Bool} {e : Err} {s : σ} {t : List Bool} :
    ContAt ext (Go.check c e : Go σ Unit) s t := by
  cases c
  · exact ContAt.throw _ _ _
  · exact ContAt.pure _ _ _

/-- What `ContAt` gives: a strictly truncated run cannot succeed. -/
theorem ContAt.not_ok {ext : σ → List Bool → σ} {m : Go σ α} {s : σ} {t : List Bool}
    (h : ContAt ext m s t) {a : α} {s'' : σ} (hfull : m (ext s t) = (.ok a, s''))
    (hne : ∀ s', ext s' t ≠ s'') : ∃ e s', m s = (.err e, s') ∧ IsEnd e := by
  unfold ContAt at h
  cases hm : m s with
  | mk r s' =>
    rw [hm] at h
    cases r with
    | ok b => simp only at h; rw [hfull] at h; simp at h; exact absurd h.2.symm (hne s')
    | err e =>
      simp only at h
      rcases h with h | h
      · exact ⟨e, s', rfl, h⟩
      · rw [hfull] at h; simp at h
    | panic => simp only at h; rw [hfull] at h; simp at h
    | hang => simp only at h; rw [hfull] at h; simp at h
end

namespace BR
variable {s : BR} {t : List Bool}

theorem adv_ext {k : Nat} (h : k ≤ s.bits.length) : (s.ext t).adv k = (s.adv k).ext t := by
  simp [adv, ext, List.drop_append_of_le_length h]

theorem cont_read (h : s.Plain) (k : Nat) : ContAt ext (read k) s t := by
  unfold ContAt
  by_cases hk : k ≤ s.bits.length
  · rw [read_ok hk]
    simp only
    rw [read_ok (by simp [ext]; omega), adv_ext hk]
    simp [ext, List.take_append_of_le_length hk]
  · rw [read_short (by omega)]; exact Or.inl (failErr_end h)
theorem cont_peek (h : s.Plain) (k : Nat) : ContAt ext (peek k) s t := by
  unfold ContAt
  by_cases hk : k ≤ s.bits.length
  · rw [peek_ok hk]
    simp only
    rw [peek_ok (by simp [ext]; omega)]
    simp [ext, List.take_append_of_le_length hk]
  · rw [peek_short (by omega)]; exact Or.inl (failErr_end h)
theorem cont_skip (h : s.Plain) (k : Nat) : ContAt ext (skip k) s t := by
  unfold ContAt
  by_cases hk : k ≤ s.bits.length
  · rw [skip_ok hk]
    simp only
    rw [skip_ok (by simp [ext]; omega), adv_ext hk]
  · rw [skip_short (by omega)]; exact Or.inl (failErr_end h)
theorem cont_read1 (h : s.Plain) : ContAt ext read1 s t := by
  unfold ContAt
  cases hb : s.bits with
  | nil => rw [read1_short (by simp [hb])]; exact Or.inl (failErr_end h)
  | cons b l =>
    have h1 : read1 s = (.ok b, s.adv 1) := by simp [read1, hb]
    have h2 : read1 (s.ext t) = (.ok b, (s.ext t).adv 1) := by simp [read1, ext, hb]
    rw [h1]; simp only; rw [h2, adv_ext (by simp [hb])]

/-- every successful step of a plain reader leaves a plain reader -/
theorem Took.plain {s s' : BR} {l : List Bool} (h : Took s l s') (hp : s.Plain) : s'.Plain :=
  ⟨h.stop.trans hp.1, h.later.trans hp.2⟩
end BR
end Mpeg

namespace Mpeg
theorem bytesOfBits_ext (n : Nat) (l t : List Bool) (h : 8 * n ≤ l.length) :
    bytesOfBits n (l ++ t) = bytesOfBits n l := by
  induction n generalizing l with
  | zero => rfl
  | succ n ih =>
    simp only [bytesOfBits]
    rw [List.take_append_of_le_length (by omega), List.drop_append_of_le_length (by omega),
      ih _ (by simp; omega)]

theorem BR.readFull_ok {n : Nat} {s : BR} (h : 8 * n ≤ s.bits.length) :
    BR.readFull n s = (.ok (bytesOfBits n s.bits, none), s.adv (8 * n)) := by simp [readFull, h]
theorem BR.readFull_short {n : Nat} {s : BR} (h : s.bits.length < 8 * n) :
    BR.readFull n s = (.ok (bytesOfBits (s.bits.length / 8) s.bits, some s.failErr), s.failTo) := by
  have : ¬ 8 * n ≤ s.bits.length := by omega
  simp [readFull, this]
end Mpeg

/-! ### plain readers stay plain -/
namespace Mpeg
def KeepsPlain {α : Type} (m : Go BR α) : Prop := ∀ s : BR, s.Plain → (m s).2.Plain
namespace KeepsPlain
variable {α β : Type}
theorem pure (a : α) : KeepsPlain (Pure.pure a : Go BR α) := fun s h => h
theorem throw (e : Err) : KeepsPlain (Go.throw e : Go BR α) := fun s h => h
theorem bind {m : Go BR α} {f : α → Go BR β} (hm : KeepsPlain m) (hf : ∀ a, KeepsPlain (f a)) :
    KeepsPlain (m >>= f) := by
  intro s h
  have h1 := hm s h
  rw [Go.bind_apply]
  cases hh : m s with
  | mk r s' =>
    rw [hh] at h1
    cases r with
    | ok a => exact hf a s' h1
    | err e => exact h1
    | panic => exact h1
    | hang => exact h1
theorem opt {c : Bool} {d : α} {m : Go BR α} (h : KeepsPlain m) : KeepsPlain (Go.opt c d m) := by
  cases c
  · exact pure _
  · exact h
theorem ignoreErr {m : Go BR α} (h : KeepsPlain m) : KeepsPlain (Go.ignoreErr m) := by
  intro s hs
  have h1 := h s hs
  unfold Go.ignoreErr
  cases hh : m s with
  | mk r s' => rw [hh] at h1; cases r <;> exact h1
theorem read (k : Nat) : KeepsPlain (BR.read k) := by
  intro s h; unfold BR.read; split
  · exact h
  · exact BR.plain_failTo h
theorem skip (k : Nat) : KeepsPlain (BR.skip k) := by
  intro s h; unfold BR.skip; split
  · exact h
  · exact BR.plain_failTo h
theorem peek (k : Nat) : KeepsPlain (BR.peek k) := by
  intro s h; unfold BR.peek; split
  · exact h
  · exact BR.plain_failTo h
theorem read1 : KeepsPlain BR.read1 := by
  intro s h; unfold BR.read1; split
  · exact h
  · exact BR.plain_failTo h
theorem readFull (k : Nat) : KeepsPlain (BR.readFull k) := by
  intro s h; unfold BR.readFull; split
  · exact h
  · exact BR.plain_failTo h
theorem ok {m : Go BR α} (hm : KeepsPlain m) {s s' : BR} {a : α} (hs : s.Plain)
    (h : m s = (.ok a, s')) : s'.Plain := by have := hm s hs; rwa [h] at this
end KeepsPlain

theorem dvd_ite {c : Prop} [Decidable c] (n k : Nat) (h : n ∣ k) : n ∣ (if c then k else 0) := by
  split
  · exact h
  · exact ⟨0, rfl⟩
end Mpeg
