/-
Causality: what the decoder does depends only on the bits that it has read, so a run on a truncated input either
does the same as on the whole input or comes to the end of the input.
-/
import Verif.Video.TermLemmas
set_option linter.all false
namespace Mpeg

/-- a state with a bit reader whose input can be continued -/
class HasBR (σ : Type) where
  br : σ → BR
  ext : σ → List Bool → σ
  br_ext : ∀ s t, br (ext s t) = (br s).ext t

instance : HasBR BR := ⟨id, BR.ext, fun _ _ => rfl⟩
instance : HasBR Video.VS := ⟨Video.VS.br, fun s t => { s with br := s.br.ext t }, fun _ _ => rfl⟩
instance : HasBR Video.MB := ⟨Video.MB.br, fun s t => { s with br := s.br.ext t }, fun _ _ => rfl⟩

open HasBR

/-- `x` on the truncated input, `y` on the input continued by `t`; with `w`, a success at the very end of the input is
allowed to differ. -/
def CRel {σ α : Type} [HasBR σ] (w : Prop) (t : List Bool) (x y : Res α × σ) : Prop :=
  (br x.2).Plain ∧
  match x.1 with
  | .ok a => y = (.ok a, ext x.2 t) ∨ (w ∧ (br x.2).bits = [])
  | .err e => (IsEnd e ∧ (br x.2).bits = []) ∨ (¬ IsEnd e ∧ y = (.err e, ext x.2 t))
  | .panic => y.1 = .panic
  | .hang => y.1 = .hang

def Causal {σ α : Type} [HasBR σ] (w : Prop) (m : Go σ α) : Prop :=
  ∀ s t, (br s).Plain → CRel w t (m s) (m (ext s t))

abbrev Caus {σ α : Type} [HasBR σ] (m : Go σ α) : Prop := Causal False m
abbrev Weak {σ α : Type} [HasBR σ] (m : Go σ α) : Prop := Causal True m

/-- at the end of the input `m` reports it -/
def Ends {σ α : Type} [HasBR σ] (m : Go σ α) : Prop :=
  ∀ s, (br s).Plain → (br s).bits = [] → ∃ e s', m s = (.err e, s') ∧ IsEnd e ∧ (br s').bits = [] ∧ (br s').Plain

namespace Caus
variable {σ α β : Type} [HasBR σ]
theorem pure (a : α) : Caus (Pure.pure a : Go σ α) := fun s t h => ⟨h, .inl rfl⟩
theorem throw (e : Err) (he : ¬ IsEnd e := by decide) : Caus (Go.throw e : Go σ α) := fun s t h => ⟨h, .inr ⟨he, rfl⟩⟩
theorem panic : Caus (Go.panic : Go σ α) := fun s t h => ⟨h, rfl⟩
theorem hang : Caus (Go.hang : Go σ α) := fun s t h => ⟨h, rfl⟩
theorem modify {f : σ → σ} (h1 : ∀ s, br (f s) = br s) (h2 : ∀ s t, f (ext s t) = ext (f s) t) : Caus (Go.modify f) :=
  fun s t h => ⟨by show (br (f s)).Plain; rw [h1]; exact h, .inl (by rw [Go.modify_apply, h2]; rfl)⟩
theorem weak {m : Go σ α} (h : Caus m) : Weak m := by
  intro s t hp
  obtain ⟨h1, h2⟩ := h s t hp
  refine ⟨h1, ?_⟩
  cases hx : (m s).1 <;> rw [hx] at h2
  · rcases h2 with h2 | ⟨⟨⟩, _⟩
    exact .inl h2
  · exact h2
  · exact h2
  · exact h2

theorem bind' {w : Prop} {m : Go σ α} {f : α → Go σ β} (hm : Caus m) (hf : ∀ a, Causal w (f a)) : Causal w (m >>= f) := by
  intro s t hp
  have h := hm s t hp
  cases hx : m s with
  | mk r s' =>
    rw [hx] at h
    obtain ⟨h1, h2⟩ := h
    cases r with
    | ok a =>
      rcases h2 with h2 | ⟨⟨⟩, _⟩
      rw [Go.bind_ok hx, Go.bind_ok h2]
      exact hf a s' t h1
    | err e =>
      rw [Go.bind_err hx]
      refine ⟨h1, ?_⟩
      rcases h2 with h2 | h2
      · exact .inl h2
      · exact .inr ⟨h2.1, Go.bind_err h2.2⟩
    | panic =>
      rw [Go.bind_panic hx]
      refine ⟨h1, ?_⟩
      generalize hy : m (ext s t) = y at h2
      obtain ⟨y1, y2⟩ := y
      simp only at h2
      subst h2
      show ((m >>= f) (ext s t)).1 = .panic
      rw [Go.bind_panic hy]
    | hang =>
      rw [Go.bind_hang hx]
      refine ⟨h1, ?_⟩
      generalize hy : m (ext s t) = y at h2
      obtain ⟨y1, y2⟩ := y
      simp only at h2
      subst h2
      show ((m >>= f) (ext s t)).1 = .hang
      rw [Go.bind_hang hy]
theorem bind {m : Go σ α} {f : α → Go σ β} (hm : Caus m) (hf : ∀ a, Caus (f a)) : Caus (m >>= f) := bind' hm hf

theorem weakBind {m : Go σ α} {f : α → Go σ β} (hm : Weak m) (hf : ∀ a, Caus (f a)) (he : ∀ a, Ends (f a)) :
    Caus (m >>= f) := by
  intro s t hp
  have h := hm s t hp
  cases hx : m s with
  | mk r s' =>
    rw [hx] at h
    obtain ⟨h1, h2⟩ := h
    cases r with
    | ok a =>
      rw [Go.bind_ok hx]
      rcases h2 with h2 | ⟨_, h2⟩
      · rw [Go.bind_ok h2]
        exact hf a s' t h1
      · obtain ⟨e, s'', h3, h4, h5, h6⟩ := he a s' h1 h2
        rw [h3]
        exact ⟨h6, .inl ⟨h4, h5⟩⟩
    | err e =>
      rw [Go.bind_err hx]
      refine ⟨h1, ?_⟩
      rcases h2 with h2 | h2
      · exact .inl h2
      · exact .inr ⟨h2.1, Go.bind_err h2.2⟩
    | panic =>
      rw [Go.bind_panic hx]
      refine ⟨h1, ?_⟩
      generalize hy : m (ext s t) = y at h2
      obtain ⟨y1, y2⟩ := y
      simp only at h2
      subst h2
      show ((m >>= f) (ext s t)).1 = .panic
      rw [Go.bind_panic hy]
    | hang =>
      rw [Go.bind_hang hx]
      refine ⟨h1, ?_⟩
      generalize hy : m (ext s t) = y at h2
      obtain ⟨y1, y2⟩ := y
      simp only at h2
      subst h2
      show ((m >>= f) (ext s t)).1 = .hang
      rw [Go.bind_hang hy]

theorem map {m : Go σ α} (f : α → β) (hm : Caus m) : Caus (f <$> m) := by
  rw [map_eq_pure_bind]; exact bind hm fun _ => pure _
theorem opt {c : Bool} {d : α} {m : Go σ α} (hm : Caus m) : Caus (Go.opt c d m) := by
  cases c
  · exact pure _
  · exact hm
theorem ite {c : Prop} [Decidable c] {m m' : Go σ α} (hm : Caus m) (hm' : Caus m') :
    Caus (if c then m else m') := by split <;> assumption
theorem check {c : Bool} {e : Err} (he : ¬ IsEnd e := by decide) : Caus (Go.check c e : Go σ Unit) := by
  cases c
  · exact throw _ he
  · exact pure _
theorem getBind {f : σ → Go σ β} (h1 : ∀ s, Caus (f s)) (h2 : ∀ s t, f (ext s t) = f s) :
    Caus ((Go.get : Go σ σ) >>= f) := by
  intro s t hp
  rw [Go.bind_ok (Go.get_apply s), Go.bind_ok (Go.get_apply _), h2]
  exact h1 s s t hp
theorem orPanic : ∀ x : Option α, Caus (Video.orPanic x : Go σ α)
  | some _ => pure _
  | none => panic

theorem ignoreErr {m : Go σ α} (h : Caus m) : Weak (Go.ignoreErr m) := by
  intro s t hp
  have h := h s t hp
  unfold Go.ignoreErr
  cases hx : m s with
  | mk r s' =>
    rw [hx] at h
    obtain ⟨h1, h2⟩ := h
    cases r with
    | ok a =>
      rcases h2 with h2 | ⟨⟨⟩, _⟩
      rw [h2]
      exact ⟨h1, .inl rfl⟩
    | err e =>
      rcases h2 with h2 | h2
      · exact ⟨h1, .inr ⟨trivial, h2.2⟩⟩
      · rw [h2.2]; exact ⟨h1, .inl rfl⟩
    | panic =>
      generalize hy : m (ext s t) = y at h2
      obtain ⟨y1, y2⟩ := y
      simp only at h2
      subst h2
      exact ⟨h1, rfl⟩
    | hang =>
      generalize hy : m (ext s t) = y at h2
      obtain ⟨y1, y2⟩ := y
      simp only at h2
      subst h2
      exact ⟨h1, rfl⟩
end Caus

namespace Ends
variable {σ α β : Type} [HasBR σ]
theorem bind {m : Go σ α} {f : α → Go σ β} (h : Ends m) : Ends (m >>= f) := by
  intro s hp hb
  obtain ⟨e, s', h1, h2⟩ := h s hp hb
  exact ⟨e, s', Go.bind_err h1, h2⟩
theorem optBind {c : Bool} {d : α} {m : Go σ α} {f : α → Go σ β} (h : Ends m) (h' : ∀ a, Ends (f a)) :
    Ends (Go.opt c d m >>= f) := by
  cases c
  · intro s hp hb
    rw [Go.opt_false, Go.bind_ok (Go.pure_apply d s)]
    exact h' d s hp hb
  · exact bind h
theorem ite {c : Prop} [Decidable c] {m m' : Go σ α} (hm : Ends m) (hm' : Ends m') :
    Ends (if c then m else m') := by split <;> assumption
end Ends

/-! ### more fuel -/

/-- `m'` does what `m` does unless `m` runs out of fuel -/
def Go.Le {σ α : Type} (m m' : Go σ α) : Prop := ∀ s, (m s).1 ≠ .hang → m' s = m s

namespace Go.Le
variable {σ α β : Type}
theorem refl (m : Go σ α) : Go.Le m m := fun _ _ => rfl
theorem hang (m : Go σ α) : Go.Le Go.hang m := fun _ h => absurd rfl h
theorem bind {m m' : Go σ α} {f f' : α → Go σ β} (hm : Go.Le m m') (hf : ∀ a, Go.Le (f a) (f' a)) :
    Go.Le (m >>= f) (m' >>= f') := by
  intro s h
  cases hx : m s with
  | mk r s' =>
    have h1 : m' s = m s := hm s (by
      rw [hx]; rintro h2; simp only at h2; subst h2; rw [Go.bind_hang hx] at h; exact h rfl)
    rw [hx] at h1
    cases r with
    | ok a =>
      rw [Go.bind_ok hx] at h ⊢
      rw [Go.bind_ok h1]
      exact hf a s' h
    | err e => rw [Go.bind_err hx, Go.bind_err h1]
    | panic => rw [Go.bind_panic hx, Go.bind_panic h1]
    | hang => rw [Go.bind_hang hx] at h; exact absurd rfl h
theorem ite {c : Prop} [Decidable c] {m m' n n' : Go σ α} (hm : Go.Le m m') (hn : Go.Le n n') :
    Go.Le (if c then m else n) (if c then m' else n') := by split <;> assumption
end Go.Le

/-- a loop that takes its fuel from the input -/
theorem Caus.fuel {σ α : Type} [HasBR σ] {loop : Nat → Go σ α} {F : σ → Nat} (h : ∀ f, Caus (loop f))
    (hle : ∀ f f', f ≤ f' → Go.Le (loop f) (loop f')) (hF : ∀ s t, F s ≤ F (ext s t)) (hn : ∀ s, (loop (F s) s).1 ≠ .hang) :
    Caus (fun s => loop (F s) s) := by
  intro s t hp
  have h1 := h (F s) s t hp
  have h2 := hle _ _ (hF s t) (ext s t)
  have h3 := hn s
  show CRel False t (loop (F s) s) (loop (F (ext s t)) (ext s t))
  generalize hx : loop (F s) s = x at h1 h3
  obtain ⟨r, s'⟩ := x
  obtain ⟨h0, h1⟩ := h1
  refine ⟨h0, ?_⟩
  cases r with
  | ok a =>
    rcases h1 with h1 | ⟨⟨⟩, _⟩
    left
    rw [h2 (by rw [h1]; simp)]; exact h1
  | err e =>
    rcases h1 with h1 | h1
    · exact .inl h1
    · right
      rw [h2 (by rw [h1.2]; simp)]; exact h1
  | panic =>
    show (loop (F (ext s t)) (ext s t)).1 = .panic
    have h1 : (loop (F s) (ext s t)).1 = .panic := h1
    rw [h2 (by rw [h1]; simp)]; exact h1
  | hang => exact absurd rfl h3

/-! ### the bit reader -/

namespace BR
theorem failTo_bits {s : BR} (h : s.Plain) : s.failTo.bits = [] := by
  unfold failTo; rw [h.2]
theorem ends_of_fail {α : Type} {m : Go BR α} (h : ∀ s : BR, s.bits = [] → m s = (.err s.failErr, s.failTo)) : Ends m :=
  fun s hp hb => ⟨_, _, h s hb, failErr_end hp, failTo_bits hp, plain_failTo hp⟩

theorem caus_read (k : Nat) : Caus (read k) := by
  intro s t hp
  by_cases h : k ≤ s.bits.length
  · rw [read_ok h]
    refine ⟨hp, .inl ?_⟩
    show read k (s.ext t) = _
    rw [read_ok (by simp [BR.ext]; omega), adv_ext h]
    simp [BR.ext, List.take_append_of_le_length h, HasBR.ext]
  · rw [read_short (by omega)]
    exact ⟨plain_failTo hp, .inl ⟨failErr_end hp, failTo_bits hp⟩⟩
theorem caus_peek (k : Nat) : Caus (peek k) := by
  intro s t hp
  by_cases h : k ≤ s.bits.length
  · rw [peek_ok h]
    refine ⟨hp, .inl ?_⟩
    show peek k (s.ext t) = _
    rw [peek_ok (by simp [BR.ext]; omega)]
    simp [BR.ext, List.take_append_of_le_length h, HasBR.ext]
  · rw [peek_short (by omega)]
    exact ⟨plain_failTo hp, .inl ⟨failErr_end hp, failTo_bits hp⟩⟩
theorem caus_skip (k : Nat) : Caus (skip k) := by
  intro s t hp
  by_cases h : k ≤ s.bits.length
  · rw [skip_ok h]
    refine ⟨hp, .inl ?_⟩
    show skip k (s.ext t) = _
    rw [skip_ok (by simp [BR.ext]; omega), adv_ext h]
    rfl
  · rw [skip_short (by omega)]
    exact ⟨plain_failTo hp, .inl ⟨failErr_end hp, failTo_bits hp⟩⟩
theorem caus_read1 : Caus read1 := by
  intro s t hp
  cases hb : s.bits with
  | nil =>
    rw [read1_short (by simp [hb])]
    exact ⟨plain_failTo hp, .inl ⟨failErr_end hp, failTo_bits hp⟩⟩
  | cons b l =>
    have h1 : read1 s = (.ok b, s.adv 1) := by simp [read1, hb]
    have h2 : read1 (s.ext t) = (.ok b, (s.ext t).adv 1) := by simp [read1, BR.ext, hb]
    rw [h1]
    refine ⟨hp, .inl ?_⟩
    show read1 (s.ext t) = _
    rw [h2, adv_ext (by simp [hb])]; rfl
theorem ends_read {k : Nat} (h : 0 < k) : Ends (read k) :=
  ends_of_fail fun s hb => read_short (by rw [hb]; exact h)
theorem ends_peek {k : Nat} (h : 0 < k) : Ends (peek k) :=
  ends_of_fail fun s hb => peek_short (by rw [hb]; exact h)
theorem ends_read1 : Ends read1 := ends_of_fail fun s hb => read1_short (by rw [hb]; exact Nat.zero_lt_one)
theorem weak_align : Weak align := by
  intro s t hp
  unfold align
  refine ⟨hp, ?_⟩
  by_cases h : (8 - s.pos % 8) % 8 ≤ s.bits.length
  · left
    show ((.ok (), (s.ext t).adv ((8 - s.pos % 8) % 8)) : Res Unit × BR) = _
    rw [adv_ext h]; rfl
  · right
    refine ⟨trivial, ?_⟩
    show s.bits.drop _ = []
    exact List.drop_eq_nil_of_le (by omega)
theorem caus_codeAssert (k v : Nat) (e : Err) (he : ¬ IsEnd e := by decide) : Caus (codeAssert k v e) := by
  unfold codeAssert codeCheck
  exact .bind (.bind (caus_peek _) fun _ => .pure _) fun _ => .bind (.check he) fun _ => caus_skip _

/-- an error of Skip after a successful Peek of as many bits cannot occur -/
theorem peek_ignore {α : Type} (k : Nat) (c : Nat → Prop) [∀ v, Decidable (c v)] (g h : Nat → Go BR α) :
    (peek k >>= fun v => if c v then Go.ignoreErr (skip k) >>= fun _ => g v else h v) =
      (peek k >>= fun v => if c v then skip k >>= fun _ => g v else h v) := by
  funext s
  by_cases hk : k ≤ s.bits.length
  · rw [Go.bind_ok (peek_ok hk), Go.bind_ok (peek_ok hk)]
    split
    · have : Go.ignoreErr (skip k) s = (.ok (), s.adv k) := by unfold Go.ignoreErr; rw [skip_ok hk]
      rw [Go.bind_ok this, Go.bind_ok (skip_ok hk)]
    · rfl
  · rw [Go.bind_err (peek_short (by omega)), Go.bind_err (peek_short (by omega))]
end BR

namespace Video
open _root_.Mpeg.BR

theorem caus_vlift {α : Type} {w : Prop} {m : Go BR α} (h : Causal w m) : Causal w (VS.lift m) := by
  intro s t hp
  have h1 := h s.br t hp
  unfold VS.lift
  obtain ⟨h0, h1⟩ := h1
  refine ⟨h0, ?_⟩
  change (match (m s.br).1 with | .ok a => _ | .err e => _ | .panic => _ | .hang => _) at h1
  cases hx : (m s.br).1 <;> rw [hx] at h1 <;> simp only
  · refine h1.imp (fun h1 => ?_) id
    show ((m (s.br.ext t)).1, { s with br := (m (s.br.ext t)).2 }) = _
    rw [show m (s.br.ext t) = _ from h1]; rfl
  · refine h1.imp id fun h1 => ⟨h1.1, ?_⟩
    show ((m (s.br.ext t)).1, { s with br := (m (s.br.ext t)).2 }) = _
    rw [show m (s.br.ext t) = _ from h1.2]; rfl
  · exact h1
  · exact h1
theorem caus_mlift {α : Type} {w : Prop} {m : Go BR α} (h : Causal w m) : Causal w (MB.lift m) := by
  intro s t hp
  have h1 := h s.br t hp
  unfold MB.lift
  obtain ⟨h0, h1⟩ := h1
  refine ⟨h0, ?_⟩
  change (match (m s.br).1 with | .ok a => _ | .err e => _ | .panic => _ | .hang => _) at h1
  cases hx : (m s.br).1 <;> rw [hx] at h1 <;> simp only
  · refine h1.imp (fun h1 => ?_) id
    show ((m (s.br.ext t)).1, { s with br := (m (s.br.ext t)).2 }) = _
    rw [show m (s.br.ext t) = _ from h1]; rfl
  · refine h1.imp id fun h1 => ⟨h1.1, ?_⟩
    show ((m (s.br.ext t)).1, { s with br := (m (s.br.ext t)).2 }) = _
    rw [show m (s.br.ext t) = _ from h1.2]; rfl
  · exact h1
  · exact h1
theorem ends_vlift {α : Type} {m : Go BR α} (h : Ends m) : Ends (VS.lift m) := by
  intro s hp hb
  obtain ⟨e, s', h1, h2⟩ := h s.br hp hb
  exact ⟨e, { s with br := s' }, by unfold VS.lift; rw [h1], h2⟩
theorem ends_mlift {α : Type} {m : Go BR α} (h : Ends m) : Ends (MB.lift m) := by
  intro s hp hb
  obtain ⟨e, s', h1, h2⟩ := h s.br hp hb
  exact ⟨e, { s with br := s' }, by unfold MB.lift; rw [h1], h2⟩

end Video
end Mpeg
