/-
How far the decoder looks ahead: a run whose input is cut does the same as on the whole input unless the run on the whole
input ends less than 32 bits before the cut, or behind it.
-/
import Verif.Video.CausLemmas2
set_option linter.all false
namespace Mpeg
open HasBR

/-- `x` on the cut input, `y` on the input continued by `t`: the same, or `x` ends at the cut and `y` less than 32 bits
before it -/
def NR {σ α : Type} [HasBR σ] (t : List Bool) (x y : Res α × σ) : Prop :=
  y = (x.1, ext x.2 t) ∨ ((br y.2).bits.length < t.length + 32 ∧ (br x.2).bits.length = 0)

def Near {σ α : Type} [HasBR σ] (m : Go σ α) : Prop := ∀ s, (br s).Plain →
  (br (m s).2).Plain ∧ (br (m s).2).bits.length ≤ (br s).bits.length ∧ ∀ t, NR t (m s) (m (ext s t))

theorem plain_ext {σ : Type} [HasBR σ] {s : σ} (t : List Bool) (h : (br s).Plain) : (br (ext s t)).Plain := by
  rw [br_ext]; exact h

namespace Near
variable {σ α β : Type} [HasBR σ]
theorem pure (a : α) : Near (Pure.pure a : Go σ α) := fun s h => ⟨h, Nat.le_refl _, fun t => .inl rfl⟩
theorem throw (e : Err) : Near (Go.throw e : Go σ α) := fun s h => ⟨h, Nat.le_refl _, fun t => .inl rfl⟩
theorem panic : Near (Go.panic : Go σ α) := fun s h => ⟨h, Nat.le_refl _, fun t => .inl rfl⟩
theorem hang : Near (Go.hang : Go σ α) := fun s h => ⟨h, Nat.le_refl _, fun t => .inl rfl⟩
theorem modify {f : σ → σ} (h1 : ∀ s, br (f s) = br s) (h2 : ∀ s t, f (ext s t) = ext (f s) t) : Near (Go.modify f) :=
  fun s h => ⟨by show (br (f s)).Plain; rw [h1]; exact h, by show (br (f s)).bits.length ≤ _; rw [h1]; exact Nat.le_refl _,
    fun t => .inl (by rw [Go.modify_apply, h2]; rfl)⟩

/-- go on with the result or with the error -/
def handle (m : Go σ α) (f : α → Go σ β) (g : Err → Go σ β) : Go σ β := fun s =>
  match m s with
  | (.ok a, s') => f a s'
  | (.err e, s') => g e s'
  | (.panic, s') => (.panic, s')
  | (.hang, s') => (.hang, s')

/-- the same, by result -/
def go (f : α → Go σ β) (g : Err → Go σ β) : Res α → Go σ β
  | .ok a => f a
  | .err e => g e
  | .panic => Go.panic
  | .hang => Go.hang
theorem handle_apply (m : Go σ α) (f : α → Go σ β) (g : Err → Go σ β) (s : σ) :
    handle m f g s = go f g (m s).1 (m s).2 := by
  unfold handle
  generalize m s = x
  obtain ⟨r, s'⟩ := x
  cases r <;> rfl
theorem near_go {f : α → Go σ β} {g : Err → Go σ β} (hf : ∀ a, Near (f a)) (hg : ∀ e, Near (g e)) : ∀ r, Near (go f g r)
  | .ok a => hf a
  | .err e => hg e
  | .panic => panic
  | .hang => hang
theorem byHandle {m : Go σ α} {f : α → Go σ β} {g : Err → Go σ β} (hm : Near m) (hf : ∀ a, Near (f a)) (hg : ∀ e, Near (g e)) :
    Near (handle m f g) := by
  intro s hp
  obtain ⟨h1, h2, h3⟩ := hm s hp
  obtain ⟨h4, h5, h6⟩ := near_go hf hg (m s).1 (m s).2 h1
  rw [handle_apply]
  refine ⟨h4, Nat.le_trans h5 h2, fun t => ?_⟩
  rw [handle_apply]
  rcases h3 t with h7 | h7
  · rw [h7]; exact h6 t
  · obtain ⟨h8, _⟩ := hm _ (plain_ext t hp)
    exact .inr ⟨Nat.lt_of_le_of_lt (near_go hf hg (m (ext s t)).1 _ h8).2.1 h7.1, Nat.le_zero.mp (h7.2 ▸ h5)⟩
theorem bind {m : Go σ α} {f : α → Go σ β} (hm : Near m) (hf : ∀ a, Near (f a)) : Near (m >>= f) := by
  have : m >>= f = handle m f Go.throw := by
    funext s
    rw [Go.bind_apply]; unfold handle
    cases m s with | mk r s' => cases r <;> rfl
  rw [this]
  exact byHandle hm hf throw
theorem map {m : Go σ α} (f : α → β) (hm : Near m) : Near (f <$> m) := by
  rw [map_eq_pure_bind]; exact bind hm fun _ => pure _
theorem opt {c : Bool} {d : α} {m : Go σ α} (hm : Near m) : Near (Go.opt c d m) := by
  cases c
  · exact pure _
  · exact hm
theorem ite {c : Prop} [Decidable c] {m m' : Go σ α} (hm : Near m) (hm' : Near m') :
    Near (if c then m else m') := by split <;> assumption
theorem check {c : Bool} {e : Err} : Near (Go.check c e : Go σ Unit) := by
  cases c
  · exact throw _
  · exact pure _
theorem getBind {f : σ → Go σ β} (h1 : ∀ s, Near (f s)) (h2 : ∀ s t, f (ext s t) = f s) :
    Near ((Go.get : Go σ σ) >>= f) := by
  intro s hp
  obtain ⟨h3, h4, h5⟩ := h1 s s hp
  rw [Go.bind_ok (Go.get_apply s)]
  refine ⟨h3, h4, fun t => ?_⟩
  rw [Go.bind_ok (Go.get_apply _), h2]
  exact h5 t
theorem orPanic : ∀ x : Option α, Near (Video.orPanic x : Go σ α)
  | some _ => pure _
  | none => panic
theorem ignoreErr {m : Go σ α} (h : Near m) : Near (Go.ignoreErr m) := by
  have : Go.ignoreErr m = handle m (fun _ => Pure.pure ()) fun _ => Pure.pure () := by
    funext s
    unfold Go.ignoreErr handle
    cases m s with | mk r s' => cases r <;> rfl
  rw [this]
  exact byHandle h (fun _ => pure _) fun _ => pure _
/-- a function of the state -/
theorem byState {m : σ → Go σ α} (h1 : ∀ s, Near (m s)) (h2 : ∀ s t, m (ext s t) = m s) : Near (fun s => m s s) := by
  have : (fun s => m s s) = ((Go.get : Go σ σ) >>= m) := by
    funext s
    rw [Go.bind_ok (Go.get_apply s)]
  rw [this]
  exact getBind h1 h2
end Near

/-- `m'` does what `m` does; where `m` runs out of fuel, `m'` goes on -/
def LeN {σ α : Type} [HasBR σ] (m m' : Go σ α) : Prop := ∀ s, (br s).Plain → m' s = m s ∨
  ((m s).1 = .hang ∧ (br (m' s).2).bits.length ≤ (br (m s).2).bits.length)

namespace LeN
variable {σ α β : Type} [HasBR σ]
theorem refl (m : Go σ α) : LeN m m := fun _ _ => .inl rfl
theorem hang {m : Go σ α} (h : Near m) : LeN Go.hang m := fun s hp => .inr ⟨rfl, (h s hp).2.1⟩
theorem bind {m m' : Go σ α} {f f' : α → Go σ β} (nm : Near m) (nm' : Near m') (hm : LeN m m') (hf : ∀ a, LeN (f a) (f' a))
    (nf' : ∀ a, Near (f' a)) : LeN (m >>= f) (m' >>= f') := by
  intro s hp
  have hb := (Near.bind (f := f') (m := m') nm' nf')
  rcases hm s hp with h1 | ⟨h1, h2⟩
  · cases hx : m s with
    | mk r s' =>
      rw [hx] at h1
      have hp' := (nm s hp).1
      rw [hx] at hp'
      cases r with
      | ok a => rw [Go.bind_ok hx, Go.bind_ok h1]; exact hf a s' hp'
      | err e => rw [Go.bind_err hx, Go.bind_err h1]; exact .inl rfl
      | panic => rw [Go.bind_panic hx, Go.bind_panic h1]; exact .inl rfl
      | hang => rw [Go.bind_hang hx, Go.bind_hang h1]; exact .inl rfl
  · right
    cases hx : m s with
    | mk r s' =>
      rw [hx] at h1 h2
      cases h1
      rw [Go.bind_hang hx]
      refine ⟨rfl, ?_⟩
      cases hy : m' s with
      | mk r' s'' =>
        have hp' := (nm' s hp).1
        rw [hy] at h2 hp'
        cases r' with
        | ok a => rw [Go.bind_ok hy]; exact Nat.le_trans (nf' a s'' hp').2.1 h2
        | err e => rw [Go.bind_err hy]; exact h2
        | panic => rw [Go.bind_panic hy]; exact h2
        | hang => rw [Go.bind_hang hy]; exact h2
theorem ite {c : Prop} [Decidable c] {m m' n n' : Go σ α} (hm : LeN m m') (hn : LeN n n') :
    LeN (if c then m else n) (if c then m' else n') := by split <;> assumption
end LeN

/-- a loop that takes its fuel from the input -/
theorem Near.fuel {σ α : Type} [HasBR σ] {loop : Nat → Go σ α} {F : σ → Nat} (h : ∀ f, Near (loop f))
    (hle : ∀ f f', f ≤ f' → LeN (loop f) (loop f')) (hF : ∀ s t, F s ≤ F (ext s t)) (hn : ∀ s, (loop (F s) s).1 ≠ .hang) :
    Near (fun s => loop (F s) s) := by
  intro s hp
  obtain ⟨h1, h2, h3⟩ := h (F s) s hp
  refine ⟨h1, h2, fun t => ?_⟩
  show NR t (loop (F s) s) (loop (F (ext s t)) (ext s t))
  rcases hle _ _ (hF s t) (ext s t) (plain_ext t hp) with h4 | ⟨h4, h5⟩
  · rw [h4]; exact h3 t
  · rcases h3 t with h6 | h6
    · rw [h6] at h4; exact absurd h4 (hn s)
    · exact .inr ⟨Nat.lt_of_le_of_lt h5 h6.1, h6.2⟩

/-! ### the bit reader -/

namespace BR
theorem near_fail {α : Type} {s : BR} (hp : s.Plain) (r : Res α) :
    ((br (r, s.failTo).2).Plain ∧ (br (r, s.failTo).2).bits.length ≤ s.bits.length) :=
  ⟨plain_failTo hp, by show s.failTo.bits.length ≤ _; rw [failTo_bits hp]; exact Nat.zero_le _⟩
theorem failTo_len {s : BR} (hp : s.Plain) : s.failTo.bits.length = 0 := by rw [failTo_bits hp]; rfl
theorem near_adv {s : BR} (hp : s.Plain) (k : Nat) : (s.adv k).Plain ∧ (s.adv k).bits.length ≤ s.bits.length :=
  ⟨hp, by show (s.bits.drop k).length ≤ _; rw [List.length_drop]; omega⟩
theorem failTo_ext_len {s : BR} (hp : s.Plain) (t : List Bool) : (s.ext t).failTo.bits.length < t.length + 32 := by
  rw [failTo_bits (show (s.ext t).Plain from hp)]; show 0 < _; omega
theorem adv_ext_len {s : BR} {k : Nat} (h : s.bits.length < k) (t : List Bool) :
    ((s.ext t).adv k).bits.length < t.length + 32 := by
  show ((s.bits ++ t).drop k).length < _
  rw [List.length_drop, List.length_append]; omega

theorem near_read (k : Nat) : Near (read k) := by
  intro s hp
  by_cases h : k ≤ s.bits.length
  · rw [read_ok h]
    refine ⟨(near_adv hp k).1, (near_adv hp k).2, fun t => .inl ?_⟩
    show read k (s.ext t) = _
    rw [read_ok (by simp [BR.ext]; omega), adv_ext h]
    simp [BR.ext, List.take_append_of_le_length h, HasBR.ext]
  · rw [read_short (by omega)]
    refine ⟨(near_fail hp (.ok ())).1, (near_fail hp (.ok ())).2, fun t => .inr ⟨?_, failTo_len hp⟩⟩
    show (read k (s.ext t)).2.bits.length < _
    by_cases h' : k ≤ (s.ext t).bits.length
    · rw [read_ok h']; exact adv_ext_len (by omega) t
    · rw [read_short (by omega)]; exact failTo_ext_len hp t
theorem near_peek {k : Nat} (hk : k ≤ 32) : Near (peek k) := by
  intro s hp
  by_cases h : k ≤ s.bits.length
  · rw [peek_ok h]
    refine ⟨hp, Nat.le_refl _, fun t => .inl ?_⟩
    show peek k (s.ext t) = _
    rw [peek_ok (by simp [BR.ext]; omega)]
    simp [BR.ext, List.take_append_of_le_length h, HasBR.ext]
  · rw [peek_short (by omega)]
    refine ⟨(near_fail hp (.ok ())).1, (near_fail hp (.ok ())).2, fun t => .inr ⟨?_, failTo_len hp⟩⟩
    show (peek k (s.ext t)).2.bits.length < _
    by_cases h' : k ≤ (s.ext t).bits.length
    · rw [peek_ok h']
      show (s.bits ++ t).length < _
      rw [List.length_append]; omega
    · rw [peek_short (by omega)]; exact failTo_ext_len hp t
theorem near_skip (k : Nat) : Near (skip k) := by
  intro s hp
  by_cases h : k ≤ s.bits.length
  · rw [skip_ok h]
    refine ⟨(near_adv hp k).1, (near_adv hp k).2, fun t => .inl ?_⟩
    show skip k (s.ext t) = _
    rw [skip_ok (by simp [BR.ext]; omega), adv_ext h]
    rfl
  · rw [skip_short (by omega)]
    refine ⟨(near_fail hp (.ok ())).1, (near_fail hp (.ok ())).2, fun t => .inr ⟨?_, failTo_len hp⟩⟩
    show (skip k (s.ext t)).2.bits.length < _
    by_cases h' : k ≤ (s.ext t).bits.length
    · rw [skip_ok h']; exact adv_ext_len (by omega) t
    · rw [skip_short (by omega)]; exact failTo_ext_len hp t
theorem near_read1 : Near read1 := by
  intro s hp
  cases hb : s.bits with
  | nil =>
    rw [read1_short (by simp [hb])]
    refine ⟨(near_fail hp (.ok ())).1, (near_fail hp (.ok ())).2, fun t => .inr ⟨?_, failTo_len hp⟩⟩
    show (read1 (s.ext t)).2.bits.length < _
    cases t with
    | nil =>
      rw [read1_short (by simp [BR.ext, hb])]
      exact failTo_ext_len hp []
    | cons b l =>
      have h2 : read1 (s.ext (b :: l)) = (.ok b, (s.ext (b :: l)).adv 1) := by simp [read1, BR.ext, hb]
      rw [h2]
      exact adv_ext_len (by rw [hb]; decide) _
  | cons b l =>
    have h1 : read1 s = (.ok b, s.adv 1) := by simp [read1, hb]
    rw [h1]
    refine ⟨(near_adv hp 1).1, (near_adv hp 1).2, fun t => .inl ?_⟩
    have h2 : read1 (s.ext t) = (.ok b, (s.ext t).adv 1) := by simp [read1, BR.ext, hb]
    show read1 (s.ext t) = _
    rw [h2, adv_ext (by simp [hb])]; rfl
theorem near_align : Near align := by
  intro s hp
  unfold align
  refine ⟨(near_adv hp _).1, (near_adv hp _).2, fun t => ?_⟩
  by_cases h : (8 - s.pos % 8) % 8 ≤ s.bits.length
  · left
    show ((.ok (), (s.ext t).adv ((8 - s.pos % 8) % 8)) : Res Unit × BR) = _
    rw [adv_ext h]; rfl
  · exact .inr ⟨adv_ext_len (k := (8 - s.pos % 8) % 8) (by omega) t, by
      show (s.bits.drop ((8 - s.pos % 8) % 8)).length = 0
      rw [List.length_drop]; omega⟩
theorem near_codeAssert {k : Nat} (hk : k ≤ 32) (v : Nat) (e : Err) : Near (codeAssert k v e) := by
  unfold codeAssert codeCheck
  exact .bind (.bind (near_peek hk) fun _ => .pure _) fun _ => .bind .check fun _ => near_skip _
end BR

namespace Video
open _root_.Mpeg.BR

theorem near_vlift {α : Type} {m : Go BR α} (h : Near m) : Near (VS.lift m) := by
  intro s hp
  obtain ⟨h1, h2, h3⟩ := h s.br hp
  refine ⟨h1, h2, fun t => (h3 t).imp (fun h4 => ?_) id⟩
  unfold VS.lift
  show ((m (s.br.ext t)).1, { s with br := (m (s.br.ext t)).2 }) = _
  rw [show m (s.br.ext t) = _ from h4]; rfl
theorem near_mlift {α : Type} {m : Go BR α} (h : Near m) : Near (MB.lift m) := by
  intro s hp
  obtain ⟨h1, h2, h3⟩ := h s.br hp
  refine ⟨h1, h2, fun t => (h3 t).imp (fun h4 => ?_) id⟩
  unfold MB.lift
  show ((m (s.br.ext t)).1, { s with br := (m (s.br.ext t)).2 }) = _
  rw [show m (s.br.ext t) = _ from h4]; rfl

theorem near_alignIfNeeded : Near alignIfNeeded := by
  have h : alignIfNeeded = fun s => (if s.isAligned then (pure () : Go BR Unit) else BR.align) s := by
    funext s; unfold alignIfNeeded; split <;> rfl
  rw [h]
  exact Near.byState (m := fun s => if s.isAligned then (pure () : Go BR Unit) else BR.align)
    (fun s => .ite (.pure _) near_align) fun _ _ => rfl

end Video
end Mpeg
