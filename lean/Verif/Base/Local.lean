/-
Calls that do not look at what follows the bits they consume.
-/
import Verif.Base.Meta
import Verif.Base.StartCode
set_option linter.all false
namespace Mpeg

/-- One segment of whole bytes, whatever its end. -/
def BR.Bytes (s : BR) : Prop := s.later = [] ∧ (s.pos + s.bits.length) % 8 = 0
/-- Nothing is left. -/
def BR.Dead (s : BR) : Prop := s.later = [] ∧ s.bits = []

/-- A state with a source in it. -/
structure SrcLens (σ : Type) where
  get : σ → BR
  put : σ → BR → σ
/-- The source alone. -/
def SrcLens.self : SrcLens BR := ⟨id, fun _ b => b⟩

theorem adv_add (s : BR) (j k : Nat) : (s.adv j).adv k = s.adv (j + k) := by simp [BR.adv, List.drop_drop]; omega

section
variable {σ α β : Type} {S : SrcLens σ} {p q : Nat}

/-- What a successful call from `s` to `s'` amounts to: it consumed bits that were there, and every source that begins with these bits,
and with the `p` bits that follow them, makes the call do the same. -/
def Local (S : SrcLens σ) (p : Nat) (m : Go σ α) (s : σ) (a : α) (s' : σ) : Prop :=
  ∃ k, k ≤ (S.get s).bits.length ∧ S.get s' = (S.get s).adv k ∧
    ∀ b : BR, b.pos = (S.get s).pos → (S.get s).bits.take (k + p) <+: b.bits → m (S.put s b) = (.ok a, S.put s' (b.adv k))

/-- From states with `I`, a call that succeeds ends in a state with `J` and is local. -/
def Loc (S : SrcLens σ) (p : Nat) (I J : BR → Prop) (m : Go σ α) : Prop :=
  ∀ s a s', I (S.get s) → m s = (.ok a, s') → J (S.get s') ∧ Local S p m s a s'
/-- The same, or nothing is left. -/
def LocD (S : SrcLens σ) (p : Nat) (I J : BR → Prop) (m : Go σ α) : Prop :=
  ∀ s a s', I (S.get s) → m s = (.ok a, s') → (J (S.get s') ∧ Local S p m s a s') ∨ (S.get s').Dead

variable {I J K : BR → Prop}

theorem Local.mono {m : Go σ α} {s : σ} {a : α} {s' : σ} (h : Local S p m s a s') (hpq : p ≤ q) : Local S q m s a s' := by
  obtain ⟨k, h1, h2, h3⟩ := h
  refine ⟨k, h1, h2, fun b hb hp => h3 b hb (List.IsPrefix.trans ?_ hp)⟩
  exact List.take_prefix_take_left (by omega)
theorem Local.bind {m : Go σ α} {f : α → Go σ β} {s s' s'' : σ} {a : α} {b : β} (h1 : Local S p m s a s') (h2 : Local S q (f a) s' b s'')
    {c : Nat} (hc : (S.get s').pos + c ≤ (S.get s'').pos) (hpc : p ≤ c + q) : Local S q (m >>= f) s b s'' := by
  obtain ⟨k1, hk1, e1, l1⟩ := h1
  obtain ⟨k2, hk2, e2, l2⟩ := h2
  have hk2' : k1 + k2 ≤ (S.get s).bits.length := by
    rw [e1] at hk2
    simp only [BR.adv, List.length_drop] at hk2
    omega
  have hck : c ≤ k2 := by
    rw [e2] at hc
    simp only [BR.adv] at hc
    omega
  refine ⟨k1 + k2, hk2', by rw [e2, e1, adv_add], fun x hx hp => ?_⟩
  have hp1 : (S.get s).bits.take (k1 + p) <+: x.bits := List.IsPrefix.trans (List.take_prefix_take_left (by omega)) hp
  have hp2 : (S.get s').bits.take (k2 + q) <+: (x.adv k1).bits := by
    rw [e1]
    obtain ⟨r, hr⟩ := hp
    refine ⟨r, ?_⟩
    show ((S.get s).bits.drop k1).take (k2 + q) ++ r = x.bits.drop k1
    rw [← hr, List.drop_append_of_le_length (by rw [List.length_take]; omega), List.drop_take]
    congr 2
    omega
  rw [Go.bind_ok (l1 x hx hp1), l2 (x.adv k1) (by rw [e1]; simp [BR.adv, hx]) hp2, adv_add]

theorem Loc.mono {m : Go σ α} (h : Loc S p I J m) (hpq : p ≤ q) : Loc S q I J m :=
  fun s a s' hi hm => ⟨(h s a s' hi hm).1, (h s a s' hi hm).2.mono hpq⟩

/-- Setting a source and setting it again is setting it; what is set is found. -/
structure SrcLens.Ok (S : SrcLens σ) : Prop where
  put_get : ∀ s, S.put s (S.get s) = s
theorem SrcLens.self_ok : SrcLens.self.Ok := ⟨fun _ => rfl⟩

theorem Local.pure (a : α) (s : σ) : Local S 0 (Pure.pure a : Go σ α) s a s :=
  ⟨0, by omega, by simp [BR.adv], fun b _ _ => by simp [BR.adv]⟩
theorem Loc.pure (a : α) : Loc S 0 I I (Pure.pure a : Go σ α) := fun s b s' hi h => by
  simp only [Go.pure_apply, Prod.mk.injEq, Res.ok.injEq] at h
  obtain ⟨rfl, rfl⟩ := h
  exact ⟨hi, Local.pure _ _⟩
theorem Loc.throw (e : Err) : Loc S p I J (Go.throw e : Go σ α) := fun s b s' hi h => by simp at h
theorem Loc.panic : Loc S p I J (Go.panic : Go σ α) := fun s b s' hi h => by simp at h
/-- the second call consumes what the first has looked at -/
theorem Loc.bindC {m : Go σ α} {f : α → Go σ β} (hm : Loc S p I J m) (hf : ∀ a, Loc S q J K (f a)) {c : Nat}
    (hc : ∀ a s b s', J (S.get s) → f a s = (.ok b, s') → (S.get s).pos + c ≤ (S.get s').pos) (hpc : p ≤ c + q) : Loc S q I K (m >>= f) := by
  intro s b s'' hi h
  obtain ⟨a, s', h1, h2⟩ := Go.bind_eq_ok h
  obtain ⟨hj, e1⟩ := hm s a s' hi h1
  obtain ⟨hk, e2⟩ := hf a s' b s'' hj h2
  exact ⟨hk, e1.bind e2 (hc a s' b s'' hj h2) hpc⟩
theorem Local.pos {m : Go σ α} {s s' : σ} {a : α} (h : Local S p m s a s') : (S.get s).pos ≤ (S.get s').pos := by
  obtain ⟨k, _, e, _⟩ := h
  rw [e]; simp [BR.adv]
theorem Loc.bindL {m : Go σ α} {f : α → Go σ β} (hm : Loc S p I J m) (hf : ∀ a, Loc S q J K (f a)) (hpq : p ≤ q) : Loc S q I K (m >>= f) :=
  hm.bindC hf (c := 0) (fun a s b s' hj h => (hf a s b s' hj h).2.pos) (by omega)
theorem Loc.bind {m : Go σ α} {f : α → Go σ β} (hm : Loc S 0 I J m) (hf : ∀ a, Loc S q J K (f a)) : Loc S q I K (m >>= f) :=
  hm.bindL hf (by omega)
theorem Loc.bindD {m : Go σ α} {f : α → Go σ β} (hm : Loc S 0 I J m) (hf : ∀ a, LocD S q J K (f a)) : LocD S q I K (m >>= f) := by
  intro s b s'' hi h
  obtain ⟨a, s', h1, h2⟩ := Go.bind_eq_ok h
  obtain ⟨hj, e1⟩ := hm s a s' hi h1
  rcases hf a s' b s'' hj h2 with ⟨hk, e2⟩ | hd
  · exact .inl ⟨hk, e1.bind e2 (c := 0) e2.pos (by omega)⟩
  · exact .inr hd
theorem LocD.kill {m : Go σ α} {f : α → Go σ β} (hm : LocD S 0 I J m) (hf : ∀ a, Loc S q J K (f a))
    (hd : ∀ a s b s', (S.get s).Dead → f a s ≠ (.ok b, s')) : Loc S q I K (m >>= f) := by
  intro s b s'' hi h
  obtain ⟨a, s', h1, h2⟩ := Go.bind_eq_ok h
  rcases hm s a s' hi h1 with ⟨hj, e1⟩ | h3
  · obtain ⟨hk, e2⟩ := hf a s' b s'' hj h2
    exact ⟨hk, e1.bind e2 (c := 0) e2.pos (by omega)⟩
  · exact absurd h2 (hd a s' b s'' h3)
theorem Loc.d {m : Go σ α} (hm : Loc S p I J m) : LocD S p I J m := fun s a s' hi h => .inl (hm s a s' hi h)
theorem Loc.weaken {I' J' : BR → Prop} {m : Go σ α} (hm : Loc S p I J m) (h1 : ∀ s, I' s → I s) (h2 : ∀ s, J s → J' s) : Loc S p I' J' m :=
  fun s a s' hi h => ⟨h2 _ (hm s a s' (h1 _ hi) h).1, (hm s a s' (h1 _ hi) h).2⟩
theorem Loc.opt {c : Bool} {d : α} {m : Go σ α} (hm : Loc S p I I m) : Loc S p I I (Go.opt c d m) := by
  cases c
  · exact (Loc.pure _).mono (Nat.zero_le _)
  · exact hm
theorem Loc.opt' {c : Bool} {d : α} {m : Go σ α} (hm : Loc S p I J m) (hij : ∀ s, I s → J s) : Loc S p I J (Go.opt c d m) := by
  cases c
  · exact ((Loc.pure (I := I) _).weaken (fun _ h => h) hij).mono (Nat.zero_le _)
  · exact hm
theorem Loc.check {c : Bool} {e : Err} : Loc S 0 I I (Go.check c e : Go σ Unit) := by
  cases c
  · exact Loc.throw _
  · exact Loc.pure _
theorem Loc.ite {c : Prop} [Decidable c] {m m' : Go σ α} (hm : Loc S p I J m) (hm' : Loc S p I J m') :
    Loc S p I J (if c then m else m') := by
  split
  · exact hm
  · exact hm'
theorem Loc.map {m : Go σ α} (f : α → β) (hm : Loc S p I J m) : Loc S p I J (f <$> m) := by
  rw [← bind_pure_comp]
  exact hm.bindL (fun a => (Loc.pure _).mono (Nat.zero_le _)) (Nat.le_refl _)

/-- a call on the source, as a call on the state -/
theorem Local.lift {m : Go BR α} {m' : Go σ β} {s s' : σ} {a : α} {b : β} (h : Local SrcLens.self p m (S.get s) a (S.get s'))
    (hm : ∀ x y, m x = (.ok a, y) → m' (S.put s x) = (.ok b, S.put s' y)) : Local S p m' s b s' := by
  obtain ⟨k, h1, h2, h3⟩ := h
  exact ⟨k, h1, h2, fun x hx hp => hm _ _ (h3 x hx hp)⟩
end

namespace BR

theorem bytes_adv {s : BR} (hs : s.Bytes) {k : Nat} (h : k ≤ s.bits.length) : (s.adv k).Bytes := by
  refine ⟨hs.1, ?_⟩
  have := hs.2
  show (s.pos + k + (s.bits.drop k).length) % 8 = 0
  rw [List.length_drop]
  omega

/-- `Bytes`, at `i` bits behind a byte boundary -/
def AtBit (i : Nat) (s : BR) : Prop := s.Bytes ∧ s.pos % 8 = i % 8
theorem at_adv {i : Nat} {s : BR} (hs : s.AtBit i) {k : Nat} (h : k ≤ s.bits.length) : (s.adv k).AtBit (i + k) :=
  ⟨bytes_adv hs.1 h, by
    have := hs.2
    show (s.pos + k) % 8 = (i + k) % 8
    omega⟩

/-- A kind of states that is kept by consuming bits that are there. -/
structure Kept (I J : BR → Prop) (k : Nat) : Prop where
  adv : ∀ {s : BR}, I s → k ≤ s.bits.length → J (s.adv k)
theorem kept_bytes (k : Nat) : Kept Bytes Bytes k := ⟨fun h h' => bytes_adv h h'⟩
theorem kept_at (i k : Nat) : Kept (AtBit i) (AtBit (i + k)) k := ⟨fun h h' => at_adv h h'⟩

variable {I J : BR → Prop} {k : Nat}

theorem take_of_prefix {s b : BR} {n : Nat} (hl : n ≤ s.bits.length) (h : s.bits.take n <+: b.bits) :
    n ≤ b.bits.length ∧ b.bits.take n = s.bits.take n := by
  obtain ⟨r, hr⟩ := h
  have hn : (s.bits.take n).length = n := by rw [List.length_take]; omega
  refine ⟨by rw [← hr]; simp; omega, ?_⟩
  rw [← hr, List.take_append_of_le_length (Nat.le_of_eq hn.symm), List.take_of_length_le (Nat.le_of_eq hn)]

theorem local_read {s : BR} (hl : k ≤ s.bits.length) : Local SrcLens.self 0 (read k) s (natOfBits (s.bits.take k)) (s.adv k) := by
  refine ⟨k, hl, rfl, fun b hb hp => ?_⟩
  obtain ⟨h1, h2⟩ := take_of_prefix (s := s) hl hp
  show read k b = (_, b.adv k)
  rw [read_ok h1, h2]
theorem loc_read (hk : Kept I J k) : Loc SrcLens.self 0 I J (read k) := by
  intro s a s' hi h
  unfold read at h
  split at h
  · rename_i hl
    simp only [Prod.mk.injEq, Res.ok.injEq] at h
    obtain ⟨rfl, rfl⟩ := h
    exact ⟨hk.adv hi hl, local_read hl⟩
  · simp at h
theorem loc_peek : Loc SrcLens.self k I I (peek k) := by
  intro s a s' hi h
  unfold peek at h
  split at h
  · rename_i hl
    simp only [Prod.mk.injEq, Res.ok.injEq] at h
    obtain ⟨rfl, rfl⟩ := h
    refine ⟨hi, 0, by omega, by simp [adv, SrcLens.self], fun b hb hp => ?_⟩
    obtain ⟨h1, h2⟩ := take_of_prefix (s := s) (n := k) hl (by simpa [SrcLens.self] using hp)
    show peek k b = (_, b.adv 0)
    rw [peek_ok h1, h2]
    simp [adv]
  · simp at h
theorem loc_skip (hk : Kept I J k) : Loc SrcLens.self 0 I J (skip k) := by
  intro s a s' hi h
  unfold skip at h
  split at h
  · rename_i hl
    simp only [Prod.mk.injEq, Res.ok.injEq] at h
    obtain ⟨_, rfl⟩ := h
    refine ⟨hk.adv hi hl, k, hl, rfl, fun b hb hp => ?_⟩
    exact skip_ok (take_of_prefix (s := s) hl hp).1
  · simp at h
theorem loc_read1 (hk : Kept I J 1) : Loc SrcLens.self 0 I J read1 := by
  intro s a s' hi h
  unfold read1 at h
  split at h
  · rename_i b l hb
    have hl : 1 ≤ s.bits.length := by rw [hb]; simp
    simp only [Prod.mk.injEq, Res.ok.injEq] at h
    obtain ⟨rfl, rfl⟩ := h
    refine ⟨hk.adv hi hl, 1, hl, rfl, fun b' hb' hp => ?_⟩
    obtain ⟨r, hr⟩ := hp
    have : b'.bits = b :: r := by rw [← hr]; simp [SrcLens.self, hb]
    show read1 b' = (_, b'.adv 1)
    simp [read1, this]
  · simp at h
/-- the bytes and no error -/
theorem readFull_loc (hk : Kept I J (8 * k)) {s : BR} {bs : List UInt8} {s' : BR} (hi : I s) (h : readFull k s = (.ok (bs, none), s')) :
    J s' ∧ Local SrcLens.self 0 (readFull k) s (bs, none) s' := by
  unfold readFull at h
  split at h
  · rename_i hl
    simp only [Prod.mk.injEq, Res.ok.injEq, and_true] at h
    obtain ⟨rfl, rfl⟩ := h
    refine ⟨hk.adv hi hl, 8 * k, hl, rfl, fun b hb hp => ?_⟩
    obtain ⟨h1, h2⟩ := take_of_prefix (s := s) hl hp
    show readFull k b = (_, b.adv (8 * k))
    rw [readFull_ok h1]
    have e : ∀ l : List Bool, 8 * k ≤ l.length → bytesOfBits k l = bytesOfBits k (l.take (8 * k)) := fun l hl => by
      have e := bytesOfBits_ext k (l.take (8 * k)) (l.drop (8 * k)) (by rw [List.length_take]; omega)
      rw [List.take_append_drop] at e
      exact e
    rw [e _ h1, h2, ← e _ hl]
  · simp at h

theorem not_read {n : Nat} (hn : 0 < n) {s : BR} (hs : s.Dead) (b : Nat) (s' : BR) : read n s ≠ (.ok b, s') := by
  rw [read_short (by rw [hs.2]; exact hn)]; simp
theorem not_peek {n : Nat} (hn : 0 < n) {s : BR} (hs : s.Dead) (b : Nat) (s' : BR) : peek n s ≠ (.ok b, s') := by
  rw [peek_short (by rw [hs.2]; exact hn)]; simp

theorem local_ignore_skip {s : BR} (hl : k ≤ s.bits.length) : Local SrcLens.self 0 (Go.ignoreErr (skip k)) s () (s.adv k) := by
  refine ⟨k, hl, rfl, fun b hb hp => ?_⟩
  have e := skip_ok (take_of_prefix (s := s) hl hp).1
  show Go.ignoreErr (skip k) b = _
  simp [Go.ignoreErr, e, SrcLens.self]
/-- the dropped error of `Skip` -/
theorem locD_skip : LocD SrcLens.self 0 Bytes Bytes (Go.ignoreErr (skip k)) := by
  intro s a s' hi h
  by_cases hl : k ≤ s.bits.length
  · left
    have e := skip_ok hl
    have : Go.ignoreErr (skip k) s = (.ok (), s.adv k) := by simp [Go.ignoreErr, e]
    rw [this] at h
    simp only [Prod.mk.injEq, Res.ok.injEq] at h
    obtain ⟨_, rfl⟩ := h
    exact ⟨bytes_adv hi hl, local_ignore_skip hl⟩
  · right
    have e := skip_short (s := s) (k := k) (by omega)
    have : Go.ignoreErr (skip k) s = (.ok (), s.failTo) := by simp [Go.ignoreErr, e]
    rw [this] at h
    simp only [Prod.mk.injEq] at h
    rw [← h.2]
    show s.failTo.Dead
    have h1 : s.later = [] := hi.1
    unfold failTo Dead
    rw [h1]
    simp [h1]
/-- the dropped error of `Skip`, when the bits are there -/
theorem loc_skip_there {i : Nat} (hi8 : (i + k) % 8 = 0) (hk : k < 8) : Loc SrcLens.self 0 (AtBit i) (AtBit (i + k)) (Go.ignoreErr (skip k)) := by
  intro s a s' hi h
  -- the rest of the byte is there, unless nothing is to be skipped
  have hl : k ≤ s.bits.length := by
    have h1 : (s.pos + s.bits.length) % 8 = 0 := hi.1.2
    have h2 : s.pos % 8 = i % 8 := hi.2
    omega
  have e := skip_ok hl
  have : Go.ignoreErr (skip k) s = (.ok (), s.adv k) := by simp [Go.ignoreErr, e]
  rw [this] at h
  simp only [Prod.mk.injEq, Res.ok.injEq] at h
  obtain ⟨_, rfl⟩ := h
  exact ⟨at_adv hi hl, local_ignore_skip hl⟩

/-- `Align`, if the rest of the byte is there -/
theorem loc_align : Loc SrcLens.self 0 Bytes (AtBit 0) align := by
  intro s a s' hi h
  unfold align at h
  simp only [Prod.mk.injEq, Res.ok.injEq, true_and] at h
  subst h
  have hl : (8 - s.pos % 8) % 8 ≤ s.bits.length := by
    have : (s.pos + s.bits.length) % 8 = 0 := hi.2
    omega
  refine ⟨⟨bytes_adv hi hl, ?_⟩, (8 - s.pos % 8) % 8, hl, rfl, fun b hb _ => ?_⟩
  · show (s.pos + (8 - s.pos % 8) % 8) % 8 = 0 % 8
    omega
  · have hb' : b.pos = s.pos := hb
    show align b = (.ok (), b.adv ((8 - s.pos % 8) % 8))
    unfold align
    rw [hb']

theorem at_bytes {i : Nat} {s : BR} (h : s.AtBit i) : s.Bytes := h.1
theorem at_mod {i j : Nat} (hij : i % 8 = j % 8) {s : BR} (h : s.AtBit i) : s.AtBit j := ⟨h.1, h.2.trans hij⟩

theorem skip_pos {s s' : BR} {a : Unit} (h : skip k s = (.ok a, s')) : s'.pos = s.pos + k := by
  unfold skip at h
  split at h
  · simp only [Prod.mk.injEq] at h
    rw [← h.2]; rfl
  · simp at h

theorem loc_check (code : Nat) : Loc SrcLens.self k I I (codeCheck k code) := loc_peek.bindL (fun _ => (Loc.pure _).mono (Nat.zero_le _)) (Nat.le_refl _)
theorem loc_assert (hk : Kept I J k) (code : Nat) (e : Err) : Loc SrcLens.self 0 I J (codeAssert k code e) :=
  (loc_check code).bindC (fun _ => Loc.check.bind fun _ => loc_skip hk) (c := k) (fun a s b s' _ h => by
    obtain ⟨_, s1, h1, h2⟩ := Go.bind_eq_ok h
    have : s1 = s := by
      revert h1
      cases a
      · simp [Go.check]
      · simp [Go.check]; exact fun h => h.symm
    subst this
    exact Nat.le_of_eq (skip_pos h2).symm) (by omega)

end BR
end Mpeg
