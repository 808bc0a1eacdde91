/-
The readers of macroblocks accept exactly the words of the syntax.
-/
import Verif.Video.SynSpec
import Verif.Video.AcceptLemmas
import Verif.Video.TermLemmas
import Verif.Video.SyncLemmas
import Verif.Video.RefLemmas5
set_option linter.all false
namespace Mpeg.Video
open Spec
open _root_.Mpeg.BR (Took)

/-! ### readers of languages -/

/-- `m` reads the words of the language `L` and nothing else: on a word (with 24 more bits behind it) it succeeds or panics,
and when it succeeds it has read a word.  `v` is what the language knows of the result. -/
structure Reads {σ α β : Type} (p : σ → BR) (m : Go σ α) (v : α → β) (L : List Bool → β → Prop) : Prop where
  fwd : ∀ l b s r, L l b → (p s).bits = l ++ r → 24 ≤ r.length →
    (m s).1 = .panic ∨ ∃ a s', m s = (.ok a, s') ∧ v a = b ∧ Took (p s) l (p s')
  bwd : ∀ s a s', m s = (.ok a, s') → ∃ l, L l (v a) ∧ Took (p s) l (p s')

namespace Reads
variable {σ α β γ δ : Type} {p : σ → BR}

theorem took_split {s s' : BR} {l l' r : List Bool} (h : Took s l s') (hb : s.bits = (l ++ l') ++ r) : s'.bits = l' ++ r := by
  have := h.bits
  rw [hb, List.append_assoc] at this
  exact (List.append_cancel_left this).symm

theorem bind_panic' {m : Go σ α} {f : α → Go σ γ} {s : σ} (h : (m s).1 = .panic) : ((m >>= f) s).1 = .panic := by
  rw [Go.bind_panic (s' := (m s).2) (Prod.ext h rfl)]

theorem bind {m : Go σ α} {f : α → Go σ γ} {v : α → β} {w : γ → δ} {L : List Bool → β → Prop}
    {K : β → List Bool → δ → Prop} (hm : Reads p m v L) (hf : ∀ a, (∃ l, L l (v a)) → Reads p (f a) w (K (v a))) :
    Reads p (m >>= f) w (fun l d => ∃ l1 l2 b, l = l1 ++ l2 ∧ L l1 b ∧ K b l2 d) := by
  constructor
  · rintro l d s r ⟨l1, l2, b, rfl, h1, h2⟩ hb hr
    rcases hm.fwd l1 b s (l2 ++ r) h1 (by rw [hb, List.append_assoc]) (by rw [List.length_append]; omega) with
      h | ⟨a, s', h, rfl, t⟩
    · exact .inl (bind_panic' h)
    · rw [Go.bind_ok h]
      rcases (hf a ⟨l1, h1⟩).fwd l2 d s' r h2 (took_split t hb) hr with h' | ⟨c, s'', h', e, t'⟩
      · exact .inl h'
      · exact .inr ⟨c, s'', h', e, t.trans t'⟩
  · intro s c s'' h
    obtain ⟨a, s', h1, h2⟩ := Go.bind_eq_ok h
    obtain ⟨l1, k1, t1⟩ := hm.bwd _ _ _ h1
    obtain ⟨l2, k2, t2⟩ := (hf a ⟨l1, k1⟩).bwd _ _ _ h2
    exact ⟨l1 ++ l2, ⟨l1, l2, v a, rfl, k1, k2⟩, t1.trans t2⟩

theorem seq {m : Go σ α} {f : α → Go σ γ} {v : α → β} {w : γ → δ} {L : List Bool → β → Prop}
    {K : List Bool → δ → Prop} (hm : Reads p m v L) (hf : ∀ a, (∃ l, L l (v a)) → Reads p (f a) w K) :
    Reads p (m >>= f) w (fun l d => ∃ l1 l2 b, l = l1 ++ l2 ∧ L l1 b ∧ K l2 d) :=
  bind (K := fun _ => K) hm hf

theorem bindId {m : Go σ α} {f : α → Go σ γ} {w : γ → δ} {L : List Bool → α → Prop}
    {K : α → List Bool → δ → Prop} (hm : Reads p m id L) (hf : ∀ a, (∃ l, L l a) → Reads p (f a) w (K a)) :
    Reads p (m >>= f) w (fun l d => ∃ l1 l2 b, l = l1 ++ l2 ∧ L l1 b ∧ K b l2 d) :=
  bind (K := K) hm hf

theorem congr {m : Go σ α} {v : α → β} {L L' : List Bool → β → Prop} (hm : Reads p m v L) (h : ∀ l b, L l b ↔ L' l b) :
    Reads p m v L' :=
  ⟨fun l b s r hl => hm.fwd l b s r ((h l b).mpr hl), fun s a s' hs => by
    obtain ⟨l, hl, t⟩ := hm.bwd s a s' hs
    exact ⟨l, (h l _).mp hl, t⟩⟩

/-- Forgetting the result. -/
theorem forget {m : Go σ α} {v : α → β} {L : List Bool → β → Prop} (hm : Reads p m v L) :
    Reads p m (fun _ => ()) (fun l _ => ∃ b, L l b) :=
  ⟨fun l b s r ⟨b, hl⟩ h1 h2 => by
    rcases hm.fwd l b s r hl h1 h2 with h | ⟨a, s', h, _, t⟩
    · exact .inl h
    · exact .inr ⟨a, s', h, rfl, t⟩,
   fun s a s' hs => by
    obtain ⟨l, hl, t⟩ := hm.bwd s a s' hs
    exact ⟨l, ⟨_, hl⟩, t⟩⟩

/-- A call that does not touch the reader. -/
theorem silent {m : Go σ α} (h : ∀ s, (m s).1 = .panic ∨ ∃ a s', m s = (.ok a, s') ∧ p s' = p s) :
    Reads p m (fun _ => ()) (fun l _ => l = []) := by
  constructor
  · rintro l b s r rfl hb hr
    rcases h s with h | ⟨a, s', h, e⟩
    · exact .inl h
    · exact .inr ⟨a, s', h, rfl, by rw [e]; exact .refl _⟩
  · intro s a s' hs
    rcases h s with h | ⟨a', s'', h, e⟩
    · rw [hs] at h; cases h
    · rw [hs] at h; cases h
      exact ⟨[], rfl, by rw [e]; exact .refl _⟩

theorem modify {f : σ → σ} (h : ∀ s, p (f s) = p s) : Reads p (Go.modify f) (fun _ => ()) (fun l _ => l = []) :=
  silent fun s => .inr ⟨(), f s, rfl, h s⟩

theorem pure (v : α → β) (a : α) : Reads p (pure a : Go σ α) v (fun l b => l = [] ∧ b = v a) := by
  constructor
  · rintro l b s r ⟨rfl, rfl⟩ hb hr
    exact .inr ⟨a, s, rfl, rfl, .refl _⟩
  · intro s a' s' hs
    cases hs
    exact ⟨[], ⟨rfl, rfl⟩, .refl _⟩

theorem panic (v : α → β) (L : List Bool → β → Prop) : Reads p (Go.panic : Go σ α) v L :=
  ⟨fun _ _ _ _ _ _ _ => .inl rfl, fun _ _ _ h => by cases h⟩

theorem opt {c : Bool} {d : α} {m : Go σ α} {v : α → β} {L : List Bool → β → Prop} (h : Reads p m v L) :
    Reads p (Go.opt c d m) v (fun l b => if c then L l b else l = [] ∧ b = v d) := by
  cases c with
  | true => exact h.congr fun l b => by simp
  | false => exact (Reads.pure v d).congr fun l b => by simp

theorem orPanic_bind {x : Option α} {f : α → Go σ γ} {w : γ → δ} {K : List Bool → δ → Prop}
    (h : ∀ a, x = some a → Reads p (f a) w K) : Reads p (orPanic x >>= f) w K := by
  cases x with
  | none => exact ⟨fun _ _ _ _ _ _ _ => .inl rfl, fun _ _ _ h => by cases h⟩
  | some a => exact h a rfl

theorem get_bind {f : σ → Go σ γ} {w : γ → δ} {K : List Bool → δ → Prop} (h : ∀ s, Reads p (f s) w K) :
    Reads p (Go.get >>= f) w K :=
  ⟨fun l b s r => (h s).fwd l b s r, fun s a s' hs => (h s).bwd s a s' hs⟩

theorem lift {m : Go BR α} {v : α → β} {L : List Bool → β → Prop} (h : Reads id m v L) : Reads MB.br (MB.lift m) v L := by
  constructor
  · intro l b s r hl hb hr
    rcases h.fwd l b s.br r hl hb hr with h1 | ⟨a, s', h1, e, t⟩
    · exact .inl h1
    · exact .inr ⟨a, _, mlift_run h1, e, t⟩
  · intro s a s' hs
    exact h.bwd _ _ _ (mlift_inv hs)

/-- On every word it panics, and it never succeeds. -/
theorem never {m : Go σ α} {v : α → β} {L : List Bool → β → Prop}
    (h1 : ∀ l b s r, L l b → (p s).bits = l ++ r → 24 ≤ r.length → (m s).1 = .panic)
    (h2 : ∀ s a s', m s ≠ (.ok a, s')) : Reads p m v L :=
  ⟨fun l b s r a b c => .inl (h1 l _ s r a b c), fun s a s' h => absurd h (h2 s a s')⟩

end Reads

/-! ### leaves -/

theorem took_of {s : BR} {l r : List Bool} (h : s.bits = l ++ r) : Took s l (s.adv l.length) := by
  have := BR.took_adv (s := s) (k := l.length) (by rw [h]; simp)
  rwa [h, List.take_left'] at this
  rfl

theorem reads_read (k : Nat) : Reads id (BR.read k) id (fun l v => l.length = k ∧ v = natOfBits l) := by
  constructor
  · rintro l b s r ⟨rfl, rfl⟩ hb hr
    have hb : s.bits = l ++ r := hb
    refine .inr ⟨natOfBits l, s.adv l.length, ?_, rfl, took_of hb⟩
    rw [BR.read_ok (by rw [hb]; simp), hb, List.take_left' rfl]
  · intro s a s' h
    obtain ⟨l, t, h1, h2⟩ := BR.read_inv h
    exact ⟨l, ⟨h1, h2⟩, t⟩

theorem reads_read1 : Reads id BR.read1 id (fun l v => l = [v]) := by
  constructor
  · rintro l b s r rfl hb hr
    have hb : s.bits = [b] ++ r := hb
    refine .inr ⟨b, s.adv 1, ?_, rfl, took_of hb⟩
    simp [BR.read1, hb]
  · intro s a s' h
    exact ⟨_, rfl, BR.read1_inv h⟩

theorem reads_huff {α : Type} {t : Table α} (ht : PrefixFree t) (hne : t ≠ []) :
    Reads id (huffDecode t) id (fun l v => (l, v) ∈ t) := by
  constructor
  · intro l b s r hm hb hr
    obtain ⟨bits, pos, stop, later⟩ := s
    dsimp only [id] at hb
    subst hb
    exact .inr ⟨b, _, huffDecode_code ht hm r pos stop later, rfl, ⟨rfl, rfl, rfl, rfl⟩⟩
  · intro s a s' h
    exact huffDecode_inv (PrefixFree.ne_nil ht) hne h

theorem reads_marker : Reads id markerBit (fun _ => ()) (fun l _ => l = [true]) := by
  constructor
  · rintro l b s r rfl hb hr
    have hb : s.bits = [true] ++ r := hb
    refine .inr ⟨(), s.adv 1, ?_, rfl, took_of hb⟩
    have : BR.read1 s = (.ok true, s.adv 1) := by simp [BR.read1, hb]
    unfold markerBit
    rw [Go.bind_ok this]; rfl
  · intro s a s' h
    exact ⟨_, rfl, markerBit_inv h⟩

theorem reads_mbType (pct : Nat) : Reads id (mbType pct) id (fun l v => (l, v) ∈ isoType pct) := by
  unfold mbType isoType
  by_cases h1 : pct = 1
  · rw [if_pos h1]
    exact (reads_huff pf_iType (by decide)).congr fun l b => by rw [if_pos h1]; exact same_iType _
  rw [if_neg h1]
  by_cases h2 : pct = 2
  · rw [if_pos h2]
    exact (reads_huff pf_pType (by decide)).congr fun l b => by rw [if_neg h1, if_pos h2]; exact same_pType _
  rw [if_neg h2]
  by_cases h3 : pct = 3
  · rw [if_pos h3]
    exact (reads_huff pf_bType (by decide)).congr fun l b => by rw [if_neg h1, if_neg h2, if_pos h3]; exact same_bType _
  rw [if_neg h3]
  exact .panic _ _

theorem reads_increment :
    Reads id mbIncrement (fun _ => ()) (fun l _ => ∃ k c v, l = escapes k ++ c ∧ (c, v) ∈ isoAddress) := by
  constructor
  · rintro l b s r ⟨k, c, v, rfl, hm⟩ hb hr
    obtain ⟨bits, pos, stop, later⟩ := s
    dsimp only [id] at hb
    subst hb
    have hm' : (c, v) ∈ addrTable := (same_addr _).2 hm
    have h := mbIncrement_run hm' (r := r) (by rw [List.length_append]; omega) k pos stop later
    rw [← List.append_assoc] at h
    exact .inr ⟨_, _, h, rfl, ⟨rfl, by simp only [id, List.length_append, escapes_length]; omega, rfl, rfl⟩⟩
  · intro s a s' h
    obtain ⟨k, c, v, _, hm, t⟩ := mbIncrement_inv h
    exact ⟨_, ⟨k, c, v, rfl, (same_addr _).1 hm⟩, t⟩

/-! ### vectors -/

theorem rSize_eq {f : Nat} (h1 : 1 ≤ f) (h2 : f ≤ 15) : rSize f = f - 1 := by unfold rSize; omega

theorem reads_motion {f : Nat} (h1 : 1 ≤ f) (h2 : f ≤ 15) :
    Reads id (readMotion f) (fun _ => ()) (fun l _ => PartWord f l) := by
  unfold readMotion
  refine (Reads.bind (K := fun code l _ => l.length = if f ≠ 1 ∧ code ≠ 0 then f - 1 else 0)
    (reads_huff pf_motion (by decide)) (w := fun _ => ()) fun code _ => ?_).congr ?_
  · refine (Reads.seq (reads_read (rSize f)).opt (w := fun _ => ()) fun r _ => Reads.pure (fun _ => ()) _).congr ?_
    intro l u
    rw [rSize_eq h1 h2]
    have hc : (f != 1 && code != 0) = decide (f ≠ 1 ∧ code ≠ 0) := by
      by_cases a : f = 1 <;> by_cases b : code = 0 <;> simp [a, b]
    rw [hc]
    dsimp only [id]
    by_cases h : f ≠ 1 ∧ code ≠ 0
    · rw [if_pos h, decide_eq_true h]
      constructor
      · rintro ⟨l1, l2, b, rfl, ⟨e, rfl⟩, rfl, -⟩
        simpa using e
      · intro hl
        exact ⟨l, [], _, by simp, ⟨hl, rfl⟩, rfl, rfl⟩
    · rw [if_neg h, decide_eq_false h]
      constructor
      · rintro ⟨l1, l2, b, rfl, hx, rfl, -⟩
        obtain ⟨rfl, -⟩ : l1 = [] ∧ b = 0 := by simpa using hx
        rfl
      · intro hl
        exact ⟨[], l, 0, by simp, by simp, List.length_eq_zero_iff.mp hl, rfl⟩
  · intro l u
    constructor
    · rintro ⟨c, r, code, rfl, hc, hr⟩
      exact .mk c r code ((same_motion _).1 hc) hr
    · rintro ⟨c, r, code, hc, hr⟩
      exact ⟨c, r, code, rfl, (same_motion _).2 hc, hr⟩

theorem reads_vector {e : PicEnv} (hf : CodesOK e) (info : MvInfo) (r s : Nat) (hs : s < 2) :
    Reads MB.br (motionVector e info r s) (fun _ => ())
      (fun l _ => VectorWord (e.pce.fCode s 0) (e.pce.fCode s 1) info.dmv l) := by
  have p0 := reads_motion (hf s hs 0 (by decide)).1 (hf s hs 0 (by decide)).2
  have p1 := reads_motion (hf s hs 1 (by decide)).1 (hf s hs 1 (by decide)).2
  unfold motionVector motionVectorPart
  cases hd : info.dmv with
  | true =>
    refine .never ?_ ?_
    · rintro l b st r' ⟨a, b, c, d, ha, hb, hc, hd⟩ hbits hr
      rcases (p0.lift).fwd a () st _ ha (by rw [hbits, List.append_assoc]) (by simp only [List.length_append]; omega) with
        h | ⟨x, s', h, _, t⟩
      · exact Reads.bind_panic' (Reads.bind_panic' h)
      · refine Reads.bind_panic' ?_
        rw [Go.bind_ok h]; rfl
    · intro st a s' h
      obtain ⟨_, s1, h1, -⟩ := Go.bind_eq_ok h
      obtain ⟨_, s2, h2, h3⟩ := Go.bind_eq_ok h1
      cases h3
  | false =>
    have part : ∀ t, t < 2 → Reads MB.br (do
        let c ← MB.lift (readMotion (e.pce.fCode s t))
        if false = true then Go.panic
        else Go.modify fun m =>
          { m with mvd := m.mvd.update r s t (e.pce.fCode s t) e.pce.pictureStructure info.field c.1 c.2 }) (fun _ => ())
        (fun l _ => PartWord (e.pce.fCode s t) l) := by
      intro t ht
      have p := reads_motion (hf s hs t ht).1 (hf s hs t ht).2
      refine (Reads.seq p.lift (K := fun l _ => l = []) fun c _ => by rw [if_neg (by decide)]; exact Reads.modify (by exact fun _ => rfl)).congr ?_
      intro l u
      constructor
      · rintro ⟨l1, l2, -, rfl, h, rfl⟩; simpa using h
      · intro h; exact ⟨l, [], (), by simp, h, rfl⟩
    refine (Reads.seq (part 0 (by decide)) fun _ _ => part 1 (by decide)).congr ?_
    intro l u
    constructor
    · rintro ⟨l1, l2, -, rfl, ha, hb⟩
      simpa using VectorWord.mk l1 [] l2 [] ha (show DmvWord false [] from rfl) hb (show DmvWord false [] from rfl)
    · rintro ⟨a, b, c, d, ha, hb, hc, hd⟩
      cases hb; cases hd
      exact ⟨a, c, (), by simp, ha, hc⟩

theorem reads_vectors {e : PicEnv} (hf : CodesOK e) {m : Mode} {motion s : Nat} (hs : s < 2)
    (h : ∀ info, mvInfo e.pce.framePredFrameDCT m = some info →
      motionFormat (e.pce.pictureStructure == 3) motion = some (info.count, info.field && !info.dmv, info.dmv)) :
    Reads MB.br (motionVectors e s m) (fun _ => ()) (fun l _ => MotionWord e motion s l) := by
  unfold motionVectors
  refine Reads.orPanic_bind fun info hi => ?_
  have hfm := h info hi
  have hcount : info.count = 1 ∨ info.count = 2 ∧ info.field = true ∧ info.dmv = false := by
    unfold mvInfo at hi
    repeat' split at hi
    all_goals first | (cases hi; simp) | cases hi
  have sel : ∀ c : Bool, Reads MB.br (Go.opt c 0 (MB.lift (BR.read 1))) (fun _ => ())
      (fun l _ => l.length = if c then 1 else 0) := by
    intro c
    refine ((reads_read 1).lift.opt.forget).congr ?_
    intro l u
    cases c with
    | true => exact ⟨fun ⟨b, h, _⟩ => h, fun h => ⟨_, h, rfl⟩⟩
    | false =>
      constructor
      · rintro ⟨b, h⟩
        obtain ⟨rfl, -⟩ : l = [] ∧ b = 0 := by simpa using h
        rfl
      · intro h
        exact ⟨0, by simpa using h⟩
  have main : MotionWord e motion s = VectorsWord (e.pce.fCode s 0) (e.pce.fCode s 1) (info.field && !info.dmv) info.dmv
      info.count := by
    funext l
    unfold MotionWord
    rw [hfm]
    refine propext ⟨?_, fun h => ⟨_, _, _, rfl, h⟩⟩
    rintro ⟨n, se, du, h1, h2⟩
    cases h1
    exact h2
  have one : ∀ (k : Nat) (se : Bool) (l : List Bool), VectorsWord (e.pce.fCode s 0) (e.pce.fCode s 1) se info.dmv (k + 1) l ↔
      ∃ b v m, l = b ++ (v ++ m) ∧ b.length = (if se then 1 else 0) ∧
        VectorWord (e.pce.fCode s 0) (e.pce.fCode s 1) info.dmv v ∧
        VectorsWord (e.pce.fCode s 0) (e.pce.fCode s 1) se info.dmv k m := by
    intro k se l
    constructor
    · intro h
      cases h with
      | cons _ b v m hb hv t => exact ⟨b, v, m, rfl, hb, hv, t⟩
    · rintro ⟨b, v, m, rfl, hb, hv, t⟩
      exact .cons _ b v m hb hv t
  have nil : ∀ (se : Bool) (l : List Bool), VectorsWord (e.pce.fCode s 0) (e.pce.fCode s 1) se info.dmv 0 l ↔ l = [] := by
    intro se l
    constructor
    · intro h; cases h; rfl
    · rintro rfl; exact .nil
  rw [main]
  rcases hcount with h1 | ⟨h2, h3, h4⟩
  · rw [if_pos h1, h1]
    refine (Reads.seq (sel _) fun _ _ => reads_vector hf info 0 s hs).congr ?_
    intro l u
    rw [one]
    constructor
    · rintro ⟨l1, l2, -, rfl, a, b⟩
      exact ⟨l1, l2, [], by simp, a, b, .nil⟩
    · rintro ⟨b, v, m, rfl, hb, hv, t⟩
      rw [nil] at t; subst t
      exact ⟨b, v, (), by simp, hb, hv⟩
  · rw [if_neg (by omega), h2]
    have se : (info.field && !info.dmv) = true := by rw [h3, h4]; rfl
    rw [se]
    have rd := sel true
    refine (Reads.seq rd fun _ _ => Reads.seq (reads_vector hf info 0 s hs) fun _ _ => Reads.seq rd fun _ _ =>
      reads_vector hf info 1 s hs).congr ?_
    intro l u
    rw [one]
    constructor
    · rintro ⟨l1, l2, -, rfl, a, l3, l4, -, rfl, b, l5, l6, -, rfl, c, d⟩
      exact ⟨l1, l3, l5 ++ l6, rfl, a, b, (one 0 true _).2 ⟨l5, l6, [], by simp, c, d, .nil⟩⟩
    · rintro ⟨b, v, m, rfl, hb, hv, t⟩
      obtain ⟨b', v', m', rfl, hb', hv', t'⟩ := (one 0 true m).1 t
      rw [nil] at t'; subst t'
      exact ⟨b, v ++ (b' ++ v'), (), by simp, hb, v, b' ++ v', (), rfl, hv, b', v', (), rfl, hb', hv'⟩


/-! ### modes -/

/-- What the syntax knows of a mode. -/
def Mode.key (m : Mode) : MacroblockType × Nat × Nat := (m.type, m.frameMotion, m.fieldMotion)

/-- The bits of a mode. -/
def ModeWord (e : PicEnv) (l : List Bool) (b : MacroblockType × Nat × Nat) : Prop :=
  ∃ type motion dct, l = type ++ (motion ++ dct) ∧ (type, b.1) ∈ isoType e.ph.pictureCodingType ∧
    motion.length = (if (b.1.forward || b.1.backward) && motionCoded e then 2 else 0) ∧
    dct.length = (if e.pce.pictureStructure == 3 && e.pce.framePredFrameDCT == 0 && (b.1.intra || b.1.pattern) then 1 else 0) ∧
    b.2.1 = (if e.pce.pictureStructure = 3 then natOfBits motion else 0) ∧
    b.2.2 = (if e.pce.pictureStructure = 3 then 0 else natOfBits motion)

theorem reads_mode (e : PicEnv) : Reads id (macroblockMode e) Mode.key (ModeWord e) := by
  unfold macroblockMode
  have r2 : ∀ c : Bool, Reads id (Go.opt c 0 (BR.read 2)) id
      (fun l v => l.length = (if c then 2 else 0) ∧ v = natOfBits l) := by
    intro c
    refine (reads_read 2).opt.congr ?_
    intro l v
    cases c with
    | true => exact Iff.rfl
    | false =>
      simp only [Bool.false_eq_true, ↓reduceIte, id, List.length_eq_zero_iff]
      constructor
      · rintro ⟨rfl, rfl⟩; exact ⟨rfl, rfl⟩
      · rintro ⟨rfl, rfl⟩; exact ⟨rfl, rfl⟩
  have r1 : ∀ c : Bool, Reads id (Go.opt c false BR.read1) (fun _ => ())
      (fun l _ => l.length = (if c then 1 else 0)) := by
    intro c
    refine reads_read1.opt.forget.congr ?_
    intro l v
    cases c with
    | true =>
      constructor
      · rintro ⟨b, h⟩
        have h : l = [b] := by simpa using h
        rw [h]; rfl
      · intro h
        match l, h with
        | [b], _ => exact ⟨b, by simp⟩
    | false =>
      constructor
      · rintro ⟨b, h⟩
        obtain ⟨rfl, -⟩ : l = [] ∧ b = false := by simpa using h
        rfl
      · intro h
        exact ⟨false, by simpa using h⟩
  refine (Reads.bindId (reads_mbType _) fun t _ => Reads.bindId (r2 _) fun frm _ => Reads.bindId (r2 _) fun fld _ =>
    Reads.seq (r1 _) (K := fun l b => l = [] ∧ b = (t, frm, fld)) fun d _ => Reads.pure Mode.key _).congr ?_
  rintro l ⟨t, frm, fld⟩
  unfold ModeWord motionCoded
  dsimp only
  by_cases h3 : e.pce.pictureStructure = 3
  · have b3 : (e.pce.pictureStructure == framePicture) = true := by rw [h3]; rfl
    have b3' : (e.pce.pictureStructure == 3) = true := by rw [h3]; rfl
    have b4 : (e.pce.pictureStructure != framePicture) = false := by rw [h3]; rfl
    have b4' : (e.pce.pictureStructure != 3) = false := by rw [h3]; rfl
    simp only [b3, b3', b4, b4', Bool.and_true, Bool.true_and, Bool.and_false, Bool.false_or, if_pos h3, Bool.false_eq_true,
      ↓reduceIte]
    constructor
    · rintro ⟨l1, l2, t', rfl, h1, l3, l4, frm', rfl, ⟨h2, h2'⟩, l5, l6, fld', rfl, ⟨h4, h4'⟩, l7, l8, u, rfl, h5, rfl, h6⟩
      cases h6
      have : l5 = [] := List.length_eq_zero_iff.mp h4
      subst this
      exact ⟨l1, l3, l7, by simp, h1, h2, h5, h2', h4'⟩
    · rintro ⟨l1, l3, l7, rfl, h1, h2, h5, h2', h4'⟩
      exact ⟨l1, _, t, rfl, h1, l3, _, frm, rfl, ⟨h2, h2'⟩, [], l7, 0, rfl, ⟨rfl, rfl⟩, l7, [], (), by simp, h5, rfl,
        by rw [h4']⟩
  · have b3 : (e.pce.pictureStructure == framePicture) = false := by simpa using h3
    have b3' : (e.pce.pictureStructure == 3) = false := by simpa using h3
    have b4 : (e.pce.pictureStructure != framePicture) = true := by simpa using h3
    have b4' : (e.pce.pictureStructure != 3) = true := by simpa using h3
    simp only [b3, b3', b4, b4', Bool.and_true, Bool.true_and, Bool.and_false, Bool.false_and, Bool.true_or, if_neg h3,
      Bool.false_eq_true, ↓reduceIte]
    constructor
    · rintro ⟨l1, l2, t', rfl, h1, l3, l4, frm', rfl, ⟨h2, h2'⟩, l5, l6, fld', rfl, ⟨h4, h4'⟩, l7, l8, u, rfl, h5, rfl, h6⟩
      cases h6
      have : l3 = [] := List.length_eq_zero_iff.mp h2
      subst this
      exact ⟨l1, l5, l7, by simp, h1, h4, h5, h2', h4'⟩
    · rintro ⟨l1, l5, l7, rfl, h1, h4, h5, h2', h4'⟩
      exact ⟨l1, _, t, rfl, h1, [], _, 0, rfl, ⟨rfl, rfl⟩, l5, _, fld, rfl, ⟨h4, h4'⟩, l7, [], (), by simp, h5, rfl,
        by rw [h2']⟩

/-- The motion type of a mode. -/
def keyMotion (e : PicEnv) (b : MacroblockType × Nat × Nat) : Nat :=
  if (b.1.forward || b.1.backward) && motionCoded e then b.2.1 + b.2.2 else (if e.pce.pictureStructure = 3 then 2 else 1)

theorem keyMotion_eq {e : PicEnv} {b : MacroblockType × Nat × Nat} {motion : List Bool}
    (hl : motion.length = (if (b.1.forward || b.1.backward) && motionCoded e then 2 else 0))
    (h1 : b.2.1 = (if e.pce.pictureStructure = 3 then natOfBits motion else 0))
    (h2 : b.2.2 = (if e.pce.pictureStructure = 3 then 0 else natOfBits motion)) : keyMotion e b = motionType e motion := by
  unfold keyMotion motionType
  split
  · rename_i h
    rw [if_pos h] at hl
    rw [if_neg (by rintro rfl; cases hl), h1, h2]
    split <;> omega
  · rename_i h
    rw [if_neg h] at hl
    rw [if_pos (List.length_eq_zero_iff.mp hl)]

theorem mvInfo_format {e : PicEnv} (he : Plain e) {m : Mode} {l : List Bool} (hm : ModeWord e l m.key) {info : MvInfo}
    (h : mvInfo e.pce.framePredFrameDCT m = some info) :
    motionFormat (e.pce.pictureStructure == 3) (keyMotion e m.key) =
      some (info.count, info.field && !info.dmv, info.dmv) := by
  obtain ⟨type, motion, dct, -, -, hl, -, h1, h2⟩ := hm
  rw [keyMotion_eq hl h1 h2]
  have h1 : m.frameMotion = _ := h1
  have h2 : m.fieldMotion = _ := h2
  unfold mvInfo at h
  unfold motionType motionFormat
  have hlen : motion.length = 0 ∨ motion.length = 2 := by split at hl <;> omega
  rcases he.fpfd with h0 | ⟨h0, h3⟩
  · rw [if_neg (by omega)] at h
    rcases hlen with e0 | e2
    · have : motion = [] := List.length_eq_zero_iff.mp e0
      subst this
      have n0 : natOfBits [] = 0 := rfl
      rw [n0] at h1 h2
      have z1 : m.frameMotion = 0 := by rw [h1]; split <;> rfl
      have z2 : m.fieldMotion = 0 := by rw [h2]; split <;> rfl
      rw [z1, z2] at h
      cases h
    · have ne : motion ≠ [] := by rintro rfl; cases e2
      rw [if_neg ne]
      have hlt := natOfBits_lt motion
      rw [e2] at hlt
      by_cases h3 : e.pce.pictureStructure = 3
      · rw [if_pos h3] at h1 h2
        have b3 : (e.pce.pictureStructure == 3) = true := by rw [h3]; rfl
        rw [b3]
        rw [h1, h2] at h
        generalize natOfBits motion = x at h hlt ⊢
        have : x = 0 ∨ x = 1 ∨ x = 2 ∨ x = 3 := by omega
        rcases this with rfl | rfl | rfl | rfl <;> first | cases h; done | (cases h; rfl)
      · rw [if_neg h3] at h1 h2
        have b3 : (e.pce.pictureStructure == 3) = false := by simpa using h3
        rw [b3]
        rw [h1, h2] at h
        generalize natOfBits motion = x at h hlt ⊢
        have : x = 0 ∨ x = 1 ∨ x = 2 ∨ x = 3 := by omega
        rcases this with rfl | rfl | rfl | rfl <;> first | cases h; done | (cases h; rfl)
  · rw [if_pos h0] at h
    have mc : motionCoded e = false := by unfold motionCoded; rw [h0, h3]; rfl
    rw [mc, Bool.and_false] at hl
    have : motion = [] := List.length_eq_zero_iff.mp hl
    subst this
    cases h
    have b3 : (e.pce.pictureStructure == 3) = true := by rw [h3]; rfl
    rw [if_pos rfl, if_pos h3, b3]
    rfl

/-! ### the head of a macroblock -/

theorem reads_mbVectors {e : PicEnv} (he : Plain e) (m : Mode) (hm : ∃ l, ModeWord e l m.key) :
    Reads MB.br (mbVectors e m) (fun _ => ()) (fun l _ => ∃ q f b mark, l = q ++ (f ++ (b ++ mark)) ∧
      q.length = (if m.type.quant then 5 else 0) ∧
      (if m.type.forward || conceals e m.type then MotionWord e (keyMotion e m.key) 0 f else f = []) ∧
      (if m.type.backward then MotionWord e (keyMotion e m.key) 1 b else b = []) ∧
      mark = if conceals e m.type then [true] else []) := by
  obtain ⟨lm, hm⟩ := hm
  have vec : ∀ s < 2, Reads MB.br (motionVectors e s m) (fun _ => ()) (fun l _ => MotionWord e (keyMotion e m.key) s l) :=
    fun s hs => reads_vectors he.codes hs fun info h => mvInfo_format he hm h
  have q : Reads MB.br (Go.opt m.type.quant () do
      let q ← MB.lift (BR.read 5)
      Go.modify fun s => { s with qsc := q }) (fun _ => ()) (fun l _ => l.length = if m.type.quant then 5 else 0) := by
    have h : Reads MB.br (do
      let q ← MB.lift (BR.read 5)
      Go.modify fun s => { s with qsc := q } : Go MB Unit) (fun _ => ()) (fun l _ => l.length = 5) := by
      refine (Reads.seq (reads_read 5).lift (K := fun l _ => l = []) fun _ _ => Reads.modify (by exact fun _ => rfl)).congr ?_
      intro l u
      constructor
      · rintro ⟨l1, l2, b, rfl, ⟨h, -⟩, rfl⟩; simpa using h
      · intro h; exact ⟨l, [], _, by simp, ⟨h, rfl⟩, rfl⟩
    refine h.opt.congr ?_
    intro l u
    cases m.type.quant with
    | true => exact Iff.rfl
    | false => simp [List.length_eq_zero_iff]
  unfold mbVectors
  refine (Reads.seq q fun _ _ => Reads.seq (vec 0 (by decide)).opt fun _ _ => Reads.seq (vec 1 (by decide)).opt fun _ _ =>
    Reads.seq (Reads.modify (by exact fun _ => rfl)) fun _ _ => reads_marker.lift.opt).congr ?_
  intro l u
  have hx : ∀ (c : Bool) (P : Prop) (x : List Bool), (if c then P else x = [] ∧ u = ()) ↔ (if c then P else x = []) := by
    intro c P x; cases c <;> simp
  show (∃ l1 l2 b, l = l1 ++ l2 ∧ _ ∧ _) ↔ _
  unfold conceals
  constructor
  · rintro ⟨l1, l2, u1, rfl, h1, l3, l4, u2, rfl, h2, l5, l6, u3, rfl, h3, l7, l8, u4, rfl, rfl, h4⟩
    refine ⟨l1, l3, l5, l8, by simp, h1, (hx _ _ _).1 h2, (hx _ _ _).1 h3, ?_⟩
    have := (hx _ _ _).1 h4
    split at this
    · rename_i hc; rw [if_pos hc]; exact this
    · rename_i hc; rw [if_neg hc]; exact this
  · rintro ⟨l1, l3, l5, l8, rfl, h1, h2, h3, h4⟩
    refine ⟨l1, _, (), rfl, h1, l3, _, (), rfl, (hx _ _ _).2 h2, l5, _, (), rfl, (hx _ _ _).2 h3, [], l8, (), rfl, rfl,
      (hx _ _ _).2 ?_⟩
    split
    · rename_i hc; rw [if_pos hc] at h4; exact h4
    · rename_i hc; rw [if_neg hc] at h4; exact h4

theorem silent_copySkipped (e : PicEnv) (row : Nat) (addr : Option Nat) (incr : Nat) (s : MB) :
    (copySkipped e row addr incr s).1 = .panic ∨ ∃ a s', copySkipped e row addr incr s = (.ok a, s') ∧ s'.br = s.br := by
  unfold copySkipped
  have key : ∀ x : Option Frame, ((do let f ← orPanic x
                                      Go.modify fun s => { s with frame := f } : Go MB Unit) s).1 = .panic ∨
      ∃ a s', (do let f ← orPanic x
                  Go.modify fun s => { s with frame := f } : Go MB Unit) s = (.ok a, s') ∧ s'.br = s.br := by
    intro x
    cases x with
    | none => exact .inl rfl
    | some f => exact .inr ⟨(), _, rfl, rfl⟩
  cases addr with
  | none => exact .inr ⟨(), s, rfl, rfl⟩
  | some a =>
    dsimp only
    repeat' split
    · exact key _
    · exact key _
    · exact .inr ⟨(), s, rfl, rfl⟩
    · exact .inr ⟨(), s, rfl, rfl⟩

/-- A macroblock up to its coded_block_pattern. -/
def mbHead (e : PicEnv) (row : Nat) (addr : Option Nat) : Go MB (Nat × Mode) := do
  let incr ← MB.lift mbIncrement
  copySkipped e row addr incr
  skipResets e incr
  let m ← MB.lift (macroblockMode e)
  modeResets e m.type
  mbVectors e m
  pure (incr, m)

theorem macroblock_split (e : PicEnv) (row : Nat) (addr : Option Nat) :
    macroblock e row addr = mbHead e row addr >>= fun x => mbPattern e row (newAddress addr x.1) x.2 := by
  unfold macroblock mbHead
  simp only [bind_assoc, pure_bind]

theorem reads_head {e : PicEnv} (he : Plain e) (row : Nat) (addr : Option Nat) :
    Reads MB.br (mbHead e row addr) (fun x => x.2.type) (fun l t => HeadWord e t l) := by
  unfold mbHead
  refine (Reads.seq reads_increment.lift fun incr _ => Reads.seq (Reads.silent (silent_copySkipped e row addr incr)) fun _ _ =>
    Reads.seq (Reads.modify (by exact fun _ => rfl)) fun _ _ => Reads.bind (reads_mode e).lift
      (K := fun key l t => t = key.1 ∧ ∃ q f b mark, l = q ++ (f ++ (b ++ mark)) ∧
      q.length = (if key.1.quant then 5 else 0) ∧
      (if key.1.forward || conceals e key.1 then MotionWord e (keyMotion e key) 0 f else f = []) ∧
      (if key.1.backward then MotionWord e (keyMotion e key) 1 b else b = []) ∧
      mark = if conceals e key.1 then [true] else []) fun m hm => ?_).congr ?_
  · refine (Reads.seq (Reads.modify (by exact fun _ => rfl)) fun _ _ => Reads.seq (reads_mbVectors he m hm) fun _ _ =>
      Reads.pure (fun x : Nat × Mode => x.2.type) _).congr ?_
    intro l t
    constructor
    · rintro ⟨l1, l2, -, rfl, rfl, l3, l4, -, rfl, h, rfl, rfl⟩
      exact ⟨rfl, by rw [List.nil_append, List.append_nil]; exact h⟩
    · rintro ⟨rfl, h⟩
      exact ⟨[], l, (), rfl, rfl, l, [], (), by simp, h, rfl, rfl⟩
  · intro l t
    constructor
    · rintro ⟨l1, l2, -, rfl, ⟨k, c, v, rfl, hc⟩, l3, l4, -, rfl, rfl, l5, l6, -, rfl, rfl, l7, l8, key, rfl, hk, rfl, q, f, b,
        mark, rfl, h1, h2, h3, h4⟩
      obtain ⟨type, motion, dct, rfl, k1, k2, k3, k4, k5⟩ := hk
      rw [keyMotion_eq k2 k4 k5] at h2 h3
      have := HeadWord.mk (e := e) k v key.1 c type motion dct q f b mark hc k1 k2 k3 h1 h2 h3 h4
      simpa using this
    · rintro ⟨k, v, t, c, type, motion, dct, q, f, b, mark, hc, k1, k2, k3, h1, h2, h3, h4⟩
      have hk : keyMotion e (t, if e.pce.pictureStructure = 3 then natOfBits motion else 0,
          if e.pce.pictureStructure = 3 then 0 else natOfBits motion) = motionType e motion := keyMotion_eq k2 rfl rfl
      refine ⟨_, _, (), (List.append_assoc ..).symm, ⟨k, c, v, rfl, hc⟩, [], _, (), rfl, rfl, [], _, (), rfl, rfl,
        type ++ (motion ++ dct), q ++ (f ++ (b ++ mark)), (t, if e.pce.pictureStructure = 3 then natOfBits motion else 0,
          if e.pce.pictureStructure = 3 then 0 else natOfBits motion), by simp, ⟨type, motion, dct, rfl, k1, k2, k3, rfl, rfl⟩,
        rfl, q, f, b, mark, rfl, h1, ?_, ?_, h4⟩
      · rw [hk]; exact h2
      · rw [hk]; exact h3

end Mpeg.Video
