/-
Where the panics of `Next` come from.
-/
import Verif.Video.NextPanicSpec
import Verif.Video.PanicExactProps
import Verif.Video.ShapeLemmas2
import Verif.Video.AcceptLemmas
set_option linter.all false
namespace Mpeg.Video
open Spec
open _root_.Mpeg.BR (Took Moves)

/-- A place `t` where the decoder panics, and the state `p` that it then has. -/
inductive Hit (t p : VS) : Prop
  | scalable (m : List Bool) (hm : m.length = 6) (hb : t.br.bits = bitsOf 32 0x1B5 ++ (bitsOf 4 5 ++ (m ++ p.br.bits)))
      (hp : p = { t with br := p.br }) (hv : Moves t.br p.br) : Hit t p
  | extension (id : Nat) (r : List Bool) (hid : id = 4 ∨ id = 7 ∨ id = 9) (hl : p.br.bits = bitsOf 4 id ++ r)
      (hb : t.br.bits = bitsOf 32 0x1B5 ++ p.br.bits) (hp : t.ph ≠ none ∧ t.pce ≠ none) (he : p = { t with br := p.br })
      (hv : Moves t.br p.br) : Hit t p
  | data (h1 : t.sh ≠ none) (h3 : t.ph ≠ none) (h4 : t.pce ≠ none) (h : pictureData t = (.panic, p)) : Hit t p

theorem bind_panic_state {σ α γ : Type} {m : Go σ α} {f : α → Go σ γ} {s p : σ} (h : (m >>= f) s = (.panic, p)) :
    m s = (.panic, p) ∨ ∃ a s', m s = (.ok a, s') ∧ f a s' = (.panic, p) := by
  rw [Go.bind_apply] at h
  cases hm : m s with
  | mk r s' =>
    rw [hm] at h
    cases r with
    | ok a => exact .inr ⟨a, s', rfl, h⟩
    | err x => cases h
    | panic => cases h; exact .inl rfl
    | hang => cases h

theorem not_panic {σ α : Type} {m : Go σ α} (hm : Go.Safe m) {s p : σ} (h : m s = (.panic, p)) : False := (hm s).1 (by rw [h])

/-- From states with `P`: a panic has its place, and success leads to a state with `Q`. -/
def Blame {α : Type} (P Q : VS → Prop) (m : Go VS α) : Prop :=
  ∀ s, P s → (∀ p, m s = (.panic, p) → ∃ t, Moves s.br t.br ∧ Hit t p) ∧ ∀ a s', m s = (.ok a, s') → Q s' ∧ Moves s.br s'.br

namespace Blame
variable {α β : Type} {P Q R : VS → Prop}

theorem bind {m : Go VS α} {f : α → Go VS β} (hm : Blame P Q m) (hf : ∀ a, Blame Q R (f a)) : Blame P R (m >>= f) := by
  intro s hs
  obtain ⟨h1, h2⟩ := hm s hs
  constructor
  · intro p h
    rcases bind_panic_state h with h | ⟨a, s1, h3, h⟩
    · exact h1 p h
    · obtain ⟨hq, hv⟩ := h2 a s1 h3
      obtain ⟨t, ht, hh⟩ := (hf a s1 hq).1 p h
      exact ⟨t, hv.trans ht, hh⟩
  · intro b s' h
    obtain ⟨a, s1, h3, h⟩ := Go.bind_eq_ok h
    obtain ⟨hq, hv⟩ := h2 a s1 h3
    obtain ⟨hr, hv'⟩ := (hf a s1 hq).2 b s' h
    exact ⟨hr, hv.trans hv'⟩

theorem safe {m : Go VS α} (hm : Go.Safe m) (hv : Go.Mv VS.br m) (hq : ∀ s a s', P s → m s = (.ok a, s') → Q s') : Blame P Q m :=
  fun s hs => ⟨fun p h => (not_panic hm h).elim, fun a s' h => ⟨hq s a s' hs h, by have := hv s; rw [h] at this; exact this⟩⟩

theorem pure (a : α) : Blame P P (Pure.pure a : Go VS α) := fun s hs =>
  ⟨fun p h => (by cases h), fun a s' h => by cases h; exact ⟨hs, .refl⟩⟩

theorem throw (e : Err) : Blame P Q (Go.throw e : Go VS α) := fun s hs => ⟨fun p h => (by cases h), fun a s' h => by cases h⟩
theorem hang : Blame P Q (Go.hang : Go VS α) := fun s hs => ⟨fun p h => (by cases h), fun a s' h => by cases h⟩

theorem ite {c : Prop} [Decidable c] {m n : Go VS α} (hm : Blame P Q m) (hn : Blame P Q n) : Blame P Q (if c then m else n) := by
  split <;> assumption

theorem mono {m : Go VS α} (h : Blame P Q m) {P' Q' : VS → Prop} (hp : ∀ s, P' s → P s) (hq : ∀ s, Q s → Q' s) : Blame P' Q' m :=
  fun s hs => ⟨(h s (hp s hs)).1, fun a s' hm => ⟨hq _ ((h s (hp s hs)).2 a s' hm).1, ((h s (hp s hs)).2 a s' hm).2⟩⟩
end Blame

/-- Only the reader changes. -/
theorem blame_lift {α : Type} {m : Go BR α} (hm : Go.Safe m) (hv : BR.Mv m) {P : VS → Prop} (hp : ∀ s br, P s → P { s with br := br }) :
    Blame P P (VS.lift m) :=
  .safe (safe_vlift hm) (mv_vlift hv) fun s a s' hs h => by
    unfold VS.lift at h
    rw [Prod.mk.injEq] at h
    rw [← h.2]
    exact hp _ _ hs

/-- The headers in force. -/
structure Has (a b : Bool) (s : VS) : Prop where
  sh : a = true → s.sh ≠ none
  ph : b = true → s.ph ≠ none
  pce : b = true → s.pce ≠ none

theorem Has.br {a b : Bool} (s : VS) (br : BR) (h : Has a b s) : Has a b { s with br := br } := ⟨h.sh, h.ph, h.pce⟩

theorem has_storeHeader {α : Type} {m : Go BR α} {put : VS → Option α → VS} {P : VS → Prop} {s s' : VS} {u : Unit}
    (hp : ∀ a br br', P { put { s with br := br } (some a) with br := br' }) (h : storeHeader m put s = (.ok u, s')) : P s' := by
  unfold storeHeader VS.lift at h
  cases hx : m s.br with
  | mk r br =>
    rw [hx] at h
    cases r with
    | ok a =>
      dsimp only at h
      rw [Prod.mk.injEq] at h
      rw [← h.2]
      exact hp a _ _
    | err e => cases h
    | panic => cases h
    | hang => cases h

theorem peek_bits {n v : Nat} {s s' : VS} (h : VS.lift (BR.peek n) s = (.ok v, s')) :
    s' = s ∧ v < 2 ^ n ∧ ∃ r, s.br.bits = bitsOf n v ++ r := by
  unfold VS.lift at h
  rw [Prod.mk.injEq] at h
  have hx : BR.peek n s.br = (.ok v, (BR.peek n s.br).2) := by rw [← h.1]
  obtain ⟨e, hl, hv⟩ := BR.peek_inv hx
  have hlen : (s.br.bits.take n).length = n := by rw [List.length_take]; omega
  refine ⟨by rw [← h.2, e], ?_, s.br.bits.drop n, ?_⟩
  · rw [hv]
    have := natOfBits_lt (s.br.bits.take n)
    rwa [hlen] at this
  · rw [hv, bitsOf_natOfBits' hlen, List.take_append_drop]

theorem lift_has {α : Type} {a b : Bool} (m : Go BR α) : Go.Keeps (Has a b) (VS.lift m) := fun s h => h.br s _

theorem loadMatrix_has {a b : Bool} (set : QMatrices → Matrix → QMatrices) : Go.Keeps (Has a b) (loadMatrix set) := by
  unfold loadMatrix
  exact .bind (lift_has _) fun _ => .opt (.bind (lift_has _) fun _ => .modify fun _ h => ⟨h.sh, h.ph, h.pce⟩)

theorem quant_has {a b : Bool} : Go.Keeps (Has a b) quantMatrixExtension := by
  unfold quantMatrixExtension
  exact .bind (.ignoreErr (lift_has _)) fun _ => .bind (loadMatrix_has _) fun _ =>
    .bind (loadMatrix_has _) fun _ => .bind (loadMatrix_has _) fun _ => .bind (loadMatrix_has _) fun _ => lift_has _

theorem body_has {a b : Bool} (i : Nat) : Go.Keeps (Has a b) (extensionBody i) := by
  unfold extensionBody
  exact .ite (.bind (lift_has _) fun _ => .ite (.bind (lift_has _) fun _ => .pure _) (lift_has _))
    (.ite (.bind (lift_has _) fun _ => .ite quant_has (.ite .panic (.bind (lift_has _) fun _ => .pure _))) (.pure _))

theorem scalable_panic {s p : BR} (h : readSequenceScalableExtension s = (.panic, p)) :
    ∃ m, m.length = 6 ∧ s.bits = bitsOf 4 5 ++ (m ++ p.bits) := by
  unfold readSequenceScalableExtension at h
  rcases bind_panic_state h with h | ⟨u, s1, h1, h⟩
  · exact (not_panic (safe_extensionID _) h).elim
  have t := extensionID_inv h1
  rcases bind_panic_state h with h | ⟨u, s2, h2, h⟩
  · exact (not_panic (BR.safe_read _) h).elim
  obtain ⟨l2, t2, hl2, -⟩ := BR.read_inv h2
  rcases bind_panic_state h with h | ⟨u, s3, h3, h⟩
  · exact (not_panic (BR.safe_read _) h).elim
  obtain ⟨l3, t3, hl3, -⟩ := BR.read_inv h3
  cases h
  refine ⟨l2 ++ l3, by simp only [List.length_append, hl2, hl3], ?_⟩
  rw [t.bits, t2.bits, t3.bits, List.append_assoc]

theorem lift_panic {α : Type} {m : Go BR α} {s p : VS} (h : VS.lift m s = (.panic, p)) : m s.br = (.panic, p.br) ∧ p = { s with br := p.br } := by
  unfold VS.lift at h
  rw [Prod.mk.injEq] at h
  obtain ⟨h1, h2⟩ := h
  subst h2
  exact ⟨by rw [← h1], rfl⟩

/-- After the extension start code. -/
theorem body_panic {i : Nat} {s p : VS} (h : extensionBody i s = (.panic, p)) : p = { s with br := p.br } ∧
    ((i = 0 ∧ ∃ m, m.length = 6 ∧ s.br.bits = bitsOf 4 5 ++ (m ++ p.br.bits)) ∨
    (i = 2 ∧ p = s ∧ ∃ id r, (id = 4 ∨ id = 7 ∨ id = 9) ∧ s.br.bits = bitsOf 4 id ++ r)) := by
  unfold extensionBody at h
  split at h
  · rename_i h0
    rcases bind_panic_state h with h | ⟨id, s1, h1, h⟩
    · exact (not_panic (safe_vlift (BR.safe_peek _)) h).elim
    obtain ⟨e1, -, -⟩ := peek_bits h1
    rw [e1] at h
    split at h
    · rcases bind_panic_state h with h | ⟨u, s2, h2, h⟩
      · exact (not_panic (safe_vlift safe_display) h).elim
      · cases h
    · obtain ⟨h1, h2⟩ := lift_panic h
      exact ⟨h2, .inl ⟨h0, scalable_panic h1⟩⟩
  · split at h
    · rename_i h0
      rcases bind_panic_state h with h | ⟨id, s1, h1, h⟩
      · exact (not_panic (safe_vlift (BR.safe_peek _)) h).elim
      obtain ⟨e1, -, r, hb⟩ := peek_bits h1
      rw [e1] at h
      split at h
      · exact (not_panic safe_quant h).elim
      · split at h
        · rename_i hid
          cases h
          exact ⟨rfl, .inr ⟨h0, rfl, id, r, hid, hb⟩⟩
        · rcases bind_panic_state h with h | ⟨u, s2, h2, h⟩
          · exact (not_panic (safe_vlift safe_temporal) h).elim
          · cases h
    · cases h

theorem blame_extensionStep {i : Nat} {a b : Bool} (hb : i = 2 → b = true) :
    Blame (fun s => Has a b s ∧ ∃ r, s.br.bits = bitsOf 32 0x1B5 ++ r) (Has a b) (extensionDataStep i) := by
  rintro s ⟨hs, r, hr⟩
  constructor
  · intro p h
    have hmv : Moves s.br p.br := by have := mv_extensionStep i s; rw [h] at this; exact this
    rw [extensionDataStep_eq] at h
    have e0 : Go.ignoreErr (VS.lift (BR.skip 32)) s = (.ok (), { s with br := ⟨r, s.br.pos + 32, s.br.stop, s.br.later⟩ }) := by
      unfold Go.ignoreErr
      have hbr : s.br = ⟨bitsOf 32 0x1B5 ++ r, s.br.pos, s.br.stop, s.br.later⟩ := by rw [← hr]
      rw [lift_ok (by rw [hbr]; exact BR.skip_bitsOf 32 _)]
    rw [Go.bind_ok e0] at h
    obtain ⟨hp, hc⟩ := body_panic h
    have hp' : p = { s with br := p.br } := hp
    rcases hc with ⟨h0, m, h1, h2⟩ | ⟨h0, h3, id, r', h1, h2⟩
    · exact ⟨s, .refl, .scalable m h1 (by rw [hr]; exact congrArg _ h2) hp' hmv⟩
    · have h3' : p.br.bits = r := by rw [h3]
      exact ⟨s, .refl, .extension id r' h1 (by rw [h3']; exact h2) (by rw [h3']; exact hr) ⟨hs.ph (hb h0), hs.pce (hb h0)⟩ hp' hmv⟩
  · intro u s' h
    refine ⟨?_, by have := mv_extensionStep i s; rw [h] at this; exact this⟩
    have : Go.Keeps (Has a b) (extensionDataStep i) := by
      rw [extensionDataStep_eq]
      exact .bind (.ignoreErr (lift_has _)) fun _ => body_has i
    have := this s hs
    rw [h] at this
    exact this

theorem blame_peek {β : Type} {P R : VS → Prop} {n : Nat} {f : Nat → Go VS β}
    (hf : ∀ v, Blame (fun s => P s ∧ ∃ r, s.br.bits = bitsOf n v ++ r) R (f v)) : Blame P R (VS.lift (BR.peek n) >>= f) := by
  intro s hs
  cases hx : VS.lift (BR.peek n) s with
  | mk r s1 =>
    cases r with
    | ok v =>
      rw [Go.bind_ok hx]
      obtain ⟨rfl, -, r, hr⟩ := peek_bits hx
      exact hf v s1 ⟨hs, r, hr⟩
    | err e =>
      rw [Go.bind_err hx]
      exact ⟨fun p h => (by cases h), fun a s' h => by cases h⟩
    | panic => exact absurd (by rw [hx]) (safe_vlift (BR.safe_peek n) s).1
    | hang => exact absurd (by rw [hx]) (safe_vlift (BR.safe_peek n) s).2

theorem blame_ite {α : Type} {P Q : VS → Prop} {c : Prop} [Decidable c] {m n : Go VS α} (hm : c → Blame P Q m) (hn : ¬ c → Blame P Q n) :
    Blame P Q (if c then m else n) := by
  split
  · exact hm ‹_›
  · exact hn ‹_›

theorem blame_extensionData {i : Nat} {a b : Bool} (hb : i = 2 → b = true) : ∀ f, Blame (Has a b) (Has a b) (extensionData i f)
  | 0 => .hang
  | f + 1 => blame_peek fun v => blame_ite
      (fun hv => by
        subst hv
        exact .bind (blame_extensionStep hb) fun _ => blame_extensionData hb f)
      (fun _ => .mono (.pure _) (fun _ h => h) fun _ h => h.1)

theorem blame_extUser {i : Nat} {a b : Bool} (hb : i = 2 → b = true) : ∀ f, Blame (Has a b) (Has a b) (extensionAndUserData i f)
  | 0 => .hang
  | f + 1 => blame_peek fun v => .ite
      (.mono (.ite (.bind (blame_extensionData hb f) fun _ => blame_extUser hb f) (blame_extUser hb f)) (fun _ h => h.1) fun _ h => h)
      (.mono (.ite (.bind (blame_lift safe_userData mv_userData Has.br) fun _ => blame_extUser hb f) (.pure _)) (fun _ h => h.1)
        fun _ h => h)

theorem blame_sequenceHeader : Blame (fun _ => True) (Has true false) sequenceHeader :=
  .safe safe_sequenceHeader mv_sequenceHeader fun s u s' _ h => by
    unfold sequenceHeader at h
    obtain ⟨sh, s1, h1, h⟩ := Go.bind_eq_ok h
    cases h
    exact ⟨(fun _ h => by cases h), (fun h => by cases h), (fun h => by cases h)⟩

theorem blame_sequenceExtension : Blame (Has true false) (Has true false) sequenceExtension :=
  .safe (safe_storeHeader safe_readSequenceExtension) mv_sequenceExtension fun s u s' hs h =>
    has_storeHeader (s := s) (fun a br br' => ⟨hs.sh, (fun h => by cases h), (fun h => by cases h)⟩) h

theorem blame_groupHeader (f : Nat) : Blame (Has true false) (Has true false) (groupHeader f) := by
  unfold groupHeader
  refine .bind (blame_lift (BR.safe_peek _) (BR.mv_peek _) Has.br) fun v => ?_
  unfold Go.opt
  refine .ite (.bind (blame_lift safe_readGOPHeader mv_readGOPHeader Has.br) fun g => .bind ?_ fun _ => blame_extUser (by decide) f)
    (.pure _)
  exact .safe (fun s => ⟨(fun h => by cases h), (fun h => by cases h)⟩) (.modify fun _ => rfl) fun s u s' hs h => by
    cases h
    exact ⟨hs.sh, (fun h => by cases h), (fun h => by cases h)⟩

/-- after the picture header -/
def HasPicture (s : VS) : Prop := s.sh ≠ none ∧ s.ph ≠ none

theorem blame_pictureHeader : Blame (Has true false) HasPicture pictureHeader :=
  .safe (safe_storeHeader safe_readPictureHeader) mv_pictureHeader fun s u s' hs h =>
    has_storeHeader (s := s) (fun a br br' => ⟨hs.sh rfl, (fun h => by cases h)⟩) h

theorem blame_pictureCodingExtension : Blame HasPicture (Has true true) pictureCodingExtension :=
  .safe (safe_storeHeader safe_readPictureCodingExtension) mv_pictureCodingExtension fun s u s' hs h =>
    has_storeHeader (s := s) (fun a br br' => ⟨(fun _ => hs.1), (fun _ => hs.2), (fun _ h => by cases h)⟩) h

theorem pictureData_state (s : VS) : ∃ br, (pictureData s).2 = { s with br := br } := by
  unfold pictureData
  split
  · dsimp only
    split <;> exact ⟨_, rfl⟩
  · exact ⟨s.br, rfl⟩

theorem blame_pictureStep : Blame (Has true true) HasPicture pictureStep := by
  intro s hs
  have hm := mv_pictureStep s
  unfold pictureStep at hm ⊢
  rw [Go.bind_ok (Go.get_apply s)] at hm ⊢
  cases hph : s.ph with
  | none => exact absurd hph (hs.ph rfl)
  | some ph =>
    rw [hph] at hm
    dsimp only at hm ⊢
    rw [Go.bind_ok (Go.modify_apply ..)] at hm ⊢
    obtain ⟨br, hd⟩ := pictureData_state { s with fs := s.fs.set ph.temporalReference }
    cases hx : pictureData { s with fs := s.fs.set ph.temporalReference } with
    | mk r s1 =>
      rw [hx] at hd
      cases r with
      | ok f =>
        rw [Go.bind_ok hx, Go.bind_ok (Go.modify_apply ..), Go.pure_apply] at hm ⊢
        refine ⟨fun p h => (by cases h), fun a s' h => ?_⟩
        rw [Prod.mk.injEq] at h
        rw [← h.2]
        refine ⟨?_, hm⟩
        dsimp only at hd
        subst hd
        split
        · exact ⟨hs.sh rfl, hs.ph rfl⟩
        · exact ⟨hs.sh rfl, hs.ph rfl⟩
      | err e => rw [Go.bind_err hx]; exact ⟨fun p h => (by cases h), fun a s' h => by cases h⟩
      | panic =>
        rw [Go.bind_panic hx]
        refine ⟨fun p h => ⟨{ s with fs := s.fs.set ph.temporalReference }, .refl, .data (hs.sh rfl) (hs.ph rfl) (hs.pce rfl) ?_⟩,
          fun a s' h => by cases h⟩
        cases h
        exact hx
      | hang => rw [Go.bind_hang hx]; exact ⟨fun p h => (by cases h), fun a s' h => by cases h⟩

theorem blame_moreFrames (f : Nat) : Blame (Has true false) HasPicture (moreFrames f) := by
  unfold moreFrames
  exact .bind (blame_groupHeader f) fun _ => .bind blame_pictureHeader fun _ => .bind blame_pictureCodingExtension fun _ =>
    .bind (blame_extUser (fun _ => rfl) f) fun _ => blame_pictureStep

theorem blame_continueFrames (f : Nat) : Blame (Has true false) HasPicture (continueFrames f) := by
  unfold continueFrames
  exact .bind (blame_extUser (by decide) f) fun _ => blame_moreFrames f

theorem blame_resume (f : Nat) : Blame (Has true false) HasPicture (resume f) := by
  unfold resume
  exact .bind (blame_lift (BR.safe_peek _) (BR.mv_peek _) Has.br) fun v => .ite (blame_moreFrames f)
    (.ite (.bind (blame_lift (BR.safe_skip _) (BR.mv_skip _) Has.br) fun _ => .throw _)
      (.mono (.bind blame_sequenceHeader fun _ => .bind blame_sequenceExtension fun _ => blame_continueFrames f)
        (fun _ _ => trivial) fun _ h => h))

theorem blame_start (f : Nat) : Blame (fun _ => True) HasPicture (start f) := by
  unfold start
  refine .bind (blame_lift safe_nextStartCode mv_nextStartCode fun _ _ _ => trivial) fun _ => .bind blame_sequenceHeader fun _ =>
    .bind (blame_lift (BR.safe_peek _) (BR.mv_peek _) Has.br) fun v => .bind ?_ fun _ => .bind blame_sequenceExtension fun _ =>
    blame_continueFrames f
  exact .safe Go.Safe.check .check fun s u s' hs h => by
    unfold Go.check at h
    split at h
    · cases h; exact hs
    · cases h

theorem blame_step (f : Nat) : Blame (fun _ => True) HasPicture (step f) := by
  intro s _
  unfold step
  split
  · rename_i h
    exact blame_resume f s ⟨(fun _ h' => by rw [h'] at h; cases h), (fun h => by cases h), (fun h => by cases h)⟩
  · exact blame_start f s trivial

theorem blame_nextLoop (f : Nat) : ∀ k, Blame (fun _ => True) (fun _ => True) (nextLoop f k)
  | 0 => .hang
  | k + 1 => by
    refine .bind (blame_step f) fun fr s hs => ?_
    rw [Go.bind_ok (Go.get_apply s)]
    cases hph : s.ph with
    | none => exact absurd hph hs.2
    | some ph =>
      dsimp only
      split
      · rw [Go.bind_ok (Go.modify_apply ..)]
        exact ⟨fun p h => (by cases h), fun a s' h => by cases h; exact ⟨trivial, .refl⟩⟩
      · exact blame_nextLoop f k s trivial

theorem moves_later {a b : BR} (h : Moves a b) (hl : a.later = []) : b.later = [] ∧ ∃ j, b = a.adv j := by
  induction h with
  | refl => exact ⟨hl, 0, rfl⟩
  | @adv b k _ ih =>
    obtain ⟨h1, j, h2⟩ := ih
    exact ⟨h1, j + k, by rw [h2]; simp only [BR.adv, List.drop_drop, Nat.add_assoc]⟩
  | @fail b _ ih =>
    obtain ⟨h1, j, h2⟩ := ih
    have hb : b.failTo = b.adv b.bits.length := by
      unfold BR.failTo
      rw [h1]
      simp only [BR.adv, List.drop_length, h1]
    rw [hb]
    refine ⟨h1, j + b.bits.length, ?_⟩
    generalize b.bits.length = n
    rw [h2]
    simp only [BR.adv, List.drop_drop, Nat.add_assoc]

theorem hit_trouble {t p : VS} (hl : t.br.later = []) (h : Hit t p) :
    p = { t with br := p.br } ∧ Moves t.br p.br ∧ Trouble t p.br.bits := by
  cases h with
  | scalable m hm hb hp hv => exact ⟨hp, hv, .scalable m hm hb⟩
  | extension id r hid hl hb hp he hv => exact ⟨he, hv, .extension id r hid hl hb hp⟩
  | data h1 h3 h4 h =>
    obtain ⟨br, hd⟩ := pictureData_state t
    have hv := mv_pictureData t
    rw [h] at hd hv
    dsimp only at hd hv
    refine ⟨by rw [hd], hv, ?_⟩
    have hh : (pictureData t).1 = .panic := by rw [h]
    cases e1 : t.sh with
    | none => exact absurd e1 h1
    | some sh =>
    cases e2 : t.se with
    | none =>
      refine .missing e2 ?_
      have : pictureData t = (.panic, t) := by
        unfold pictureData
        split
        · rename_i e _ _
          rw [e2] at e
          cases e
        · rfl
      rw [this] at h
      cases h
      rfl
    | some se =>
    cases e3 : t.ph with
    | none => exact absurd e3 h3
    | some ph =>
    cases e4 : t.pce with
    | none => exact absurd e4 h4
    | some pce =>
      by_cases hp : Plain (t.env sh se ph pce)
      · by_cases hr : RefsOK (t.env sh se ph pce) t.mbWidth t.mbHeight
        · obtain ⟨l, r, hb, hf⟩ := C98_exact_only e1 e2 e3 e4 hp hr hl hh
          exact .data sh se ph pce l r e1 e2 e3 e4 hb hf
        · exact .references sh se ph pce e1 e2 e3 e4 hr
      · exact .scope sh se ph pce e1 e2 e3 e4 hp

end Mpeg.Video
