/-
C151: no picture is returned twice.
-/
import Verif.Video.TwiceSpec
import Verif.Video.HeapProps
import Verif.Video.CostProps
set_option linter.all false
namespace Mpeg.Video
open Spec

namespace Twice

/-- A slot of the store. -/
def Slot (h : HVS) (r : HRef) : Prop := h.fs.f0 = some r ∨ h.fs.f1 = some r

/-- `R`: the pointers returned so far. -/
structure U (R : Nat → Prop) (h : HVS) : Prop where
  old : ∀ a, R a → a < h.free
  late : ∀ r, Slot h r → r.previousGOP = false → R r.frame → r.temporalReference < h.frameCounter
  ne : ∀ r q, h.fs.f0 = some r → h.fs.f1 = some q → r.frame ≠ q.frame
  below : ∀ r, Slot h r → r.frame < h.free

theorem U.same {R : Nat → Prop} {h h' : HVS} (u : U R h) (h0 : h'.fs.f0 = h.fs.f0) (h1 : h'.fs.f1 = h.fs.f1) (hf : h.free ≤ h'.free)
    (hc : h'.frameCounter = h.frameCounter) : U R h' := by
  have hs : ∀ r, Slot h' r → Slot h r := fun r hr => by unfold Slot at hr ⊢; rw [h0, h1] at hr; exact hr
  exact ⟨fun a ha => Nat.lt_of_lt_of_le (u.old a ha) hf, fun r hr hp hR => by rw [hc]; exact u.late r (hs r hr) hp hR,
    fun r q hr hq => u.ne r q (h0 ▸ hr) (h1 ▸ hq), fun r hr => Nat.lt_of_lt_of_le (u.below r (hs r hr)) hf⟩

/-- keeps `U` in any case, and `Q` holds of a result -/
def Tri {α : Type} (R : Nat → Prop) (Q : HVS → α → Prop) (m : Go HVS α) : Prop :=
  ∀ h, U R h → U R (m h).2 ∧ ∀ a, (m h).1 = .ok a → Q (m h).2 a

theorem Tri.bind {α β : Type} {R : Nat → Prop} {Q : HVS → β → Prop} {x : Go HVS α} {f : α → Go HVS β} (hx : Tri R (fun _ _ => True) x)
    (hf : ∀ a, Tri R Q (f a)) : Tri R Q (x >>= f) := by
  intro h hu
  have := (hx h hu).1
  rw [Go.bind_apply]
  rcases hm : x h with ⟨r, t⟩
  rw [hm] at this
  cases r with
  | ok a => exact hf a t this
  | err e => exact ⟨this, fun a ha => (by cases ha)⟩
  | panic => exact ⟨this, fun a ha => (by cases ha)⟩
  | hang => exact ⟨this, fun a ha => (by cases ha)⟩

theorem Tri.pure {α : Type} {R : Nat → Prop} (a : α) : Tri R (fun _ _ => True) (Pure.pure a) := fun h hu => ⟨hu, fun _ _ => trivial⟩

theorem Tri.lift {α : Type} {R : Nat → Prop} {m : Go VS α} (hk : ∀ c, Keeps (OnFs fun _ n _ => n = c) m) :
    Tri R (fun _ _ => True) (HVS.lift m) := fun h hu =>
  ⟨hu.same rfl rfl (Nat.le_refl _) (hk h.frameCounter h.toVS rfl), fun _ _ => trivial⟩

theorem Tri.opt {R : Nat → Prop} {c : Bool} {x : Go HVS Unit} (h : Tri R (fun _ _ => True) x) : Tri R (fun _ _ => True) (Go.opt c () x) := by
  cases c
  · exact .pure ()
  · exact h

/-- a new picture, and where the store has it it has it under its own number -/
def New (R : Nat → Prop) (h : HVS) (a : Nat) : Prop :=
  ¬R a ∧ a < h.free ∧ ∃ ph, h.ph = some ph ∧ ∀ r, Slot h r → r.frame = a → r.temporalReference = ph.temporalReference

theorem tri_groupHeader (R : Nat → Prop) (fuel : Nat) : Tri R (fun _ _ => True) (hGroupHeader fuel) := by
  unfold hGroupHeader
  refine .bind (.lift fun _ => keeps_vlift _) fun v => .opt (.bind (.lift fun _ => keeps_vlift _) fun g => .bind (fun h hu => ⟨?_, fun _ _ => trivial⟩)
    fun _ => .lift fun _ => keeps_extUser 1 fuel)
  have hm : ∀ {o : Option HRef} {r : HRef}, (o.map fun r => { r with previousGOP := true }) = some r → ∃ q, o = some q ∧ q.frame = r.frame ∧
      r.previousGOP = true := by
    intro o r hr
    obtain ⟨q, hq, rfl⟩ := Option.map_eq_some_iff.1 hr
    exact ⟨q, hq, rfl, rfl⟩
  refine ⟨hu.old, fun r hr hp => ?_, fun r q hr hq => ?_, fun r hr => ?_⟩
  · rcases hr with hr | hr <;> obtain ⟨q, _, _, h3⟩ := hm hr <;> rw [h3] at hp <;> cases hp
  · obtain ⟨r', a1, a2, _⟩ := hm hr
    obtain ⟨q', b1, b2, _⟩ := hm hq
    rw [← a2, ← b2]
    exact hu.ne r' q' a1 b1
  · rcases hr with hr | hr <;> obtain ⟨q, h1, h2, _⟩ := hm hr <;> rw [← h2]
    · exact hu.below q (.inl h1)
    · exact hu.below q (.inr h1)

theorem hset_slots (fs : HStore) (tr : Nat) : (fs.set tr).f0 = fs.f0 ∧ (fs.set tr).f1 = fs.f1 := by
  have h : ∀ (fs : HStore) (o : Option HRef), (fs.setOne o tr).f0 = fs.f0 ∧ (fs.setOne o tr).f1 = fs.f1 := by
    intro fs o
    unfold HStore.setOne
    cases o with
    | none => exact ⟨rfl, rfl⟩
    | some r => dsimp only; split <;> exact ⟨rfl, rfl⟩
  unfold HStore.set
  obtain ⟨a, b⟩ := h fs fs.f0
  obtain ⟨c, d⟩ := h (fs.setOne fs.f0 tr) fs.f1
  exact ⟨c.trans a, d.trans b⟩

/-- a picture is allocated, whether it is decoded or not -/
theorem pictureData_any (h : HVS) : (hPictureData h).2.fs = h.fs ∧ (hPictureData h).2.frameCounter = h.frameCounter ∧
    (hPictureData h).2.ph = h.ph ∧ h.free ≤ (hPictureData h).2.free ∧ ∀ a, (hPictureData h).1 = .ok a → a = h.free ∧ a < (hPictureData h).2.free := by
  have hall : ∀ (a : Option SequenceHeader) (b : Option SequenceExtension) (c : Option PictureHeader) (d : Option PictureCodingExtension)
      (X : SequenceHeader → SequenceExtension → PictureHeader → PictureCodingExtension → Res Nat × HVS) (P : Res Nat × HVS → Prop),
      (∀ a b c d, P (X a b c d)) → P (.panic, h) →
        P (match a, b, c, d with
          | some a, some b, some c, some d => X a b c d
          | _, _, _, _ => (.panic, h)) := by
    intro a b c d X P hX hP
    cases a <;> cases b <;> cases c <;> cases d <;> first
      | exact hX _ _ _ _
      | exact hP
  refine hall h.sh h.se h.ph h.pce _ (fun r => r.2.fs = h.fs ∧ r.2.frameCounter = h.frameCounter ∧ r.2.ph = h.ph ∧ h.free ≤ r.2.free ∧
    ∀ a, r.1 = .ok a → a = h.free ∧ a < r.2.free) ?_ ⟨rfl, rfl, rfl, Nat.le_refl _, fun a ha => (by cases ha)⟩
  intro sh se ph pce
  dsimp only
  split
  · exact ⟨rfl, rfl, rfl, Nat.le_succ _, fun a ha => by cases ha; exact ⟨rfl, Nat.lt_succ_self _⟩⟩
  · exact ⟨rfl, rfl, rfl, Nat.le_succ _, fun a ha => (by cases ha)⟩
  · exact ⟨rfl, rfl, rfl, Nat.le_succ _, fun a ha => (by cases ha)⟩
  · exact ⟨rfl, rfl, rfl, Nat.le_succ _, fun a ha => (by cases ha)⟩

theorem tri_pictureStep (R : Nat → Prop) : Tri R (New R) hPictureStep := by
  intro h hu
  unfold hPictureStep
  rw [Go.bind_ok (Go.get_apply h)]
  cases hph : h.ph with
  | none => exact ⟨hu, fun a ha => (by cases ha)⟩
  | some ph =>
    dsimp only
    rw [Go.bind_ok (Go.modify_apply ..), Go.bind_apply]
    obtain ⟨s0, s1⟩ := hset_slots h.fs ph.temporalReference
    have hu' : U R { h with fs := h.fs.set ph.temporalReference } := hu.same s0 s1 (Nat.le_refl _) rfl
    obtain ⟨p1, p2, p3, p4, p5⟩ := pictureData_any { h with fs := h.fs.set ph.temporalReference }
    rcases hm : hPictureData { h with fs := h.fs.set ph.temporalReference } with ⟨r, t⟩
    rw [hm] at p1 p2 p3 p4 p5
    have e0 : t.fs.f0 = h.fs.f0 := by rw [p1]; exact s0
    have e1 : t.fs.f1 = h.fs.f1 := by rw [p1]; exact s1
    have ut : U R t := hu.same e0 e1 p4 p2
    have hpt : t.ph = some ph := p3.trans hph
    cases r with
    | err e => exact ⟨ut, fun a ha => (by cases ha)⟩
    | panic => exact ⟨ut, fun a ha => (by cases ha)⟩
    | hang => exact ⟨ut, fun a ha => (by cases ha)⟩
    | ok a =>
      obtain ⟨q1, q2⟩ := p5 a rfl
      have q1 : a = h.free := q1
      have nR : ¬R a := fun hR => by have := hu.old a hR; omega
      dsimp only
      rw [Go.bind_ok (Go.modify_apply ..)]
      by_cases hk : ph.pictureCodingType = iFrame ∨ ph.pictureCodingType = pFrame
      · rw [if_pos hk]
        show U R { t with fs := t.fs.add a ph.temporalReference } ∧ _
        have hs : ∀ r, Slot { t with fs := t.fs.add a ph.temporalReference } r → h.fs.f1 = some r ∨ r = ⟨a, ph.temporalReference, false⟩ := by
          rintro r (hr | hr)
          · exact .inl (e1 ▸ hr)
          · have hr : some (HRef.mk a ph.temporalReference false) = some r := hr
            exact .inr (Option.some.inj hr).symm
        refine ⟨⟨ut.old, fun r hr hp hR => ?_, fun r q hr hq => ?_, fun r hr => ?_⟩, fun b hb => ?_⟩
        · rcases hs r hr with k | rfl
          · exact ut.late r (.inr (e1.trans k)) hp hR
          · exact absurd hR nR
        · have hr : t.fs.f1 = some r := hr
          have hq : some (HRef.mk a ph.temporalReference false) = some q := hq
          cases hq
          have := hu.below r (.inr (e1 ▸ hr))
          show r.frame ≠ a
          omega
        · rcases hs r hr with k | rfl
          · exact ut.below r (.inr (e1.trans k))
          · exact q2
        · have hb : Res.ok a = Res.ok b := hb
          cases hb
          refine ⟨nR, q2, ph, hpt, fun r hr he => ?_⟩
          rcases hs r hr with k | rfl
          · have := hu.below r (.inr k); omega
          · rfl
      · rw [if_neg hk]
        refine ⟨ut, fun b hb => ?_⟩
        have hb : Res.ok a = Res.ok b := hb
        cases hb
        refine ⟨nR, q2, ph, hpt, fun r hr he => ?_⟩
        have hr : Slot t r := hr
        have : r.frame < h.free := hu.below r (by unfold Slot at hr ⊢; rw [e0, e1] at hr; exact hr)
        omega

theorem tri_moreFrames (R : Nat → Prop) (fuel : Nat) : Tri R (New R) (hMoreFrames fuel) := by
  unfold hMoreFrames
  exact .bind (tri_groupHeader R fuel) fun _ => .bind (.lift fun _ => keeps_storeHeader fun _ _ h => h) fun _ =>
    .bind (.lift fun _ => keeps_pictureCodingExtension) fun _ => .bind (.lift fun _ => keeps_extUser 2 fuel) fun _ => tri_pictureStep R
theorem tri_continueFrames (R : Nat → Prop) (fuel : Nat) : Tri R (New R) (hContinueFrames fuel) := by
  unfold hContinueFrames
  exact .bind (.lift fun _ => keeps_extUser 0 fuel) fun _ => tri_moreFrames R fuel
theorem tri_step (R : Nat → Prop) (fuel : Nat) : Tri R (New R) (hStep fuel) := by
  intro h hu
  unfold hStep
  split
  · refine (show Tri R (New R) (hResume fuel) from ?_) h hu
    unfold hResume
    refine .bind (.lift fun _ => keeps_vlift _) fun v => ?_
    split
    · exact tri_moreFrames R fuel
    · split
      · exact .bind (.lift fun _ => keeps_vlift _) fun _ => fun h hu => ⟨hu, fun a ha => (by cases ha)⟩
      · exact .bind (.lift fun _ => keeps_sequenceHeader) fun _ => .bind (.lift fun _ => keeps_sequenceExtension) fun _ => tri_continueFrames R fuel
  · refine (show Tri R (New R) (hStart fuel) from ?_) h hu
    unfold hStart
    refine .bind (.lift fun _ => keeps_vlift _) fun _ => .bind (.lift fun _ => keeps_sequenceHeader) fun _ =>
      .bind (.lift fun _ => keeps_vlift _) fun v => .bind (fun h hu => ⟨?_, fun _ _ => trivial⟩) fun _ => .bind (.lift fun _ => keeps_sequenceExtension) fun _ =>
      tri_continueFrames R fuel
    unfold Go.check
    split <;> exact hu

/-- the counter is small -/
abbrev Sm (h : HVS) : Prop := Cost.Small h.toVS

theorem pays0 (fuel : Nat) : Cost.Pays 0 (fun _ => 0) fuel := fun s f t _ => by show 0 + 0 * _ ≤ 0 * _; omega

/-- the state after a picture was returned -/
theorem counted_u {R : Nat → Prop} {h : HVS} {a : Nat} (hu : U R h) (hc : h.frameCounter < 1024) (ha : a < h.free)
    (hs : ∀ r, Slot h r → r.frame = a → r.previousGOP = false → r.temporalReference ≤ h.frameCounter) : U (fun b => b = a ∨ R b) h.count := by
  have e : h.count.frameCounter = h.frameCounter + 1 := Nat.mod_eq_of_lt (by omega)
  refine ⟨fun b hb => ?_, fun r hr hp hR => ?_, hu.ne, hu.below⟩
  · rcases hb with rfl | hb
    · exact ha
    · exact hu.old b hb
  · rw [e]
    rcases hR with k | k
    · have := hs r hr k hp; omega
    · have := hu.late r hr hp k; omega

theorem loop_u {R : Nat → Prop} (fuel : Nat) : ∀ (k : Nat) {h h' : HVS} {r : Res Nat}, U R h → h.Inv → Sm h → hNextLoop fuel k h = (r, h') →
    (∀ a, r = .ok a → ¬R a ∧ U (fun b => b = a ∨ R b) h') ∧ ((∀ a, r ≠ .ok a) → U R h') ∧ Sm h' ∧ h'.Inv
  | 0, h, h', r, hu, hi, hs, hx => by cases hx; exact ⟨fun a ha => (by cases ha), fun _ => hu, hs, hi⟩
  | k + 1, h, h', r, hu, hi, hs, hx => by
    unfold hNextLoop at hx
    rw [Go.bind_apply] at hx
    obtain ⟨x1, x2, x3, x4⟩ := simv_step fuel h hi
    obtain ⟨t1, t2⟩ := tri_step R fuel h hu
    rcases hst : hStep fuel h with ⟨q, h1⟩
    rcases hv : step fuel h.toVS with ⟨q', s1⟩
    rw [hst] at hx x1 x2 x3 x4 t1 t2
    rw [hv] at x1 x4
    have x1 : h1.toVS = s1 := x1
    subst x1
    cases q with
    | ok a =>
      cases q' with
      | ok f =>
        obtain ⟨n1, n2, ph, n3, n4⟩ := t2 a rfl
        obtain ⟨ph', g1, g2, g3, _, _⟩ := Cost.decodes (pays0 fuel) hs hv
        have g1 : h1.ph = some ph' := g1
        obtain rfl : ph = ph' := by rw [n3] at g1; exact Option.some.inj g1
        dsimp only at hx
        rw [Go.bind_ok (Go.get_apply _), n3] at hx
        dsimp only at hx
        by_cases he : ph.temporalReference = h1.frameCounter
        · rw [if_pos he, Go.bind_ok (Go.modify_apply _ _)] at hx
          cases hx
          refine ⟨fun b hb => ?_, fun hn => absurd rfl (hn a), (Cost.counted (K := 0) (w := fun _ => 0) g3.1 (by show h1.frameCounter < 1024; omega)).1, x2⟩
          cases hb
          exact ⟨n1, counted_u t1 (by omega) n2 fun r hr hra _ => by have := n4 r hr hra; omega⟩
        · rw [if_neg he] at hx
          exact loop_u fuel k t1 x2 g3 hx
      | err e => exact x4.elim
      | panic => exact x4.elim
      | hang => exact x4.elim
    | err e =>
      cases hx
      refine ⟨fun a ha => (by cases ha), fun _ => t1, ?_, x2⟩
      exact (Cost.fails (K := 0) (w := fun _ => 0) hs hv (fun f hf => by subst hf; exact x4.elim)).1
    | panic =>
      cases hx
      refine ⟨fun a ha => (by cases ha), fun _ => t1, ?_, x2⟩
      exact (Cost.fails (K := 0) (w := fun _ => 0) hs hv (fun f hf => by subst hf; exact x4.elim)).1
    | hang =>
      cases hx
      refine ⟨fun a ha => (by cases ha), fun _ => t1, ?_, x2⟩
      exact (Cost.fails (K := 0) (w := fun _ => 0) hs hv (fun f hf => by subst hf; exact x4.elim)).1

theorem matches_some {o : Option HRef} {c a : Nat} (h : HRef.matches o c = some a) :
    ∃ r, o = some r ∧ r.frame = a ∧ r.previousGOP = false ∧ r.temporalReference = c := by
  cases o with
  | none => cases h
  | some r =>
    unfold HRef.matches at h
    dsimp only at h
    split at h
    · rename_i hc
      cases h
      exact ⟨r, rfl, rfl, hc.1, hc.2⟩
    · cases h

theorem next_u {R : Nat → Prop} {fuel k : Nat} {h h' : HVS} {r : Res Nat} (hu : U R h) (hi : h.Inv) (hs : Sm h) (hx : HVS.next fuel k h = (r, h')) :
    (∀ a, r = .ok a → ¬R a ∧ U (fun b => b = a ∨ R b) h') ∧ ((∀ a, r ≠ .ok a) → U R h') ∧ Sm h' ∧ h'.Inv := by
  have hinv := (simv_next fuel k h hi).2.1
  unfold HVS.next at hx
  cases hg : h.fs.tryGet h.frameCounter with
  | none => rw [hg] at hx; exact loop_u fuel k hu hi hs hx
  | some a =>
    rw [hg] at hx
    cases hx
    have hslot : ∃ r, Slot h r ∧ r.frame = a ∧ r.previousGOP = false ∧ r.temporalReference = h.frameCounter := by
      unfold HStore.tryGet at hg
      cases hm : HRef.matches h.fs.f0 h.frameCounter with
      | some x =>
        rw [hm] at hg
        cases hg
        obtain ⟨r, h1, h2⟩ := matches_some hm
        exact ⟨r, .inl h1, h2⟩
      | none =>
        rw [hm] at hg
        obtain ⟨r, h1, h2⟩ := matches_some hg
        exact ⟨r, .inr h1, h2⟩
    obtain ⟨r, r1, r2, r3, r4⟩ := hslot
    have hv : h.toVS.fs.tryGet h.toVS.frameCounter = some (h.mem a) := by
      show (h.fs.at h.mem).tryGet h.frameCounter = _
      rw [at_tryGet, hg]; rfl
    have hc : h.frameCounter < 1024 := hs.1.get hv
    refine ⟨fun b hb => ?_, fun hn => absurd rfl (hn a), (Cost.counted (K := 0) (w := fun _ => 0) hs.1 hc).1, ?_⟩
    · cases hb
      refine ⟨fun hR => ?_, counted_u hu hc (r2 ▸ hu.below r r1) fun q hq hqa hqp => ?_⟩
      · have := hu.late r r1 r3 (r2.symm ▸ hR); omega
      · have : q = r := by
          rcases hq with hq | hq <;> rcases r1 with r1 | r1
          · exact Option.some.inj (hq.symm.trans r1)
          · exact absurd (hqa.trans r2.symm) (hu.ne q r hq r1)
          · exact absurd (r2.trans hqa.symm) (hu.ne r q r1 hq)
          · exact Option.some.inj (hq.symm.trans r1)
        rw [this, r4]; exact Nat.le_refl _
    · have : (HVS.next fuel k h).2.Inv := hinv
      unfold HVS.next at this
      rw [hg] at this
      exact this

theorem history {l : List Nat} {h : HVS} (hh : History l h) : U (· ∈ l) h ∧ h.Inv ∧ Sm h ∧ l.Nodup := by
  have up : ∀ {l : List Nat} {a : Nat} {h : HVS}, U (fun b => b = a ∨ b ∈ l) h → U (· ∈ a :: l) h := fun hu =>
    ⟨fun a ha => hu.old a (List.mem_cons.1 ha), fun r hr hp hR => hu.late r hr hp (List.mem_cons.1 hR), hu.ne, hu.below⟩
  induction hh with
  | new br =>
    exact ⟨⟨fun a ha => (by cases ha), fun r hr => (by rcases hr with hr | hr <;> cases hr), fun r q hr => (by cases hr),
      fun r hr => (by rcases hr with hr | hr <;> cases hr)⟩, inv_new br, (Cost.new (K := 0) (w := fun _ => 0) br).1, .nil⟩
  | got fuel k _ hx ih =>
    obtain ⟨u, i, s, n⟩ := ih
    obtain ⟨h1, _, h3, h4⟩ := next_u u i s hx
    obtain ⟨h1, h2⟩ := h1 _ rfl
    exact ⟨up h2, h4, h3, List.nodup_cons.2 ⟨h1, n⟩⟩
  | failed fuel k _ hx hr ih =>
    obtain ⟨u, i, s, n⟩ := ih
    obtain ⟨_, h2, h3, h4⟩ := next_u u i s hx
    exact ⟨h2 hr, h4, h3, n⟩
  | @draw l h a f _ ha ih =>
    obtain ⟨u, i, s, n⟩ := ih
    refine ⟨u.same rfl rfl (Nat.le_refl _) rfl, i, ⟨⟨fun r hr => ?_, fun r hr => ?_⟩, s.2⟩, n⟩
    · obtain ⟨q, q1, q2⟩ := Option.map_eq_some_iff.1 (show h.fs.f0.map _ = some r from hr)
      subst q2
      exact (s.1.1 (q.at h.mem) (show h.fs.f0.map (HRef.at · h.mem) = _ by rw [q1]; rfl) : _)
    · obtain ⟨q, q1, q2⟩ := Option.map_eq_some_iff.1 (show h.fs.f1.map _ = some r from hr)
      subst q2
      exact (s.1.2 (q.at h.mem) (show h.fs.f1.map (HRef.at · h.mem) = _ by rw [q1]; rfl) : _)
  | seek br _ ih =>
    obtain ⟨u, i, s, n⟩ := ih
    exact ⟨u.same rfl rfl (Nat.le_refl _) rfl, i, s, n⟩

end Twice

/-- **C151** `Next` never returns the same picture twice: whatever the input, and whatever the application does (calls after errors and
recovered panics, writing into pictures, moving the reader to any place, also back, or to another input), the pointers that the calls return
are pairwise different, and each was allocated by the decoder. -/
theorem C151 {l : List Nat} {h : HVS} (hh : History l h) : l.Nodup ∧ ∀ a ∈ l, a < h.free :=
  ⟨(Twice.history hh).2.2.2, (Twice.history hh).1.old⟩

/-- **C151** for consecutive calls. -/
theorem C151_calls (fuel k n : Nat) (br : BR) : (returned (pointers fuel k n (HVS.new br)).1).Nodup := by
  have key : ∀ (n : Nat) (l : List Nat) (h : HVS), History l h → ∃ h', History ((returned (pointers fuel k n h).1).reverse ++ l) h' := by
    intro n
    induction n with
    | zero => intro l h hh; exact ⟨h, hh⟩
    | succ n ih =>
      intro l h hh
      unfold pointers
      rcases hx : HVS.next fuel k h with ⟨r, h'⟩
      cases r with
      | ok a =>
        obtain ⟨t, ht⟩ := ih _ _ (.got fuel k hh hx)
        exact ⟨t, by simpa [returned] using ht⟩
      | err e =>
        obtain ⟨t, ht⟩ := ih _ _ (.failed fuel k hh hx fun a ha => (by cases ha))
        exact ⟨t, ht⟩
      | panic => exact ⟨h, hh⟩
      | hang => exact ⟨h, hh⟩
  obtain ⟨h', hh⟩ := key n [] _ (.new br)
  have := (C151 hh).1
  rw [List.append_nil] at this
  exact (List.pairwise_reverse.1 this).imp fun h => h.symm

namespace TwiceEx
open ExStream

/-- the application reads two pictures, moves the reader back to the beginning of the input, and reads two pictures again -/
def again (br : BR) : List (Res Nat) :=
  let p := pointers 2000 4 2 (HVS.new br)
  let q := pointers 2000 4 2 { p.2 with br := br }
  p.1 ++ q.1

/-- the picture that waits in the store is returned first; then the same pictures come, but decoded again -/
example : returned (again (.ofBits between)) = [0, 2, 1, 3] := by decide +kernel

theorem got_one {l : List Nat} {h : HVS} {a : Nat} (hh : History l h) (hr : returned [(HVS.next 2000 4 h).1] = [a]) :
    History (a :: l) (HVS.next 2000 4 h).2 := by
  rcases hx : HVS.next 2000 4 h with ⟨r, h'⟩
  rw [hx] at hr
  cases r with
  | ok b => cases hr; exact .got _ _ hh hx
  | err e => cases hr
  | panic => cases hr
  | hang => cases hr
theorem failed_one {l : List Nat} {h : HVS} (hh : History l h) (hr : returned [(HVS.next 2000 4 h).1] = []) :
    History l (HVS.next 2000 4 h).2 := by
  rcases hx : HVS.next 2000 4 h with ⟨r, h'⟩
  rw [hx] at hr
  cases r with
  | ok b => cases hr
  | err e => exact .failed _ _ hh hx fun a ha => (by cases ha)
  | panic => exact .failed _ _ hh hx fun a ha => (by cases ha)
  | hang => exact .failed _ _ hh hx fun a ha => (by cases ha)

def h0 : HVS := HVS.new (.ofBits between)
def h1 : HVS := (HVS.next 2000 4 h0).2
def h2 : HVS := (HVS.next 2000 4 h1).2
def h3 : HVS := (HVS.next 2000 4 h2).2
def h4 : HVS := (HVS.next 2000 4 h3).2
def h5 : HVS := { h4 with br := .ofBits between }
def h6 : HVS := (HVS.next 2000 4 h5).2

/-- a history with an error: the end of the sequence is reported, then the input starts again -/
theorem hist : ∃ h, History [5, 3, 1, 2, 0] h :=
  ⟨_, got_one (h := h6) (got_one (h := h5) (.seek _ (failed_one (h := h3) (got_one (h := h2) (got_one (h := h1) (got_one (h := h0) (.new _)
    (by decide +kernel)) (by decide +kernel)) (by decide +kernel)) (by decide +kernel))) (by decide +kernel)) (by decide +kernel)⟩

example : [5, 3, 1, 2, 0].Nodup := (C151 hist.choose_spec).1

end TwiceEx

end Mpeg.Video
