/-
What `Next` returns for pictures in any order; groups of pictures with gaps.
-/
import Verif.Video.OrderLemmas3
import Verif.Video.LostSpec
namespace Mpeg.Video
open Spec

/-- The store after a picture. -/
def FrameStore.after (fs : FrameStore) (p : Pict) : FrameStore :=
  if p.kind = 1 ∨ p.kind = 2 then ((fs.entered p.newGop).set p.tr).add p.frame p.tr else (fs.entered p.newGop).set p.tr

/-- The frames that successive calls of `Next` return from store `fs` and counter `c` while the pictures `ps` are decoded;
`true`: inside the loop of a call that found nothing in the store. -/
inductive Emits : Bool → FrameStore → Nat → List Pict → List Frame → Prop
  | wait {fs : FrameStore} {c : Nat} {ps : List Pict} {f : Frame} {l : List Frame} : fs.tryGet c = some f → c < 1024 →
      Emits false fs (c + 1) ps l → Emits false fs c ps (f :: l)
  | go {fs : FrameStore} {c : Nat} {ps : List Pict} {l : List Frame} : fs.tryGet c = none → Emits true fs c ps l →
      Emits false fs c ps l
  | hit {fs : FrameStore} {c : Nat} {p : Pict} {ps : List Pict} {l : List Frame} :
      p.tr = (if p.newGop then 0 else c) → Emits false (fs.after p) (p.tr + 1) ps l →
      Emits true fs c (p :: ps) (p.frame :: l)
  | miss {fs : FrameStore} {c : Nat} {p : Pict} {ps : List Pict} {l : List Frame} :
      p.tr ≠ (if p.newGop then 0 else c) → Emits true (fs.after p) (if p.newGop then 0 else c) ps l →
      Emits true fs c (p :: ps) l
  | done {fs : FrameStore} {c : Nat} : Emits true fs c [] []

/-- `n` calls of `Next`, the first of which is inside its loop if `b`; then the call after them. -/
def Calls (fuel k k' : Nat) (b : Bool) (s : VS) (l : List Frame) (e : Err) (P : Prop) : Prop :=
  match b, l with
  | true, [] => P → (nextLoop fuel k' s).1 = .err e
  | true, f :: l => ∃ t u, nextLoop fuel k' s = (.ok f, t) ∧ nexts fuel k l.length t = (.ok l, u) ∧
      (P → (VS.next fuel k u).1 = .err e)
  | false, l => ∃ u, nexts fuel k l.length s = (.ok l, u) ∧ (P → (VS.next fuel k u).1 = .err e)

theorem emits_calls {fuel k : Nat} {e : Err} {b : Bool} {fs : FrameStore} {c : Nat} {ps : List Pict} {l : List Frame}
    (h : Emits b fs c ps l) : ∀ {s s' : VS} {k' : Nat}, s.fs = fs → s.frameCounter = c → Run fuel s ps s' →
      ps.length < k → ps.length < k' → Calls fuel k k' b s l e ((step fuel s').1 = .err e) := by
  induction h with
  | @wait fs c ps f l h1 h2 _ ih =>
    intro s s' k' hf hc hr hk hk'
    subst hf hc
    obtain ⟨t', hr', hq⟩ := hr.eqv (eqv_count s)
    obtain ⟨u, n1, n2⟩ := ih (s := s.count) (k' := k') rfl (count_small h2) hr' hk hk'
    have hn : VS.next fuel k s = (.ok f, s.count) := by
      unfold VS.next
      rw [h1]
    refine ⟨u, ?_, fun he => n2 ((sim_step fuel s' t' hq).1.trans he)⟩
    rw [List.length_cons]
    unfold nexts
    rw [Go.bind_ok hn, Go.bind_ok n1]
    rfl
  | @go fs c ps l h1 _ ih =>
    intro s s' k' hf hc hr hk hk'
    subst hf hc
    have := ih (k' := k) rfl rfl hr hk hk
    have hn := next_loop (fuel := fuel) (k := k) h1
    cases l with
    | nil => exact ⟨s, rfl, fun he => by rw [hn]; exact this he⟩
    | cons f l =>
      obtain ⟨t, u, n1, n2, n3⟩ := this
      refine ⟨u, ?_, n3⟩
      rw [List.length_cons]
      unfold nexts
      rw [Go.bind_ok (hn.trans n1), Go.bind_ok n2]
      rfl
  | @hit fs c p ps l h1 _ ih =>
    intro s s' k' hf hc hr hk hk'
    subst hf hc
    obtain ⟨m, he, hr⟩ := hr.inv
    obtain ⟨t', hr', hq⟩ := hr.eqv (eqv_count m)
    have hlen : (p :: ps).length = ps.length + 1 := rfl
    have hmc : m.frameCounter = p.tr := by rw [he.counter, h1]
    obtain ⟨u, n1, n2⟩ := ih (s := m.count) (k' := k) he.fs
      (by rw [count_small (by rw [hmc]; exact he.tr), hmc]) hr' (by omega) (by omega)
    exact ⟨m.count, u, loop_hit he hmc.symm (by omega), n1, fun h => n2 ((sim_step fuel s' t' hq).1.trans h)⟩
  | @miss fs c p ps l h1 _ ih =>
    intro s s' k' hf hc hr hk hk'
    subst hf hc
    obtain ⟨m, he, hr⟩ := hr.inv
    have hlen : (p :: ps).length = ps.length + 1 := rfl
    obtain ⟨j, rfl⟩ : ∃ j, k' = j + 1 := ⟨k' - 1, by omega⟩
    have := ih (s := m) (k' := j) he.fs he.counter hr (by omega) (by omega)
    have hl := loop_miss (k := j) he (by rw [he.counter]; exact h1)
    cases l with
    | nil => intro h; rw [hl]; exact this h
    | cons f l =>
      obtain ⟨t, u, n1, n2⟩ := this
      exact ⟨t, u, hl.trans n1, n2⟩
  | done =>
    intro s s' k' hf hc hr hk hk' he
    cases hr
    obtain ⟨j, rfl⟩ : ∃ j, k' = j + 1 := ⟨k' - 1, by have : (0 : Nat) < k' := hk'; omega⟩
    unfold nextLoop
    rw [Go.bind_err (Prod.ext he rfl)]

/-! ### the order of the pictures -/

/-- Coding type of a reference picture. -/
def IsRef (k : Nat) : Prop := k = 1 ∨ k = 2

/-- What remains true of the coding order of a group of pictures when pictures are missing. -/
structure Ord (l : List (Nat × Nat)) : Prop where
  ref : ∀ a b, [a, b].Sublist l → IsRef b.1 → a.2 < b.2
  bs : ∀ a b, [a, b].Sublist l → ¬IsRef a.1 → ¬IsRef b.1 → a.2 < b.2
  ne : ∀ a b, [a, b].Sublist l → a.2 ≠ b.2
  tri : ∀ a b c, [a, b, c].Sublist l → IsRef a.1 → IsRef b.1 → a.2 < c.2
  small : ∀ a ∈ l, a.2 < 1024

theorem Ord.sublist {l l' : List (Nat × Nat)} (h : Ord l) (hs : l'.Sublist l) : Ord l' :=
  ⟨fun a b k => h.ref a b (k.trans hs), fun a b k => h.bs a b (k.trans hs), fun a b k => h.ne a b (k.trans hs),
    fun a b c k => h.tri a b c (k.trans hs), fun a k => h.small a (hs.subset k)⟩

theorem two_append {α : Type} {a b : α} {l l' : List α} (h : [a, b].Sublist (l ++ l')) :
    [a, b].Sublist l ∨ (a ∈ l ∧ b ∈ l') ∨ [a, b].Sublist l' := by
  obtain ⟨x, y, e, h1, h2⟩ := List.sublist_append_iff.1 h
  match x, y, e with
  | [], y, e => exact .inr (.inr (e ▸ h2))
  | [x1], y, e =>
    obtain ⟨rfl, rfl⟩ : a = x1 ∧ [b] = y := by simpa using e
    exact .inr (.inl ⟨h1.subset (by simp), h2.subset (by simp)⟩)
  | [x1, x2], y, e =>
    obtain ⟨rfl, rfl, rfl⟩ : a = x1 ∧ b = x2 ∧ y = [] := by simpa using e
    exact .inl h1
  | x1 :: x2 :: x3 :: x, y, e => simp at e

theorem three_append {α : Type} {a b c : α} {l l' : List α} (h : [a, b, c].Sublist (l ++ l')) :
    [a, b, c].Sublist l ∨ (a ∈ l ∧ c ∈ l') ∨ [a, b, c].Sublist l' := by
  obtain ⟨x, y, e, h1, h2⟩ := List.sublist_append_iff.1 h
  match x, y, e with
  | [], y, e => exact .inr (.inr (e ▸ h2))
  | [x1], y, e =>
    obtain ⟨rfl, rfl⟩ : a = x1 ∧ [b, c] = y := by simpa using e
    exact .inr (.inl ⟨h1.subset (by simp), h2.subset (by simp)⟩)
  | [x1, x2], y, e =>
    obtain ⟨rfl, rfl, rfl⟩ : a = x1 ∧ b = x2 ∧ [c] = y := by simpa using e
    exact .inr (.inl ⟨h1.subset (by simp), h2.subset (by simp)⟩)
  | [x1, x2, x3], y, e =>
    obtain ⟨rfl, rfl, rfl, rfl⟩ : a = x1 ∧ b = x2 ∧ c = x3 ∧ y = [] := by simpa using e
    exact .inl h1
  | x1 :: x2 :: x3 :: x4 :: x, y, e => simp at e

theorem Ord.append {l l' : List (Nat × Nat)} {n : Nat} (h : Ord l) (h' : Ord l') (hl : ∀ a ∈ l, a.2 < n)
    (hl' : ∀ a ∈ l', n ≤ a.2) : Ord (l ++ l') := by
  refine ⟨fun a b k r => ?_, fun a b k ra rb => ?_, fun a b k => ?_, fun a b c k ra rb => ?_, fun a k => ?_⟩
  · rcases two_append k with k | ⟨k1, k2⟩ | k
    · exact h.ref a b k r
    · exact Nat.lt_of_lt_of_le (hl a k1) (hl' b k2)
    · exact h'.ref a b k r
  · rcases two_append k with k | ⟨k1, k2⟩ | k
    · exact h.bs a b k ra rb
    · exact Nat.lt_of_lt_of_le (hl a k1) (hl' b k2)
    · exact h'.bs a b k ra rb
  · rcases two_append k with k | ⟨k1, k2⟩ | k
    · exact h.ne a b k
    · exact Nat.ne_of_lt (Nat.lt_of_lt_of_le (hl a k1) (hl' b k2))
    · exact h'.ne a b k
  · rcases three_append k with k | ⟨k1, k2⟩ | k
    · exact h.tri a b c k ra rb
    · exact Nat.lt_of_lt_of_le (hl a k1) (hl' c k2)
    · exact h'.tri a b c k ra rb
  · rcases List.mem_append.1 k with k | k
    · exact h.small a k
    · exact h'.small a k

theorem group_pairs {g : Group} {base : Nat} (h : g.Legal base) (hs : base + g.bs.length < 1024) :
    (g.bs.map Pict.header).Pairwise fun a b => a.2 < b.2 := by
  rw [List.pairwise_map, List.pairwise_iff_getElem]
  intro i j hi hj hij
  show (g.bs[i]).tr < (g.bs[j]).tr
  rw [h.bsTr i hi, h.bsTr j hj, Nat.mod_eq_of_lt (by omega), Nat.mod_eq_of_lt (by omega)]
  omega

theorem two_of_pairwise {α : Type} {R : α → α → Prop} {a b : α} {l : List α} (h : l.Pairwise R) (hs : [a, b].Sublist l) :
    R a b := by
  have := h.sublist hs
  simpa using this

theorem group_ord {g : Group} {base : Nat} (h : g.Legal base) (hs : base + g.bs.length < 1024) :
    Ord (g.coded.map Pict.header) ∧ ∀ a ∈ g.coded.map Pict.header, base ≤ a.2 ∧ a.2 < base + g.bs.length + 1 := by
  obtain ⟨ht, hb⟩ := Legal.bsAll h hs
  have hp := group_pairs h hs
  have hmem : ∀ a ∈ g.bs.map Pict.header, a.1 = 3 ∧ base ≤ a.2 ∧ a.2 < base + g.bs.length := by
    intro a ha
    obtain ⟨b, hb', rfl⟩ := List.mem_map.1 ha
    obtain ⟨k1, _, k2, k3⟩ := hb b hb'
    exact ⟨k1, k2, k3⟩
  have hall : ∀ a ∈ g.coded.map Pict.header, base ≤ a.2 ∧ a.2 < base + g.bs.length + 1 := by
    intro a ha
    rcases List.mem_cons.1 ha with rfl | ha
    · show base ≤ g.ref.tr ∧ g.ref.tr < _
      rw [ht]; omega
    · have := hmem a ha; omega
  have hsplit : ∀ a b, [a, b].Sublist (g.coded.map Pict.header) →
      (b ∈ g.bs.map Pict.header) ∧ ([a, b].Sublist (g.bs.map Pict.header) ∨ a = g.ref.header) := by
    intro a b k
    cases k with
    | cons _ k => exact ⟨k.subset (by simp), .inl k⟩
    | cons_cons _ k => exact ⟨k.subset (by simp), .inr rfl⟩
  refine ⟨⟨fun a b k r => ?_, fun a b k ra rb => ?_, fun a b k => ?_, fun a b c k ra rb => ?_, fun a k => ?_⟩, hall⟩
  · have h1 := (hmem b (hsplit a b k).1).1
    rcases r with r | r <;> omega
  · rcases (hsplit a b k).2 with k' | rfl
    · exact two_of_pairwise (R := fun a b : Nat × Nat => a.2 < b.2) hp k'
    · exact absurd h.ref ra
  · rcases (hsplit a b k).2 with k' | rfl
    · exact Nat.ne_of_lt (two_of_pairwise (R := fun a b : Nat × Nat => a.2 < b.2) hp k')
    · have h1 := (hmem b (hsplit _ b k).1).2.2
      show g.ref.tr ≠ b.2
      omega
  · have h1 : b ∈ g.bs.map Pict.header := by
      have k' : [a, b].Sublist (g.coded.map Pict.header) := .trans (by simp) k
      exact (hsplit a b k').1
    have h2 := (hmem b h1).1
    rcases rb with r | r <;> omega
  · have := hall a k; omega

theorem from_ord : ∀ {gs : List Group} {base : Nat}, LegalFrom base gs → base + (display gs).length ≤ 1024 →
    Ord ((coded gs).map Pict.header) ∧ ∀ a ∈ (coded gs).map Pict.header, base ≤ a.2
  | [], base, _, _ => ⟨⟨fun a b k => (by cases k), fun a b k => (by cases k), fun a b k => (by cases k),
      fun a b c k => (by cases k), fun a k => (by cases k)⟩, fun a k => (by cases k)⟩
  | g :: gs, base, h, hs => by
    cases h with
    | cons h1 h2 h3 =>
      have hlen : (display (g :: gs)).length = g.bs.length + 1 + (display gs).length := by
        simp [display, Group.display]
        omega
      obtain ⟨k1, k2⟩ := from_ord h3 (by omega)
      obtain ⟨k3, k4⟩ := group_ord h1 (by omega)
      have e : (coded (g :: gs)).map Pict.header = g.coded.map Pict.header ++ (coded gs).map Pict.header := by
        simp [coded]
      rw [e]
      refine ⟨k3.append k1 (fun a ha => (k4 a ha).2) k2, fun a ha => ?_⟩
      rcases List.mem_append.1 ha with ha | ha
      · exact (k4 a ha).1
      · have := k2 a ha; omega

/-! ### a group of pictures with gaps -/

/-- The pictures miss the counter. -/
theorem emits_lost {c : Nat} {rest : List Pict} {l : List Frame} (hrest : ∀ fs, Emits true fs c rest l) :
    ∀ {ps : List Pict} {fs : FrameStore}, (∀ p ∈ ps, p.newGop = false ∧ p.tr ≠ c) → Emits true fs c (ps ++ rest) l
  | [], fs, _ => hrest fs
  | p :: ps, fs, h => by
    obtain ⟨h1, h2⟩ := h p (List.mem_cons_self ..)
    refine .miss (by rw [h1]; exact h2) ?_
    rw [h1]
    exact emits_lost hrest fun q hq => h q (List.mem_cons_of_mem _ hq)

/-- The store inside a group of pictures: only `pend` can still be wanted at counter `c`. -/
structure Inside (fs : FrameStore) (c : Nat) (pend : Option Pict) : Prop where
  f0 : ∀ r, fs.f0 = some r → r.previousGOP = true ∨ r.temporalReference < c
  f1 : ∀ r, fs.f1 = some r → r.previousGOP = true ∨ r.temporalReference < c ∨
    ∃ q, pend = some q ∧ r = ⟨q.frame, q.tr, false⟩
  has : ∀ q, pend = some q → fs.f1 = some ⟨q.frame, q.tr, false⟩ ∧ IsRef q.kind ∧ c ≤ q.tr

theorem lost_matches_none {o : Option RefFrame} {c : Nat}
    (h : ∀ r, o = some r → r.previousGOP = true ∨ r.temporalReference ≠ c) : RefFrame.matches o c = none := by
  unfold RefFrame.matches
  cases o with
  | none => rfl
  | some r =>
    dsimp only
    rw [if_neg]
    rintro ⟨a, b⟩
    rcases h r rfl with k | k
    · rw [a] at k; cases k
    · exact k b

theorem Inside.get_none {fs : FrameStore} {c : Nat} {pend : Option Pict} (h : Inside fs c pend)
    (hp : ∀ q, pend = some q → q.tr ≠ c) : fs.tryGet c = none := by
  unfold FrameStore.tryGet
  rw [lost_matches_none fun r hr => (h.f0 r hr).imp_right Nat.ne_of_lt,
    lost_matches_none fun r hr => ?_]
  rcases h.f1 r hr with k | k | ⟨q, k, rfl⟩
  · exact .inl k
  · exact .inr (Nat.ne_of_lt k)
  · exact .inr (hp q k)

theorem Inside.get_some {fs : FrameStore} {q : Pict} (h : Inside fs q.tr (some q)) : fs.tryGet q.tr = some q.frame := by
  unfold FrameStore.tryGet
  rw [lost_matches_none fun r hr => (h.f0 r hr).imp_right Nat.ne_of_lt, (h.has q rfl).1]
  unfold RefFrame.matches
  dsimp only
  rw [if_pos ⟨rfl, rfl⟩]

theorem Inside.drop {fs : FrameStore} {q : Pict} (h : Inside fs q.tr (some q)) : Inside fs (q.tr + 1) none := by
  refine ⟨fun r hr => (h.f0 r hr).imp_right fun k => by omega, fun r hr => ?_, fun q h => (by cases h)⟩
  rcases h.f1 r hr with k | k | ⟨q', k, rfl⟩
  · exact .inl k
  · exact .inr (.inl (by omega))
  · cases k; exact .inr (.inl (Nat.lt_succ_self _))

/-- After a B picture at the counter. -/
theorem Inside.b {fs : FrameStore} {c : Nat} {pend : Option Pict} {p : Pict} (h : Inside fs c pend) (hp : p.newGop = false)
    (hk : ¬IsRef p.kind) (hn : ∀ q, pend = some q → q.tr ≠ c) : Inside (fs.after p) (c + 1) pend := by
  have e : fs.after p = fs.set p.tr := by
    unfold FrameStore.after
    rw [if_neg (show ¬(p.kind = 1 ∨ p.kind = 2) from hk), hp]
    rfl
  obtain ⟨a, b⟩ := set_slots fs p.tr
  refine ⟨fun r hr => ?_, fun r hr => ?_, fun q hq => ?_⟩
  · rw [e, a] at hr
    exact (h.f0 r hr).imp_right fun k => by omega
  · rw [e, b] at hr
    exact (h.f1 r hr).imp_right fun k => k.imp_left fun k => by omega
  · rw [e, b]
    obtain ⟨k1, k2, k3⟩ := h.has q hq
    exact ⟨k1, k2, by have := hn q hq; omega⟩

/-- After a reference picture. -/
theorem Inside.ref {fs : FrameStore} {c : Nat} {p : Pict} (h : Inside fs c .none) (hp : p.newGop = false)
    (hk : IsRef p.kind) (hc : c ≤ p.tr) : Inside (fs.after p) c (.some p) := by
  have e : fs.after p = (fs.set p.tr).add p.frame p.tr := by
    unfold FrameStore.after
    rw [if_pos (show p.kind = 1 ∨ p.kind = 2 from hk), hp]
    rfl
  obtain ⟨a, b⟩ := set_slots fs p.tr
  have e0 : (fs.after p).f0 = fs.f1 := by rw [e]; exact b
  have e1 : (fs.after p).f1 = Option.some ⟨p.frame, p.tr, false⟩ := by rw [e]; rfl
  refine ⟨fun r hr => ?_, fun r hr => ?_, fun q hq => ?_⟩
  · rw [e0] at hr
    rcases h.f1 r hr with k | k | ⟨q, k, _⟩
    · exact .inl k
    · exact .inr k
    · cases k
  · rw [e1] at hr
    cases hr
    exact .inr (.inr ⟨p, rfl, rfl⟩)
  · cases hq
    exact ⟨e1, hk, hc⟩

/-- `l` are the frames from temporal reference `c` on. -/
def ShownFrom (c : Nat) (ps : List Pict) (l : List Frame) : Prop :=
  (∀ i (h : i < l.length), ∃ p ∈ ps, p.tr = c + i ∧ p.frame = l[i]) ∧ ∀ p ∈ ps, p.tr ≠ c + l.length

theorem ShownFrom.tail {c : Nat} {ps qs : List Pict} {f : Frame} {l : List Frame} (h : ShownFrom c ps (f :: l))
    (hsub : ∀ p ∈ qs, p ∈ ps) (hrest : ∀ p ∈ ps, p.tr ≠ c → p ∈ qs) : ShownFrom (c + 1) qs l := by
  obtain ⟨h1, h2⟩ := h
  refine ⟨fun i hi => ?_, fun p hp => ?_⟩
  · obtain ⟨p, p1, p2, p3⟩ := h1 (i + 1) (Nat.succ_lt_succ hi)
    exact ⟨p, hrest p p1 (by omega), by omega, p3⟩
  · have := h2 p (hsub p hp)
    rw [List.length_cons] at this
    omega

/-- The pictures in front of the decoder. -/
structure Ahead (c : Nat) (pend : Option Pict) (ps : List Pict) : Prop where
  ord : Ord ((pend.toList ++ ps).map Pict.header)
  ge : ∀ p ∈ ps, c ≤ p.tr
  gop : ∀ p ∈ ps, p.newGop = false

theorem Ahead.tail {c : Nat} {pend : Option Pict} {p : Pict} {ps : List Pict} (h : Ahead c pend (p :: ps)) :
    Ahead c pend ps :=
  ⟨h.ord.sublist (.map _ (.append (List.Sublist.refl _) (List.sublist_cons_self ..))), fun q hq => h.ge q (List.mem_cons_of_mem _ hq),
    fun q hq => h.gop q (List.mem_cons_of_mem _ hq)⟩

theorem pair_sub {p q : Pict} {ps : List Pict} (h : q ∈ ps) :
    [p.header, q.header].Sublist ((p :: ps).map Pict.header) := by
  have : [p, q].Sublist (p :: ps) := .cons_cons _ (List.singleton_sublist.2 h)
  exact this.map Pict.header

theorem tri_sub {p q r : Pict} {ps : List Pict} (h : r ∈ ps) :
    [p.header, q.header, r.header].Sublist ((p :: q :: ps).map Pict.header) := by
  have : [p, q, r].Sublist (p :: q :: ps) := .cons_cons _ (.cons_cons _ (List.singleton_sublist.2 h))
  exact this.map Pict.header

/-- The store is asked first; `ht`: the rest of the call. -/
theorem emits_store {ps rest : List Pict} {l' : List Frame} {c : Nat} {fs : FrameStore} {pend : Option Pict} {l : List Frame}
    (ht : ∀ {c : Nat} {fs : FrameStore} {pend : Option Pict} {l : List Frame}, Inside fs c pend → Ahead c pend ps →
      (∀ q, pend = some q → q.tr ≠ c) → ShownFrom c (pend.toList ++ ps) l → Emits true fs c (ps ++ rest) (l ++ l'))
    (hi : Inside fs c pend) (ha : Ahead c pend ps) (hs : ShownFrom c (pend.toList ++ ps) l) :
    Emits false fs c (ps ++ rest) (l ++ l') := by
  have go : ∀ {c : Nat} {pend : Option Pict} {l : List Frame}, Inside fs c pend → Ahead c pend ps →
      (∀ q, pend = some q → q.tr ≠ c) → ShownFrom c (pend.toList ++ ps) l → Emits false fs c (ps ++ rest) (l ++ l') :=
    fun hi ha hn hs => .go (hi.get_none hn) (ht hi ha hn hs)
  by_cases hq : ∃ q, pend = some q ∧ q.tr = c
  · obtain ⟨q, rfl, rfl⟩ := hq
    cases l with
    | nil => exact absurd rfl (hs.2 q (List.mem_cons_self ..))
    | cons f l =>
      have hne : ∀ p ∈ ps, q.tr ≠ p.tr := fun p hp => ha.ord.ne _ _ (pair_sub hp)
      obtain ⟨p, p1, p2, p3⟩ := hs.1 0 (Nat.succ_pos _)
      have : p = q := by
        rcases List.mem_cons.1 p1 with k | k
        · exact k
        · exact absurd p2.symm (hne p k)
      subst this
      have hf : p.frame = f := p3
      subst hf
      have hsm := ha.ord.small p.header (List.mem_map_of_mem (List.mem_cons_self ..))
      refine .wait hi.get_some hsm (go hi.drop ⟨ha.ord.sublist (.map _ (List.sublist_cons_self ..)), fun q hq => ?_, ha.gop⟩
        (fun q h => (by cases h)) (hs.tail (fun q hq => List.mem_cons_of_mem _ hq) fun q hq hn => ?_))
      · have := ha.ge q hq
        have := hne q hq
        omega
      · rcases List.mem_cons.1 hq with rfl | k
        · exact absurd rfl hn
        · exact k
  · exact go hi ha (fun q h1 h2 => hq ⟨q, h1, h2⟩) hs

theorem emits_loop {rest : List Pict} {l' : List Frame} (hrest : ∀ fs c, Emits true fs c rest l') :
    ∀ {ps : List Pict} {c : Nat} {fs : FrameStore} {pend : Option Pict} {l : List Frame}, Inside fs c pend →
      Ahead c pend ps → (∀ q, pend = some q → q.tr ≠ c) → ShownFrom c (pend.toList ++ ps) l →
      Emits true fs c (ps ++ rest) (l ++ l') := by
  intro ps
  induction ps with
  | nil =>
    intro c fs pend l hi ha hn hs
    have : l = [] := by
      cases l with
      | nil => rfl
      | cons f l =>
        obtain ⟨p, p1, p2, _⟩ := hs.1 0 (Nat.succ_pos _)
        rw [List.append_nil] at p1
        exact absurd p2 (hn p (Option.mem_toList.1 p1))
    subst this
    exact hrest fs c
  | cons q ps ih =>
    intro c fs pend l hi ha hn hs
    cases l with
    | nil =>
      refine emits_lost (hrest · c) fun p hp => ⟨ha.gop p hp, hs.2 p (List.mem_append_right _ hp)⟩
    | cons f l =>
      obtain ⟨p, p1, p2, p3⟩ := hs.1 0 (Nat.succ_pos _)
      have p2 : p.tr = c := p2
      have p3 : p.frame = f := p3
      have hp : p ∈ q :: ps := by
        rcases List.mem_append.1 p1 with k | k
        · exact absurd p2 (hn p (Option.mem_toList.1 k))
        · exact k
      have hg := ha.gop q (List.mem_cons_self ..)
      have hord : Ord ((q :: ps).map Pict.header) := ha.ord.sublist (.map _ (List.sublist_append_right ..))
      have hne : ∀ x ∈ ps, q.tr ≠ x.tr := fun x hx => hord.ne _ _ (pair_sub hx)
      by_cases hq : q.tr = c
      · -- the picture is due
        have hpq : p = q := by
          rcases List.mem_cons.1 hp with k | k
          · exact k
          · exact absurd (hq.trans p2.symm) (hne p k)
        subst hpq
        subst hq p3
        refine .hit (by rw [hg]; rfl) ?_
        have hge : ∀ x ∈ ps, p.tr + 1 ≤ x.tr := fun x hx => by
          have := ha.ge x (List.mem_cons_of_mem _ hx)
          have := hne x hx
          omega
        by_cases hk : IsRef p.kind
        · have : pend = none := by
            cases pend with
            | none => rfl
            | some r =>
              have h1 := ha.ord.ref _ _ (pair_sub (p := r) hp) hk
              have h1 : r.tr < p.tr := h1
              have := (hi.has r rfl).2.2
              omega
          subst this
          refine emits_store ih (hi.ref hg hk (Nat.le_refl _)).drop ⟨ha.ord.sublist (.map _ (List.sublist_cons_self ..)), hge,
            ha.tail.gop⟩ (hs.tail (fun x hx => List.mem_cons_of_mem _ hx) fun x hx hxn => ?_)
          rcases List.mem_cons.1 hx with rfl | k
          · exact absurd rfl hxn
          · exact k
        · refine emits_store ih (hi.b hg hk hn) ⟨ha.tail.ord, hge, ha.tail.gop⟩ (hs.tail (fun x hx => ?_) fun x hx hxn => ?_)
          · rcases List.mem_append.1 hx with k | k
            · exact List.mem_append_left _ k
            · exact List.mem_append_right _ (List.mem_cons_of_mem _ k)
          · rcases List.mem_append.1 hx with k | k
            · exact List.mem_append_left _ k
            · rcases List.mem_cons.1 k with rfl | k
              · exact absurd rfl hxn
              · exact List.mem_append_right _ k
      · -- the picture comes too early: it is a reference picture
        have hps : p ∈ ps := by
          rcases List.mem_cons.1 hp with k | k
          · exact absurd (k ▸ p2) hq
          · exact k
        have hlt : c < q.tr := by have := ha.ge q (List.mem_cons_self ..); omega
        have hpb : ¬IsRef p.kind := fun hk => by
          have : q.tr < p.tr := hord.ref _ _ (pair_sub hps) hk
          omega
        have hk : IsRef q.kind := by
          rcases Classical.em (IsRef q.kind) with k | k
          · exact k
          · have : q.tr < p.tr := hord.bs _ _ (pair_sub hps) k hpb
            omega
        have : pend = none := by
          cases pend with
          | none => rfl
          | some r =>
            obtain ⟨_, r2, r3⟩ := hi.has r rfl
            have h1 : r.tr < p.tr := ha.ord.tri _ _ _ (tri_sub (p := r) (q := q) hps) r2 hk
            omega
        subst this
        refine .miss (by rw [hg]; exact hq) ?_
        rw [hg]
        refine ih (hi.ref hg hk (Nat.le_of_lt hlt)) ⟨ha.ord, fun x hx => ha.ge x (List.mem_cons_of_mem _ hx), ha.tail.gop⟩ ?_ hs
        intro x hx
        cases hx
        exact hq

/-! ### many groups of pictures -/

theorem emits_enter {fs : FrameStore} {c : Nat} {p : Pict} {ps : List Pict} {l : List Frame} (hp : p.newGop = true)
    (h : Emits true (fs.entered true) 0 ({ p with newGop := false } :: ps) l) : Emits true fs c (p :: ps) l := by
  have e : (fs.entered true).after { p with newGop := false } = fs.after p := by
    unfold FrameStore.after
    rw [hp]
    rfl
  cases h with
  | hit h1 h2 =>
    rw [e] at h2
    exact .hit (by rw [hp]; exact h1) h2
  | miss h1 h2 =>
    rw [e] at h2
    exact .miss (by rw [hp]; exact h1) (by rw [hp]; exact h2)

theorem emits_gops : ∀ {gops : List (List Pict × List Frame)}, (∀ g ∈ gops, Damaged g.1 ∧ Shown g.1 g.2) →
    ∀ fs c, Emits true fs c (gops.flatMap (·.1)) (gops.flatMap (·.2))
  | [], _, fs, c => .done
  | (ps, l) :: gops, h, fs, c => by
    obtain ⟨h1, h2⟩ := h _ (List.mem_cons_self ..)
    have ih := emits_gops fun g hg => h g (List.mem_cons_of_mem _ hg)
    obtain ⟨p, rest, rfl, hp, hq⟩ := h1.head
    obtain ⟨gs, g1, g2, g3⟩ := h1.order
    have hord := (from_ord g1 (by omega)).1.sublist g3
    show Emits true fs c (p :: (rest ++ gops.flatMap (·.1))) (l ++ gops.flatMap (·.2))
    refine emits_enter hp ?_
    have key := emits_loop ih (ps := { p with newGop := false } :: rest) (c := 0) (fs := fs.entered true) (pend := none) (l := l)
    refine key ⟨fun r hr => ?_, fun r hr => ?_, fun q h => (by cases h)⟩ ⟨hord, fun _ _ => Nat.zero_le _, fun q h => ?_⟩
      (fun q h => (by cases h)) ⟨fun i hi => ?_, fun q h => ?_⟩
    · simp only [FrameStore.entered, FrameStore.markGOP, ↓reduceIte, Option.map_eq_some_iff] at hr
      obtain ⟨a, _, rfl⟩ := hr
      exact .inl rfl
    · simp only [FrameStore.entered, FrameStore.markGOP, ↓reduceIte, Option.map_eq_some_iff] at hr
      obtain ⟨a, _, rfl⟩ := hr
      exact .inl rfl
    · rcases List.mem_cons.1 h with rfl | h
      · rfl
      · exact hq q h
    · obtain ⟨x, x1, x2, x3⟩ := h2.1 i hi
      rcases List.mem_cons.1 x1 with rfl | k
      · exact ⟨_, List.mem_cons_self .., by show x.tr = _; omega, x3⟩
      · exact ⟨x, List.mem_cons_of_mem _ k, by omega, x3⟩
    · rcases List.mem_cons.1 h with rfl | k
      · have : p.tr ≠ l.length := h2.2 p (List.mem_cons_self ..)
        show p.tr ≠ _
        omega
      · have : q.tr ≠ l.length := h2.2 q (List.mem_cons_of_mem _ k)
        omega

end Mpeg.Video
