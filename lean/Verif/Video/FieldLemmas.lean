/-
Frames coded as one or two pictures: `Next` returns the first picture of each frame.
-/
import Verif.Video.FieldSpec
import Verif.Video.OrderLemmas3
set_option linter.all false
namespace Mpeg.Video
open Spec

/-- Pictures of the store precede display position `base`. -/
structure Past (fs : FrameStore) (base : Nat) : Prop where
  f0 : ∀ r, fs.f0 = some r → r.previousGOP = true ∨ r.temporalReference < base
  f1 : ∀ r, fs.f1 = some r → r.previousGOP = true ∨ r.temporalReference < base

theorem Past.ready {fs : FrameStore} {base : Nat} (h : Past fs base) : Ready fs base (fs.f1.map (·.frame)) :=
  ⟨rfl, h.f0, h.f1⟩
theorem Ready.old {fs : FrameStore} {base : Nat} {prev : Option Frame} (h : Ready fs base prev) : Past fs base :=
  ⟨h.f0, h.f1⟩
theorem Past.tryGet {fs : FrameStore} {base : Nat} (h : Past fs base) : fs.tryGet base = none := h.ready.tryGet
theorem Past.set {fs : FrameStore} {base tr : Nat} (h : Past fs base) : Past (fs.set tr) base := h.ready.set.old
theorem Past.add {fs : FrameStore} {base tr : Nat} (h : Past fs base) (f : Frame) (ht : tr < base) : Past (fs.add f tr) base :=
  ⟨h.f1, fun r hr => by cases hr; exact .inr ht⟩
theorem Past.entered {fs : FrameStore} {base : Nat} (h : Past fs base) (g : Bool) :
    Past (fs.entered g) (if g then 0 else base) := by
  cases g with
  | true => exact h.ready.enter.old
  | false => exact h

/-- The store while the B pictures before the reference frame at position `top` are decoded; `f` is its first picture. -/
inductive FMid (fs : FrameStore) (base top : Nat) (f : Frame) : Prop
  | one : (∀ r, fs.f0 = some r → r.previousGOP = true ∨ r.temporalReference < base) → fs.f1 = some ⟨f, top, false⟩ →
      FMid fs base top f
  | two {f' : Frame} : fs.f0 = some ⟨f, top, false⟩ → fs.f1 = some ⟨f', top, false⟩ → FMid fs base top f

theorem FMid.set {fs : FrameStore} {base top tr : Nat} {f : Frame} (h : FMid fs base top f) :
    FMid (fs.set tr) base top f := by
  obtain ⟨a, b⟩ := set_slots fs tr
  cases h with
  | one h0 h1 => exact .one (by rw [a]; exact h0) (by rw [b]; exact h1)
  | two h0 h1 => exact .two (by rw [a]; exact h0) (by rw [b]; exact h1)

theorem matches_none {o : Option RefFrame} {tr base : Nat}
    (h : ∀ r, o = some r → r.previousGOP = true ∨ r.temporalReference < base) (hb : base ≤ tr) :
    RefFrame.matches o tr = none := by
  cases o with
  | none => rfl
  | some r =>
    unfold RefFrame.matches
    have := h r rfl
    dsimp only
    rw [if_neg]
    rintro ⟨h1, h2⟩
    rcases this with h | h
    · rw [h1] at h; cases h
    · omega

theorem FMid.tryGet_none {fs : FrameStore} {base top x : Nat} {f : Frame} (h : FMid fs base top f) (h1 : base ≤ x)
    (h2 : x < top) : fs.tryGet x = none := by
  unfold FrameStore.tryGet
  have e : ∀ f, RefFrame.matches (some ⟨f, top, false⟩) x = none := by
    intro f
    unfold RefFrame.matches
    dsimp only
    rw [if_neg (by rintro ⟨_, h⟩; omega)]
  cases h with
  | one a b => rw [matches_none a h1, b, e]
  | two a b => rw [a, b, e, e]

theorem FMid.tryGet_top {fs : FrameStore} {base top : Nat} {f : Frame} (h : FMid fs base top f) (hb : base ≤ top) :
    fs.tryGet top = some f := by
  unfold FrameStore.tryGet
  have e : ∀ f, RefFrame.matches (some ⟨f, top, false⟩) top = some f := by
    intro f
    unfold RefFrame.matches
    dsimp only
    rw [if_pos ⟨rfl, rfl⟩]
  cases h with
  | one a b => rw [matches_none a hb, b, e]
  | two a b => rw [a, e]

theorem FMid.old {fs : FrameStore} {base top : Nat} {f : Frame} (h : FMid fs base top f) (hb : base ≤ top) :
    Past fs (top + 1) := by
  cases h with
  | one a b =>
    refine ⟨fun r hr => (a r hr).imp_right fun k => by omega, fun r hr => ?_⟩
    rw [b] at hr; cases hr; exact .inr (Nat.lt_succ_self _)
  | two a b =>
    refine ⟨fun r hr => ?_, fun r hr => ?_⟩
    · rw [a] at hr; cases hr; exact .inr (Nat.lt_succ_self _)
    · rw [b] at hr; cases hr; exact .inr (Nat.lt_succ_self _)

theorem Run.join {fuel : Nat} : ∀ {ps qs : List Pict} {s m s' : VS}, Run fuel s ps m → Run fuel m qs s' →
    Run fuel s (ps ++ qs) s'
  | [], _, _, _, _, h1, h2 => by cases h1; exact h2
  | p :: ps, qs, s, m, s', h1, h2 => by
    cases h1 with
    | cons hstep ht hg hph hk htr hp hf hr => exact .cons hstep ht hg hph hk htr hp hf (hr.join h2)

/-- A picture that is not the next one, if there is one, is decoded and dropped. -/
theorem drop_next {fuel k : Nat} {pend : Option Pict} {ps : List Pict} {s s' : VS}
    (h : Run fuel s (pend.toList ++ ps) s')
    (hp : ∀ q, pend = some q → q.newGop = false ∧ q.tr ≠ s.frameCounter) :
    ∃ m j, k ≤ j ∧ nextLoop fuel (k + 1) s = nextLoop fuel j m ∧ Run fuel m ps s' ∧ m.frameCounter = s.frameCounter ∧
      (pend = none → m = s) ∧ ∀ q, pend = some q → m.fs = if q.kind = 1 ∨ q.kind = 2 then (s.fs.set q.tr).add q.frame q.tr
        else s.fs.set q.tr := by
  cases pend with
  | none => exact ⟨s, k + 1, Nat.le_succ k, rfl, h, rfl, fun _ => rfl, fun q hq => (by cases hq)⟩
  | some q =>
    obtain ⟨m, he, hr⟩ := Run.inv (p := q) (ps := ps) h
    obtain ⟨h1, h2⟩ := hp q rfl
    have hc : m.frameCounter = s.frameCounter := by
      have := he.counter
      rw [h1] at this
      exact this
    refine ⟨m, k, Nat.le_refl k, loop_miss he (by rw [hc]; exact h2), hr, hc, fun h => (by cases h), fun q' hq => ?_⟩
    cases hq
    have := he.fs
    rw [h1] at this
    exact this

/-- The B frames of a group from the `i`-th on, then the reference frame. -/
theorem fbs_next {fuel k base top : Nat} {f : Frame} (hk : 2 ≤ k) (htop : top < 1024) :
    ∀ {bs : List (Pict × Option Pict)} {pend : Option Pict} {i : Nat} {s s' : VS},
    Run fuel s (pend.toList ++ bs.flatMap fun b => b.1 :: b.2.toList) s' → FMid s.fs base top f → s.frameCounter = base + i →
    base + i + bs.length = top → (∀ q, pend = some q → q.kind = 3 ∧ q.newGop = false ∧ q.tr < base + i) →
    (∀ b ∈ bs, b.1.kind = 3 ∧ b.1.newGop = false) → (∀ j (h : j < bs.length), bs[j].1.tr = base + i + j) →
    (∀ b ∈ bs, ∀ q, b.2 = some q → q.kind = 3 ∧ q.newGop = false ∧ q.tr = b.1.tr) →
    ∃ t pend' t', nexts fuel k (bs.length + 1) s = (.ok (bs.map (·.1.frame) ++ [f]), t) ∧ t.frameCounter = top + 1 ∧
      Past t.fs (top + 1) ∧ Run fuel t pend'.toList t' ∧ Eqv s' t' ∧
      (∀ q, pend' = some q → q.newGop = false ∧ q.tr < top + 1)
  | [], pend, i, s, s', h, hm, hc, hl, hp, _, _, _ => by
    have hl' : base + i = top := hl
    have h0 : Run fuel s pend.toList s' := by
      have : pend.toList ++ [] = pend.toList := List.append_nil _
      rw [← this]; exact h
    obtain ⟨t', r1, r2⟩ := eqv_run h0
    refine ⟨s.count, pend, t', ?_, ?_, hm.old (by omega), r1, r2, fun q hq => ?_⟩
    · refine nexts_one ?_
      unfold VS.next
      rw [hc, hl', hm.tryGet_top (by omega)]
    · rw [count_small (by omega)]; omega
    · obtain ⟨_, a, b⟩ := hp q hq
      exact ⟨a, by omega⟩
  | b :: bs, pend, i, s, s', h, hm, hc, hl, hp, hb, ht, hb2 => by
    have hlen : (b :: bs).length = bs.length + 1 := rfl
    rw [hlen] at hl
    obtain ⟨kk, rfl⟩ : ∃ kk, k = kk + 1 := ⟨k - 1, by omega⟩
    obtain ⟨m0, j, hj, hn, hr0, hc0, hs0, hf0⟩ := drop_next (k := kk) h fun q hq => by
      obtain ⟨_, a, b⟩ := hp q hq
      exact ⟨a, by omega⟩
    have hm0 : FMid m0.fs base top f := by
      cases pend with
      | none => rw [hs0 rfl]; exact hm
      | some q =>
        rw [hf0 q rfl, if_neg (by have := (hp q rfl).1; omega)]
        exact hm.set
    obtain ⟨m, he, hr⟩ := Run.inv (p := b.1) (ps := b.2.toList ++ bs.flatMap fun b => b.1 :: b.2.toList) (by
      simpa using hr0)
    obtain ⟨b1, b2⟩ := hb b (List.mem_cons_self ..)
    have htr : b.1.tr = base + i := ht 0 (by simp)
    have hfs : m.fs = m0.fs.set b.1.tr := by
      have := he.fs
      rw [b1, b2, if_neg (by omega)] at this
      exact this
    have hmc : m.frameCounter = base + i := by
      have := he.counter
      rw [b2] at this
      exact this.trans (hc0.trans hc)
    have h1 : VS.next fuel (kk + 1) s = (.ok b.1.frame, m.count) := by
      rw [next_loop (by rw [hc]; exact hm.tryGet_none (by omega) (by omega)), hn]
      exact loop_hit he (by rw [htr, hmc]) (by omega)
    obtain ⟨u, r1, r2⟩ := eqv_run hr
    have hm' : FMid m.count.fs base top f := by
      show FMid m.fs base top f
      rw [hfs]; exact hm0.set
    obtain ⟨t, pend', t', n1, n2, n3, n4, n5, n6⟩ := fbs_next hk htop (i := i + 1) (pend := b.2) r1 hm'
      (by rw [count_small (by omega)]; omega) (by omega)
      (fun q hq => by
        obtain ⟨x, y, z⟩ := hb2 b (List.mem_cons_self ..) q hq
        exact ⟨x, y, by omega⟩)
      (fun b' h' => hb b' (List.mem_cons_of_mem _ h')) (fun j hj => by
        have := ht (j + 1) (by rw [hlen]; omega)
        have e : (b :: bs)[j + 1]'(by rw [hlen]; omega) = bs[j] := rfl
        rw [e] at this
        omega)
      (fun b' h' => hb2 b' (List.mem_cons_of_mem _ h'))
    refine ⟨t, pend', t', ?_, n2, n3, n4, r2.trans n5, n6⟩
    rw [hlen, Nat.add_comm (bs.length + 1) 1]
    exact nexts_append (l := [b.1.frame]) (nexts_one h1) n1

theorem fgroup_next {fuel k base0 : Nat} {g : FGroup} {pend : Option Pict} {s s' : VS} (hk : 4 ≤ k)
    (h : Run fuel s (pend.toList ++ g.coded) s') (hd : Past s.fs s.frameCounter)
    (hp : ∀ q, pend = some q → q.newGop = false ∧ q.tr < s.frameCounter)
    (hb : base0 = if g.ref.newGop then 0 else s.frameCounter) (hl : g.Legal base0) (hs : base0 + g.bs.length < 1024) :
    ∃ t pend' t', nexts fuel k g.firsts.length s = (.ok (g.firsts.map (·.frame)), t) ∧
      t.frameCounter = base0 + g.bs.length + 1 ∧ Past t.fs (base0 + g.bs.length + 1) ∧ Run fuel t pend'.toList t' ∧
      Eqv s' t' ∧ (∀ q, pend' = some q → q.newGop = false ∧ q.tr < base0 + g.bs.length + 1) := by
  obtain ⟨kk, rfl⟩ : ∃ kk, k = kk + 1 := ⟨k - 1, by omega⟩
  obtain ⟨m, j, hj, hn, hr, hc0, hs0, hf0⟩ := drop_next (k := kk) h fun q hq => by
    obtain ⟨a, b⟩ := hp q hq
    exact ⟨a, by omega⟩
  have hn0 : VS.next fuel (kk + 1) s = nextLoop fuel j m := by rw [next_loop hd.tryGet, hn]
  have hdm : Past m.fs m.frameCounter := by
    rw [hc0]
    cases pend with
    | none => rw [hs0 rfl]; exact hd
    | some q =>
      rw [hf0 q rfl]
      split
      · exact hd.set.add _ (hp q rfl).2
      · exact hd.set
  obtain ⟨m1, he1, hr1⟩ := Run.inv (p := g.ref) hr
  have hc1 : m1.frameCounter = base0 := by rw [he1.counter, hb, hc0]
  have hd1 : Past (m.fs.entered g.ref.newGop) base0 := by
    have := hdm.entered g.ref.newGop
    rw [hb, ← hc0]; exact this
  have hf1 : m1.fs = ((m.fs.entered g.ref.newGop).set g.ref.tr).add g.ref.frame g.ref.tr := by
    have := he1.fs
    rw [if_pos hl.ref] at this
    exact this
  have hm1 : FMid m1.fs base0 (base0 + g.bs.length) g.ref.frame := by
    rw [hf1, hl.refTr]
    exact .one hd1.set.f1 rfl
  have hlen : g.firsts.length = g.bs.length + 1 := by simp [FGroup.firsts]
  have hmap : g.firsts.map (·.frame) = g.bs.map (·.1.frame) ++ [g.ref.frame] := by
    simp [FGroup.firsts]
  rw [hlen, hmap]
  cases hbs : g.bs with
  | nil =>
    rw [hbs] at hm1 hr1 hs
    have hr1' : Run fuel m1 g.ref2.toList s' := by simpa using hr1
    obtain ⟨t', r1, r2⟩ := eqv_run hr1'
    have htr := hl.refTr
    rw [hbs] at htr
    have htr : g.ref.tr = base0 := htr
    have hh : VS.next fuel (kk + 1) s = (.ok g.ref.frame, m1.count) := by
      rw [hn0]
      exact loop_hit he1 (by rw [htr, hc1]) (by omega)
    have hs' : base0 < 1024 := hs
    refine ⟨m1.count, g.ref2, t', nexts_one hh, ?_, hm1.old (Nat.le_add_right _ _), r1, r2, fun q hq => ?_⟩
    · rw [count_small (by omega), hc1]; rfl
    · obtain ⟨_, a, b⟩ := hl.ref2 q hq
      refine ⟨a, ?_⟩
      rw [b, htr]
      exact Nat.lt_succ_of_le (Nat.le_add_right _ _)
  | cons b bs =>
    have hlb : (b :: bs).length = bs.length + 1 := rfl
    rw [hbs] at hm1 hr1 hs
    have htr : g.ref.tr = base0 + (bs.length + 1) := by have := hl.refTr; rw [hbs] at this; exact this
    rw [hlb] at hs
    obtain ⟨j1, rfl⟩ : ∃ j1, j = j1 + 1 + 1 := ⟨j - 2, by omega⟩
    obtain ⟨m2, j2, hj2, hn2, hr2, hc2, hs2, hf2⟩ := drop_next (k := j1) hr1 fun q hq => by
      obtain ⟨_, a, b⟩ := hl.ref2 q hq
      exact ⟨a, by rw [b, htr, hc1]; omega⟩
    have hm2 : FMid m2.fs base0 (base0 + (b :: bs).length) g.ref.frame := by
      cases h2 : g.ref2 with
      | none => rw [hs2 h2]; exact hm1
      | some q =>
        obtain ⟨x, y, z⟩ := hl.ref2 q h2
        rw [hf2 q h2, if_pos x]
        obtain ⟨a1, a2⟩ := set_slots m1.fs q.tr
        refine .two (f' := q.frame) ?_ ?_
        · show (m1.fs.set q.tr).f1 = _
          rw [a2, hf1, htr]
          rfl
        · show some (RefFrame.mk q.frame q.tr false) = _
          rw [z, htr]
          rfl
    obtain ⟨m3, he3, hr3⟩ := Run.inv (p := b.1) (ps := b.2.toList ++ bs.flatMap fun b => b.1 :: b.2.toList) (by
      simpa using hr2)
    have hin : b ∈ g.bs := by rw [hbs]; exact List.mem_cons_self ..
    obtain ⟨b1, b2⟩ := hl.bs b hin
    have hget : ∀ j (h : j < (b :: bs).length), (b :: bs)[j].1.tr = base0 + j := by
      intro j hj
      have := hl.bsTr j (by rw [hbs]; exact hj)
      rw [← this]
      simp only [hbs]
    have hbt : b.1.tr = base0 := hget 0 (by simp)
    have hf3 : m3.fs = m2.fs.set b.1.tr := by
      have := he3.fs
      rw [b1, b2, if_neg (by omega)] at this
      exact this
    have hc3 : m3.frameCounter = base0 := by
      have := he3.counter
      rw [b2] at this
      exact this.trans (hc2.trans hc1)
    have hh : VS.next fuel (kk + 1) s = (.ok b.1.frame, m3.count) := by
      rw [hn0, loop_miss he1 (by rw [htr, hc1]; omega), hn2]
      exact loop_hit he3 (by rw [hbt, hc3]) (by omega)
    obtain ⟨u, r1, r2⟩ := eqv_run hr3
    have hm3 : FMid m3.count.fs base0 (base0 + (b :: bs).length) g.ref.frame := by
      show FMid m3.fs _ _ _
      rw [hf3]; exact hm2.set
    obtain ⟨t, pend', t', n1, n2, n3, n4, n5, n6⟩ := fbs_next (k := kk + 1) (by omega) (by rw [hlb]; omega) (i := 1)
      (pend := b.2) r1 hm3 (by rw [count_small (by omega)]; omega) (by rw [hlb]; omega)
      (fun q hq => by
        obtain ⟨x, y, z⟩ := hl.bs2 b hin q hq
        exact ⟨x, y, by omega⟩)
      (fun b' h' => hl.bs b' (by rw [hbs]; exact List.mem_cons_of_mem _ h')) (fun j hj => by
        have := hget (j + 1) (by rw [hlb]; omega)
        have e : (b :: bs)[j + 1]'(by rw [hlb]; omega) = bs[j] := rfl
        rw [e] at this
        omega)
      (fun b' h' => hl.bs2 b' (by rw [hbs]; exact List.mem_cons_of_mem _ h'))
    refine ⟨t, pend', t', ?_, n2, n3, n4, r2.trans n5, n6⟩
    rw [hlb, Nat.add_comm (bs.length + 1) 1]
    exact nexts_append (l := [b.1.frame]) (nexts_one hh) n1

/-- All frames. -/
theorem fgroups_next {fuel k : Nat} (hk : 4 ≤ k) : ∀ {gs : List FGroup} {pend : Option Pict} {s s' : VS},
    Run fuel s (pend.toList ++ gs.flatMap FGroup.coded) s' → Past s.fs s.frameCounter →
    (∀ q, pend = some q → q.newGop = false ∧ q.tr < s.frameCounter) → FLegal s.frameCounter gs →
    ∃ t pend' t', nexts fuel k (gs.flatMap FGroup.firsts).length s = (.ok ((gs.flatMap FGroup.firsts).map (·.frame)), t) ∧
      Past t.fs t.frameCounter ∧ Run fuel t pend'.toList t' ∧ Eqv s' t' ∧
      (∀ q, pend' = some q → q.newGop = false ∧ q.tr < t.frameCounter)
  | [], pend, s, s', h, hd, hp, _ => by
    refine ⟨s, pend, s', rfl, hd, ?_, Eqv.refl s', hp⟩
    have : pend.toList ++ [] = pend.toList := List.append_nil _
    rw [← this]; exact h
  | g :: gs, pend, s, s', h, hd, hp, hl => by
    cases hl with
    | cons base0 h1 h2 h3 h4 =>
      have h' : Run fuel s ((pend.toList ++ g.coded) ++ gs.flatMap FGroup.coded) s' := by
        rw [List.append_assoc]; exact h
      obtain ⟨m, r1, r2⟩ := h'.append
      obtain ⟨t, pend', t', n1, n2, n3, n4, n5, n6⟩ := fgroup_next hk r1 hd hp h1 h2 h3
      obtain ⟨u, q1, q2⟩ := r2.eqv n5
      have hr : Run fuel t (pend'.toList ++ gs.flatMap FGroup.coded) u := n4.join q1
      obtain ⟨v, p, w, k1, k2, k3, k4, k5⟩ := fgroups_next hk hr (by rw [n2]; exact n3) (by rw [n2]; exact n6)
        (by rw [n2]; exact h4)
      refine ⟨v, p, w, ?_, k2, k3, q2.trans k4, k5⟩
      have hdis : (g :: gs).flatMap FGroup.firsts = g.firsts ++ gs.flatMap FGroup.firsts := rfl
      rw [hdis, List.length_append, List.map_append]
      exact nexts_append n1 k1

end Mpeg.Video
