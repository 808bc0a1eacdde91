/-
One group of a reference picture and its B pictures: references used, frames returned by `Next`.
-/
import Verif.Video.OrderLemmas2
namespace Mpeg.Video
open Spec

/-- Frames of the store precede display position `base`; the latest is `prev`. -/
structure Ready (fs : FrameStore) (base : Nat) (prev : Option Frame) : Prop where
  prev : fs.f1.map (·.frame) = prev
  f0 : ∀ r, fs.f0 = some r → r.previousGOP = true ∨ r.temporalReference < base
  f1 : ∀ r, fs.f1 = some r → r.previousGOP = true ∨ r.temporalReference < base

theorem Ready.enter {fs : FrameStore} {base : Nat} {prev : Option Frame} (h : Ready fs base prev) :
    Ready (fs.entered true) 0 prev := by
  refine ⟨?_, ?_, ?_⟩
  · have := h.prev
    simp only [FrameStore.entered, FrameStore.markGOP, ↓reduceIte]
    cases hf : fs.f1 <;> rw [hf] at this <;> exact this
  · intro r hr
    simp only [FrameStore.entered, FrameStore.markGOP, ↓reduceIte, Option.map_eq_some_iff] at hr
    obtain ⟨a, _, rfl⟩ := hr
    exact .inl rfl
  · intro r hr
    simp only [FrameStore.entered, FrameStore.markGOP, ↓reduceIte, Option.map_eq_some_iff] at hr
    obtain ⟨a, _, rfl⟩ := hr
    exact .inl rfl

theorem setOne_slots (fs : FrameStore) (r : Option RefFrame) (tr : Nat) :
    (fs.setOne r tr).f0 = fs.f0 ∧ (fs.setOne r tr).f1 = fs.f1 := by
  unfold FrameStore.setOne
  cases r with
  | none => exact ⟨rfl, rfl⟩
  | some r => dsimp only; split <;> exact ⟨rfl, rfl⟩

theorem set_slots (fs : FrameStore) (tr : Nat) : (fs.set tr).f0 = fs.f0 ∧ (fs.set tr).f1 = fs.f1 := by
  unfold FrameStore.set
  rw [(setOne_slots _ _ _).1, (setOne_slots _ _ _).2]
  exact setOne_slots _ _ _

theorem Ready.set {fs : FrameStore} {base tr : Nat} {prev : Option Frame} (h : Ready fs base prev) :
    Ready (fs.set tr) base prev := by
  obtain ⟨a, b⟩ := set_slots fs tr
  exact ⟨by rw [b]; exact h.prev, by rw [a]; exact h.f0, by rw [b]; exact h.f1⟩

theorem Ready.past {fs : FrameStore} {base tr : Nat} {prev : Option Frame} (h : Ready fs base prev) (hb : base ≤ tr)
    (hp : prev ≠ none) : (fs.set tr).past = prev := by
  cases hf : fs.f1 with
  | none => have := h.prev; rw [hf] at this; exact absurd this.symm hp
  | some r =>
    have h1 : r.previousGOP = true ∨ r.temporalReference < tr := (h.f1 r hf).imp_right fun k => by omega
    unfold FrameStore.set FrameStore.setOne
    rw [hf]
    dsimp only
    rw [if_pos h1, ← h.prev, hf]
    rfl

theorem Ready.tryGet {fs : FrameStore} {base : Nat} {prev : Option Frame} (h : Ready fs base prev) :
    fs.tryGet base = none := by
  have m : ∀ o : Option RefFrame, (∀ r, o = some r → r.previousGOP = true ∨ r.temporalReference < base) →
      RefFrame.matches o base = none := by
    intro o ho
    unfold RefFrame.matches
    cases o with
    | none => rfl
    | some r =>
      dsimp only
      rw [if_neg]
      rintro ⟨a, b⟩
      rcases ho r rfl with k | k
      · rw [a] at k; cases k
      · omega
  unfold FrameStore.tryGet
  rw [m _ h.f0, m _ h.f1]

/-- The store between a reference picture at display position `top` and the end of its B pictures. -/
structure Mid (fs : FrameStore) (base top : Nat) (prev : Option Frame) (f : Frame) : Prop where
  prev : fs.f0.map (·.frame) = prev
  f0 : ∀ r, fs.f0 = some r → r.previousGOP = true ∨ r.temporalReference < base
  f1 : fs.f1 = some ⟨f, top, false⟩

theorem Mid.set {fs : FrameStore} {base top tr : Nat} {prev : Option Frame} {f : Frame} (h : Mid fs base top prev f) :
    Mid (fs.set tr) base top prev f := by
  obtain ⟨a, b⟩ := set_slots fs tr
  exact ⟨by rw [a]; exact h.prev, by rw [a]; exact h.f0, by rw [b]; exact h.f1⟩

theorem Ready.mid {fs : FrameStore} {base : Nat} {prev : Option Frame} (h : Ready fs base prev) (f : Frame) (top : Nat) :
    Mid (fs.add f top) base top prev f := ⟨h.prev, h.f1, rfl⟩

theorem Mid.ready {fs : FrameStore} {base top : Nat} {prev : Option Frame} {f : Frame} (h : Mid fs base top prev f)
    (hb : base ≤ top) : Ready fs (top + 1) (some f) := by
  refine ⟨by rw [h.f1]; rfl, fun r hr => (h.f0 r hr).imp_right fun k => by omega, fun r hr => ?_⟩
  rw [h.f1] at hr
  cases hr
  exact .inr (Nat.lt_succ_self _)

theorem Mid.refs {fs : FrameStore} {base top tr : Nat} {prev : Option Frame} {f : Frame} (h : Mid fs base top prev f)
    (hb : base ≤ tr) (ht : tr < top) :
    (prev ≠ none → (fs.set tr).past = prev) ∧ (fs.set tr).future = some f := by
  have hn : ¬((false : Bool) = true ∨ top < tr) := by rintro (k | k); cases k; omega
  unfold FrameStore.set
  rw [h.f1]
  have hr : ∀ fs' : FrameStore, fs'.setOne (some ⟨f, top, false⟩) tr = { fs' with future := some f } := by
    intro fs'
    unfold FrameStore.setOne
    dsimp only
    rw [if_neg hn]
  rw [hr]
  refine ⟨fun hp => ?_, rfl⟩
  cases hf : fs.f0 with
  | none => have := h.prev; rw [hf] at this; exact absurd this.symm hp
  | some r =>
    have h1 : r.previousGOP = true ∨ r.temporalReference < tr := (h.f0 r hf).imp_right fun k => by omega
    unfold FrameStore.setOne
    dsimp only
    rw [if_pos h1, ← h.prev, hf]
    rfl

theorem Mid.tryGet_none {fs : FrameStore} {base top tr : Nat} {prev : Option Frame} {f : Frame}
    (h : Mid fs base top prev f) (hb : base ≤ tr) (ht : tr < top) : fs.tryGet tr = none := by
  unfold FrameStore.tryGet
  have h0 : RefFrame.matches fs.f0 tr = none := by
    cases hf : fs.f0 with
    | none => rfl
    | some r =>
      unfold RefFrame.matches
      dsimp only
      rw [if_neg]
      rintro ⟨a, b⟩
      rcases h.f0 r hf with k | k
      · rw [a] at k; cases k
      · omega
  rw [h0, h.f1]
  unfold RefFrame.matches
  dsimp only
  rw [if_neg]
  rintro ⟨_, b⟩
  omega

theorem Mid.tryGet_top {fs : FrameStore} {base top : Nat} {prev : Option Frame} {f : Frame}
    (h : Mid fs base top prev f) (hb : base ≤ top) : fs.tryGet top = some f := by
  unfold FrameStore.tryGet
  have h0 : RefFrame.matches fs.f0 top = none := by
    cases hf : fs.f0 with
    | none => rfl
    | some r =>
      unfold RefFrame.matches
      dsimp only
      rw [if_neg]
      rintro ⟨a, b⟩
      rcases h.f0 r hf with k | k
      · rw [a] at k; cases k
      · omega
  rw [h0, h.f1]
  unfold RefFrame.matches
  dsimp only
  rw [if_pos ⟨rfl, rfl⟩]

/-! ### references -/

/-- The B pictures of a group. -/
theorem bs_refs {fuel base top : Nat} {prev : Option Frame} {f : Frame} : ∀ {bs : List Pict} {s s' : VS},
    Run fuel s bs s' → Mid s.fs base top prev f →
    (∀ b ∈ bs, b.kind = 3 ∧ b.newGop = false ∧ base ≤ b.tr ∧ b.tr < top) →
    (∀ b ∈ bs, (prev ≠ none → b.past = prev) ∧ b.future = some f) ∧ Mid s'.fs base top prev f
  | [], _, _, h, hm, _ => by cases h; exact ⟨fun b hb => (by cases hb), hm⟩
  | b :: bs, s, s', h, hm, hb => by
    obtain ⟨m, he, hr⟩ := h.inv
    obtain ⟨b1, b2, b3, b4⟩ := hb b (List.mem_cons_self ..)
    have hfs : m.fs = s.fs.set b.tr := by
      have := he.fs
      rw [b1, b2, if_neg (by omega)] at this
      exact this
    have hp := he.past
    have hf := he.future
    rw [b2] at hp hf
    obtain ⟨r1, r2⟩ := hm.refs (tr := b.tr) b3 b4
    have k := bs_refs hr (by rw [hfs]; exact hm.set) fun b' h' => hb b' (List.mem_cons_of_mem _ h')
    refine ⟨fun b' h' => ?_, k.2⟩
    rcases List.mem_cons.1 h' with rfl | h'
    · exact ⟨fun hn => hp.trans (r1 hn), hf.trans r2⟩
    · exact k.1 b' h'

theorem Legal.bsAll {g : Group} {base : Nat} (h : g.Legal base) (hs : base + g.bs.length < 1024) :
    g.ref.tr = base + g.bs.length ∧
    ∀ b ∈ g.bs, b.kind = 3 ∧ b.newGop = false ∧ base ≤ b.tr ∧ b.tr < base + g.bs.length := by
  refine ⟨by rw [h.refTr, Nat.mod_eq_of_lt hs], fun b hb => ?_⟩
  obtain ⟨i, hi, rfl⟩ := List.getElem_of_mem hb
  have := h.bsTr i hi
  rw [Nat.mod_eq_of_lt (by omega)] at this
  exact ⟨(h.bs _ hb).1, (h.bs _ hb).2, by omega, by omega⟩

theorem group_refs {fuel base : Nat} {prev : Option Frame} {g : Group} {s s' : VS} (hr : Run fuel s g.coded s')
    (hl : g.Legal base) (hs : base + g.bs.length < 1024) (hd : Ready (s.fs.entered g.ref.newGop) base prev) :
    (prev ≠ none → g.ref.past = prev) ∧ (∀ b ∈ g.bs, (prev ≠ none → b.past = prev) ∧ b.future = some g.ref.frame) ∧
    Ready s'.fs (base + g.bs.length + 1) (some g.ref.frame) := by
  obtain ⟨ht, hb⟩ := Legal.bsAll hl hs
  obtain ⟨m, he, hr⟩ := Run.inv hr
  have hfs : m.fs = ((s.fs.entered g.ref.newGop).set g.ref.tr).add g.ref.frame g.ref.tr := by
    have := he.fs
    rw [if_pos hl.ref] at this
    exact this
  have hm : Mid m.fs base (base + g.bs.length) prev g.ref.frame := by
    rw [hfs, ht]; exact hd.set.mid _ _
  obtain ⟨k1, k2⟩ := bs_refs hr hm hb
  exact ⟨fun hn => he.past.trans (hd.past (by omega) hn), k1, k2.ready (by omega)⟩

theorem from_refs {fuel : Nat} : ∀ {gs : List Group} {base : Nat} {prev : Option Frame} {s s' : VS},
    Run fuel s (coded gs) s' → LegalFrom base gs → base + (display gs).length ≤ 1024 → Ready s.fs base prev →
    RightRefs prev gs ∧ ∃ prev', Ready s'.fs (base + (display gs).length) prev' ∧
      (∀ qs, RightRefs prev' qs → RightRefs prev (gs ++ qs))
  | [], base, prev, s, s', h, _, _, hd => by
    cases h
    exact ⟨.nil, prev, hd, fun qs h => h⟩
  | g :: gs, base, prev, s, s', h, hl, hs, hd => by
    cases hl with
    | cons h1 h2 h3 =>
      have hlen : (display (g :: gs)).length = g.bs.length + 1 + (display gs).length := by
        show (g.display ++ display gs).length = _
        simp only [Group.display, List.length_append, List.length_cons, List.length_nil]
      rw [hlen] at hs
      have h' : Run fuel s (g.coded ++ coded gs) s' := h
      obtain ⟨m, r1, r2⟩ := h'.append
      obtain ⟨a, b, c⟩ := group_refs r1 h1 (by omega) (by rw [h2]; exact hd)
      obtain ⟨k1, prev', k2, k3⟩ := from_refs r2 h3 (by omega) c
      refine ⟨.cons a b k1, prev', ?_, fun qs hq => .cons a b (k3 qs hq)⟩
      rw [hlen, show base + (g.bs.length + 1 + (display gs).length) = base + g.bs.length + 1 + (display gs).length by omega]
      exact k2

theorem gop_refs {fuel : Nat} {gs : List Group} {base : Nat} {prev : Option Frame} {s s' : VS}
    (h : Run fuel s (coded gs) s') (hl : LegalGop gs) (hs : (display gs).length ≤ 1024) (hd : Ready s.fs base prev) :
    ∃ prev', Ready s'.fs (display gs).length prev' ∧ (∀ qs, RightRefs prev' qs → RightRefs prev (gs ++ qs)) := by
  cases hl with
  | @mk g gs h1 h2 h3 =>
    have hlen : (display (g :: gs)).length = g.bs.length + 1 + (display gs).length := by
      show (g.display ++ display gs).length = _
      simp only [Group.display, List.length_append, List.length_cons, List.length_nil]
    rw [hlen] at hs ⊢
    have h' : Run fuel s (g.coded ++ coded gs) s' := h
    obtain ⟨m, r1, r2⟩ := h'.append
    obtain ⟨a, b, c⟩ := group_refs r1 h1 (by omega) (by rw [h2]; exact hd.enter)
    rw [Nat.zero_add] at c
    obtain ⟨k1, prev', k2, k3⟩ := from_refs r2 h3 (by omega) c
    exact ⟨prev', k2, fun qs hq => .cons a b (k3 qs hq)⟩

theorem gops_refs {fuel : Nat} : ∀ {gops : List (List Group)} {base : Nat} {prev : Option Frame} {s s' : VS},
    Run fuel s (coded gops.flatten) s' → (∀ g ∈ gops, LegalGop g) → Short gops → Ready s.fs base prev →
    RightRefs prev gops.flatten
  | [], _, _, _, _, _, _, _, _ => .nil
  | gs :: gops, base, prev, s, s', h, hl, hs, hd => by
    have h' : Run fuel s (coded gs ++ coded gops.flatten) s' := by
      simpa [coded, List.flatMap_append] using h
    obtain ⟨m, r1, r2⟩ := h'.append
    obtain ⟨prev', k2, k3⟩ := gop_refs r1 (hl gs (List.mem_cons_self ..)) (hs gs (List.mem_cons_self ..)) hd
    exact k3 _ (gops_refs r2 (fun g hg => hl g (List.mem_cons_of_mem _ hg)) (fun g hg => hs g (List.mem_cons_of_mem _ hg)) k2)

/-! ### display -/

theorem nexts_append {fuel k : Nat} : ∀ {a b : Nat} {s t u : VS} {l l' : List Frame}, nexts fuel k a s = (.ok l, t) →
    nexts fuel k b t = (.ok l', u) → nexts fuel k (a + b) s = (.ok (l ++ l'), u)
  | 0, b, s, t, u, l, l', h1, h2 => by
    cases h1
    rw [Nat.zero_add]
    exact h2
  | a + 1, b, s, t, u, l, l', h1, h2 => by
    unfold nexts at h1
    obtain ⟨f, s1, e1, h1⟩ := Go.bind_eq_ok h1
    obtain ⟨l1, s2, e2, h1⟩ := Go.bind_eq_ok h1
    cases h1
    have k := nexts_append e2 h2
    rw [show a + 1 + b = (a + b) + 1 by omega]
    unfold nexts
    rw [Go.bind_ok e1, Go.bind_ok k]
    rfl

theorem nexts_one {fuel k : Nat} {s t : VS} {f : Frame} (h : VS.next fuel k s = (.ok f, t)) :
    nexts fuel k 1 s = (.ok [f], t) := by
  unfold nexts
  rw [Go.bind_ok h]
  rfl

theorem count_small {s : VS} (h : s.frameCounter < 1024) : s.count.frameCounter = s.frameCounter + 1 :=
  Nat.mod_eq_of_lt (by omega)

/-- A step whose picture is next in display order. -/
theorem loop_hit {fuel k : Nat} {p : Pict} {s s' : VS} (he : Eff fuel p s s') (hc : p.tr = s'.frameCounter) (hk : 1 ≤ k) :
    nextLoop fuel k s = (.ok p.frame, s'.count) := by
  obtain ⟨j, rfl⟩ : ∃ j, k = j + 1 := ⟨k - 1, by omega⟩
  obtain ⟨ph, e1, e2⟩ := he.ph
  unfold nextLoop
  rw [Go.bind_ok he.step, Go.bind_ok (Go.get_apply _), e1]
  dsimp only
  rw [if_pos (by rw [e2, hc]), Go.bind_ok (Go.modify_apply _ _)]
  rfl

/-- A step whose picture is not next. -/
theorem loop_miss {fuel k : Nat} {p : Pict} {s s' : VS} (he : Eff fuel p s s') (hc : p.tr ≠ s'.frameCounter) :
    nextLoop fuel (k + 1) s = nextLoop fuel k s' := by
  obtain ⟨ph, e1, e2⟩ := he.ph
  conv => lhs; unfold nextLoop
  rw [Go.bind_ok he.step, Go.bind_ok (Go.get_apply _), e1]
  dsimp only
  rw [if_neg (by rw [e2]; exact hc)]

theorem next_loop {fuel k : Nat} {s : VS} (h : s.fs.tryGet s.frameCounter = none) : VS.next fuel k s = nextLoop fuel k s := by
  unfold VS.next
  rw [h]

theorem eqv_run {fuel : Nat} {ps : List Pict} {s s' : VS} (h : Run fuel s ps s') :
    ∃ t', Run fuel s.count ps t' ∧ Eqv s' t' := h.eqv (eqv_count s)

/-- The B pictures of a group from the `i`-th on, then the reference picture. -/
theorem bs_next {fuel k base top : Nat} {prev : Option Frame} {f : Frame} (hk : 1 ≤ k) (htop : top < 1024) :
    ∀ {bs : List Pict} {i : Nat} {s s' : VS}, Run fuel s bs s' → Mid s.fs base top prev f → s.frameCounter = base + i →
    base + i + bs.length = top → (∀ b ∈ bs, b.kind = 3 ∧ b.newGop = false) →
    (∀ j (h : j < bs.length), bs[j].tr = base + i + j) →
    ∃ t, nexts fuel k (bs.length + 1) s = (.ok (bs.map (·.frame) ++ [f]), t) ∧ Eqv s' t ∧ t.frameCounter = top + 1 ∧
      Ready t.fs (top + 1) (some f)
  | [], i, s, s', h, hm, hc, hl, _, _ => by
    cases h
    have hl' : base + i = top := hl
    refine ⟨s.count, ?_, eqv_count s, ?_, hm.ready (by omega)⟩
    · refine nexts_one ?_
      unfold VS.next
      rw [hc, hl', hm.tryGet_top (by omega)]
    · rw [count_small (by omega)]; omega
  | b :: bs, i, s, s', h, hm, hc, hl, hb, ht => by
    obtain ⟨m, he, hr⟩ := h.inv
    obtain ⟨b1, b2⟩ := hb b (List.mem_cons_self ..)
    have hlen : (b :: bs).length = bs.length + 1 := rfl
    rw [hlen] at hl
    have htr : b.tr = base + i := ht 0 (by simp)
    have hfs : m.fs = s.fs.set b.tr := by
      have := he.fs
      rw [b1, b2, if_neg (by omega)] at this
      exact this
    have hmc : m.frameCounter = base + i := by
      have := he.counter
      rw [b2] at this
      exact this.trans hc
    have h1 : VS.next fuel k s = (.ok b.frame, m.count) := by
      rw [next_loop (by rw [hc]; exact hm.tryGet_none (by omega) (by omega))]
      exact loop_hit he (by rw [htr, hmc]) hk
    obtain ⟨u, r1, r2⟩ := eqv_run hr
    have hm' : Mid m.count.fs base top prev f := by
      show Mid m.fs base top prev f
      rw [hfs]; exact hm.set
    obtain ⟨t, n1, n2, n3, n4⟩ := bs_next hk htop (i := i + 1) r1 hm' (by rw [count_small (by omega)]; omega) (by omega)
      (fun b' h' => hb b' (List.mem_cons_of_mem _ h')) (fun j hj => by
        have := ht (j + 1) (by rw [hlen]; omega)
        have e : (b :: bs)[j + 1]'(by rw [hlen]; omega) = bs[j] := rfl
        rw [e] at this
        omega)
    refine ⟨t, ?_, r2.trans n2, n3, n4⟩
    rw [hlen, Nat.add_comm (bs.length + 1) 1]
    exact nexts_append (l := [b.frame]) (nexts_one h1) n1

theorem group_next_at {fuel k base : Nat} {prev : Option Frame} {g : Group} {s s' : VS} (hk : 2 ≤ k)
    (hr : Run fuel s g.coded s') (hl : g.Legal base) (hs : base + g.bs.length < 1024)
    (hw : s.fs.tryGet s.frameCounter = none) (hd' : Ready (s.fs.entered g.ref.newGop) base prev) (hc : if g.ref.newGop then base = 0 else s.frameCounter = base) :
    ∃ t, nexts fuel k g.display.length s = (.ok (g.display.map (·.frame)), t) ∧ Eqv s' t ∧
      t.frameCounter = base + g.bs.length + 1 ∧ Ready t.fs (base + g.bs.length + 1) (some g.ref.frame) := by
  obtain ⟨ht, _⟩ := Legal.bsAll hl hs
  obtain ⟨m, he, hr⟩ := Run.inv hr
  have hmc : m.frameCounter = base := by
    have := he.counter
    cases hn : g.ref.newGop with
    | true => rw [hn] at hc this; exact this.trans (show base = 0 from hc).symm
    | false => rw [hn] at hc this; exact this.trans hc
  have hfs : m.fs = ((s.fs.entered g.ref.newGop).set g.ref.tr).add g.ref.frame g.ref.tr := by
    have := he.fs
    rw [if_pos hl.ref] at this
    exact this
  have hm : Mid m.fs base (base + g.bs.length) prev g.ref.frame := by
    rw [hfs, ht]; exact hd'.set.mid _ _
  have hdl : g.display.length = g.bs.length + 1 := by simp [Group.display]
  have hdm : g.display.map (·.frame) = g.bs.map (·.frame) ++ [g.ref.frame] := by simp [Group.display]
  have hn0 : VS.next fuel k s = nextLoop fuel k s := next_loop hw
  rw [hdl, hdm]
  cases hb : g.bs with
  | nil =>
    rw [hb] at ht hm hr
    have hms : m = s' := by cases hr; rfl
    subst hms
    have h1 : VS.next fuel k s = (.ok g.ref.frame, m.count) := by
      rw [hn0]
      exact loop_hit he (by rw [ht, hmc]; rfl) (by omega)
    refine ⟨m.count, nexts_one h1, eqv_count m, ?_, ?_⟩
    · rw [count_small (by rw [hmc]; omega), hmc]; rfl
    · exact hm.ready (by simp)
  | cons b bs =>
    have hlb := hl.bs
    have hlt := hl.bsTr
    rw [hb] at hr hlb hs hm ht
    have hlen : (b :: bs).length = bs.length + 1 := rfl
    have hget : ∀ j (h : j < (b :: bs).length), (b :: bs)[j].tr = base + j := by
      intro j hj
      have := hlt j (by rw [hb]; exact hj)
      rw [Nat.mod_eq_of_lt (by omega)] at this
      rw [← this]
      simp only [hb]
    rw [hlen] at hs ht
    obtain ⟨m2, he2, hr2⟩ := hr.inv
    obtain ⟨b1, b2⟩ := hlb b (List.mem_cons_self ..)
    have htr : b.tr = base := hget 0 (by simp)
    have hfs2 : m2.fs = m.fs.set b.tr := by
      have := he2.fs
      rw [b1, b2, if_neg (by omega)] at this
      exact this
    have hmc2 : m2.frameCounter = base := by
      have := he2.counter
      rw [b2] at this
      exact this.trans hmc
    obtain ⟨j, rfl⟩ : ∃ j, k = j + 1 := ⟨k - 1, by omega⟩
    have h1 : VS.next fuel (j + 1) s = (.ok b.frame, m2.count) := by
      rw [hn0, loop_miss he (by rw [ht, hmc]; omega)]
      exact loop_hit he2 (by rw [htr, hmc2]) (by omega)
    obtain ⟨u, r1, r2⟩ := eqv_run hr2
    have hm2 : Mid m2.count.fs base (base + (b :: bs).length) prev g.ref.frame := by
      show Mid m2.fs _ _ _ _
      rw [hfs2]; exact hm.set
    obtain ⟨t, n1, n2, n3, n4⟩ := bs_next (k := j + 1) (by omega) (by rw [hlen]; omega) (i := 1) r1 hm2
      (by rw [count_small (by omega)]; omega) (by rw [hlen]; omega)
      (fun b' h' => hlb b' (List.mem_cons_of_mem _ h')) (fun j hj => by
        have := hget (j + 1) (by rw [hlen]; omega)
        have e : (b :: bs)[j + 1]'(by rw [hlen]; omega) = bs[j] := rfl
        rw [e] at this
        omega)
    refine ⟨t, ?_, r2.trans n2, n3, n4⟩
    rw [hlen, Nat.add_comm (bs.length + 1) 1]
    exact nexts_append (l := [b.frame]) (nexts_one h1) n1

theorem group_next {fuel k base : Nat} {prev : Option Frame} {g : Group} {s s' : VS} (hk : 2 ≤ k)
    (hr : Run fuel s g.coded s') (hl : g.Legal base) (hs : base + g.bs.length < 1024)
    (hd : Ready s.fs s.frameCounter prev) (hc : if g.ref.newGop then base = 0 else s.frameCounter = base) :
    ∃ t, nexts fuel k g.display.length s = (.ok (g.display.map (·.frame)), t) ∧ Eqv s' t ∧
      t.frameCounter = base + g.bs.length + 1 ∧ Ready t.fs (base + g.bs.length + 1) (some g.ref.frame) := by
  refine group_next_at (prev := prev) hk hr hl hs hd.tryGet ?_ hc
  cases hn : g.ref.newGop with
  | true => rw [hn] at hc; rw [show base = 0 from hc]; exact hd.enter
  | false => rw [hn] at hc; rw [← show s.frameCounter = base from hc]; exact hd

theorem from_next {fuel k : Nat} (hk : 2 ≤ k) : ∀ {gs : List Group} {base : Nat} {prev : Option Frame} {s s' : VS},
    Run fuel s (coded gs) s' → LegalFrom base gs → base + (display gs).length ≤ 1024 → Ready s.fs base prev →
    s.frameCounter = base →
    ∃ t prev', nexts fuel k (display gs).length s = (.ok ((display gs).map (·.frame)), t) ∧ Eqv s' t ∧
      t.frameCounter = base + (display gs).length ∧ Ready t.fs (base + (display gs).length) prev'
  | [], base, prev, s, s', h, _, _, hd, hc => by
    cases h
    exact ⟨s, prev, rfl, Eqv.refl s, hc, hd⟩
  | g :: gs, base, prev, s, s', h, hl, hs, hd, hc => by
    cases hl with
    | cons h1 h2 h3 =>
      have hdis : display (g :: gs) = g.display ++ display gs := rfl
      have hdl : g.display.length = g.bs.length + 1 := by simp [Group.display]
      rw [hdis, List.length_append, hdl] at hs
      have h' : Run fuel s (g.coded ++ coded gs) s' := h
      obtain ⟨m, r1, r2⟩ := h'.append
      obtain ⟨t, n1, n2, n3, n4⟩ := group_next hk r1 h1 (by omega) (by rw [hc]; exact hd) (by rw [h2]; exact hc)
      obtain ⟨u, q1, q2⟩ := r2.eqv n2
      obtain ⟨v, prev', k1, k2, k3, k4⟩ := from_next hk q1 h3 (by omega) n4 n3
      refine ⟨v, prev', ?_, q2.trans k2, ?_, ?_⟩
      · rw [hdis, List.length_append, List.map_append]
        exact nexts_append n1 k1
      · rw [k3, hdis, List.length_append, hdl]; omega
      · rw [hdis, List.length_append, hdl,
          show base + (g.bs.length + 1 + (display gs).length) = base + g.bs.length + 1 + (display gs).length by omega]
        exact k4

theorem gop_next {fuel k : Nat} (hk : 2 ≤ k) {gs : List Group} {prev : Option Frame} {s s' : VS}
    (h : Run fuel s (coded gs) s') (hl : LegalGop gs) (hs : (display gs).length ≤ 1024)
    (hd : Ready s.fs s.frameCounter prev) :
    ∃ t prev', nexts fuel k (display gs).length s = (.ok ((display gs).map (·.frame)), t) ∧ Eqv s' t ∧
      Ready t.fs t.frameCounter prev' := by
  cases hl with
  | @mk g gs h1 h2 h3 =>
    have hdis : display (g :: gs) = g.display ++ display gs := rfl
    have hdl : g.display.length = g.bs.length + 1 := by simp [Group.display]
    rw [hdis, List.length_append, hdl] at hs
    have h' : Run fuel s (g.coded ++ coded gs) s' := h
    obtain ⟨m, r1, r2⟩ := h'.append
    obtain ⟨t, n1, n2, n3, n4⟩ := group_next hk r1 h1 (by omega) hd (by rw [h2]; rfl)
    rw [Nat.zero_add] at n3 n4
    obtain ⟨u, q1, q2⟩ := r2.eqv n2
    obtain ⟨v, prev', k1, k2, k3, k4⟩ := from_next hk q1 h3 (by omega) n4 n3
    refine ⟨v, prev', ?_, q2.trans k2, by rw [k3]; exact k4⟩
    rw [hdis, List.length_append, List.map_append]
    exact nexts_append n1 k1

theorem gops_next {fuel k : Nat} (hk : 2 ≤ k) : ∀ {gops : List (List Group)} {prev : Option Frame} {s s' : VS},
    Run fuel s (coded gops.flatten) s' → (∀ g ∈ gops, LegalGop g) → Short gops → Ready s.fs s.frameCounter prev →
    ∃ t prev', nexts fuel k (display gops.flatten).length s = (.ok ((display gops.flatten).map (·.frame)), t) ∧ Eqv s' t ∧
      Ready t.fs t.frameCounter prev'
  | [], prev, s, s', h, _, _, hd => by
    cases h
    exact ⟨s, prev, rfl, Eqv.refl s, hd⟩
  | gs :: gops, prev, s, s', h, hl, hs, hd => by
    have h' : Run fuel s (coded gs ++ coded gops.flatten) s' := by
      simpa [coded, List.flatMap_append] using h
    have hdis : display (gs :: gops).flatten = display gs ++ display gops.flatten := by
      simp [display, List.flatMap_append]
    obtain ⟨m, r1, r2⟩ := h'.append
    obtain ⟨t, p1, n1, n2, n3⟩ := gop_next hk r1 (hl gs (List.mem_cons_self ..)) (hs gs (List.mem_cons_self ..)) hd
    obtain ⟨u, q1, q2⟩ := r2.eqv n2
    obtain ⟨v, prev', k1, k2, k3⟩ := gops_next hk q1 (fun g hg => hl g (List.mem_cons_of_mem _ hg))
      (fun g hg => hs g (List.mem_cons_of_mem _ hg)) n3
    refine ⟨v, prev', ?_, q2.trans k2, k3⟩
    rw [hdis, List.length_append, List.map_append]
    exact nexts_append n1 k1

/-- Both kinds of sequences. -/
theorem seq_next {fuel k : Nat} (hk : 2 ≤ k) {gops : List (List Group)} {prev : Option Frame} {s s' : VS}
    (h : Run fuel s (coded gops.flatten) s') (hl : LegalSeq gops) (hs : Short gops) (hd : Ready s.fs 0 prev)
    (hc : s.frameCounter = 0) :
    ∃ t prev', nexts fuel k (display gops.flatten).length s = (.ok ((display gops.flatten).map (·.frame)), t) ∧ Eqv s' t ∧
      Ready t.fs t.frameCounter prev' := by
  cases hl with
  | headed hg => exact gops_next hk h hg hs (by rw [hc]; exact hd)
  | @bare gs gops hf hg =>
    have h' : Run fuel s (coded gs ++ coded gops.flatten) s' := by
      simpa [coded, List.flatMap_append] using h
    have hdis : display (gs :: gops).flatten = display gs ++ display gops.flatten := by
      simp [display, List.flatMap_append]
    obtain ⟨m, r1, r2⟩ := h'.append
    obtain ⟨t, p1, n1, n2, n3, n4⟩ := from_next hk r1 hf (by rw [Nat.zero_add]; exact hs gs (List.mem_cons_self ..)) hd hc
    obtain ⟨u, q1, q2⟩ := r2.eqv n2
    obtain ⟨v, prev', k1, k2, k3⟩ := gops_next hk q1 hg (fun g hg => hs g (List.mem_cons_of_mem _ hg)) (by rw [n3]; exact n4)
    refine ⟨v, prev', ?_, q2.trans k2, k3⟩
    rw [hdis, List.length_append, List.map_append]
    exact nexts_append n1 k1

/-- Pictures that never meet the counter are lost. -/
theorem loop_lost {fuel : Nat} {e : Err} : ∀ {ps : List Pict} {k : Nat} {s s' : VS}, Run fuel s ps s' →
    1024 ≤ s.frameCounter → (∀ p ∈ ps, p.newGop = false) → (step fuel s').1 = .err e → ps.length < k →
    (nextLoop fuel k s).1 = .err e
  | [], k, s, s', h, _, _, he, hk => by
    cases h
    obtain ⟨j, rfl⟩ : ∃ j, k = j + 1 := ⟨k - 1, by have : (0 : Nat) < k := hk; omega⟩
    unfold nextLoop
    rw [Go.bind_err (Prod.ext he rfl)]
  | p :: ps, k, s, s', h, hc, hp, he, hk => by
    obtain ⟨m, h1, hr⟩ := h.inv
    have hlen : (p :: ps).length = ps.length + 1 := rfl
    obtain ⟨j, rfl⟩ : ∃ j, k = j + 1 := ⟨k - 1, by omega⟩
    have hmc : m.frameCounter = s.frameCounter := by
      have := h1.counter
      rw [hp p (List.mem_cons_self ..)] at this
      exact this
    rw [loop_miss h1 (by have := h1.tr; omega)]
    exact loop_lost hr (by omega) (fun q hq => hp q (List.mem_cons_of_mem _ hq)) he (by omega)

end Mpeg.Video
