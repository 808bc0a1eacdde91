/-
C152: `Next` never returns pictures out of order, whatever the order in which they are coded.
-/
import Verif.Video.HeadLostProps
import Verif.Video.AnyOrderSpec
set_option linter.all false
namespace Mpeg.Video
open Spec

namespace AnyOrder

/-- The slots of the current group of pictures hold pictures of it. -/
def Holds (fs : FrameStore) (seen : List Pict) : Prop :=
  ∀ r, (fs.f0 = some r ∨ fs.f1 = some r) → r.previousGOP = false → ∃ p ∈ seen, p.tr = r.temporalReference ∧ p.frame = r.frame ∧ p.tr < 1024

theorem Holds.after {fs : FrameStore} {seen : List Pict} {p : Pict} (h : Holds fs seen) (hp : p.tr < 1024) :
    Holds (fs.after p) (if p.newGop then [p] else p :: seen) := by
  have he : Holds (fs.entered p.newGop) (if p.newGop then [] else seen) := by
    cases hg : p.newGop with
    | false => exact h
    | true =>
      rintro r (hr | hr) hq
      · obtain ⟨a, _, rfl⟩ := Option.map_eq_some_iff.1 (show fs.f0.map _ = some r from hr); cases hq
      · obtain ⟨a, _, rfl⟩ := Option.map_eq_some_iff.1 (show fs.f1.map _ = some r from hr); cases hq
  have hsub : ∀ q, q ∈ (if p.newGop then [] else seen) → q ∈ (if p.newGop then [p] else p :: seen) := by
    intro q hq
    cases hg : p.newGop <;> rw [hg] at hq
    · exact List.mem_cons_of_mem _ hq
    · cases hq
  have hme : p ∈ (if p.newGop then [p] else p :: seen) := by
    cases p.newGop <;> exact List.mem_cons_self ..
  obtain ⟨a, b⟩ := set_slots (fs.entered p.newGop) p.tr
  intro r hr hq
  unfold FrameStore.after at hr
  split at hr
  · rcases hr with hr | hr
    · obtain ⟨q, q1, q2⟩ := he r (.inr (b.symm.trans hr)) hq
      exact ⟨q, hsub q q1, q2⟩
    · have hr : some (RefFrame.mk p.frame p.tr false) = some r := hr
      cases hr
      exact ⟨p, hme, rfl, rfl, hp⟩
  · rw [a, b] at hr
    obtain ⟨q, q1, q2⟩ := he r hr hq
    exact ⟨q, hsub q q1, q2⟩

theorem Holds.get {fs : FrameStore} {seen : List Pict} {c : Nat} {f : Frame} (h : Holds fs seen) (hg : fs.tryGet c = some f) :
    ∃ p ∈ seen, p.tr = c ∧ p.frame = f ∧ c < 1024 := by
  have hm : ∀ {o : Option RefFrame}, RefFrame.matches o c = some f → ∃ r, o = some r ∧ r.previousGOP = false ∧ r.temporalReference = c ∧ r.frame = f := by
    intro o ho
    cases o with
    | none => cases ho
    | some r =>
      unfold RefFrame.matches at ho
      dsimp only at ho
      split at ho
      · rename_i hc; cases ho; exact ⟨r, rfl, hc.1, hc.2, rfl⟩
      · cases ho
  have : ∃ r, (fs.f0 = some r ∨ fs.f1 = some r) ∧ r.previousGOP = false ∧ r.temporalReference = c ∧ r.frame = f := by
    unfold FrameStore.tryGet at hg
    cases h0 : RefFrame.matches fs.f0 c with
    | some x => rw [h0] at hg; cases hg; obtain ⟨r, a, b⟩ := hm h0; exact ⟨r, .inl a, b⟩
    | none => rw [h0] at hg; obtain ⟨r, a, b⟩ := hm hg; exact ⟨r, .inr a, b⟩
  obtain ⟨r, r1, r2, r3, r4⟩ := this
  obtain ⟨p, p1, p2, p3, p4⟩ := h r r1 r2
  exact ⟨p, p1, p2.trans r3, p3.trans r4, by omega⟩

theorem counts_cons {c : Nat} {ps : List Pict} {l : List Frame} {p : Pict} (hp : p ∈ ps) (hc : p.tr = c) (h : Counts (c + 1) ps l) :
    Counts c ps (p.frame :: l) := by
  intro i hi
  cases i with
  | zero => exact ⟨p, hp, hc, rfl⟩
  | succ i =>
    obtain ⟨q, q1, q2, q3⟩ := h i (Nat.lt_of_succ_lt_succ hi)
    exact ⟨q, q1, by omega, q3⟩
theorem counts_mono {c : Nat} {ps qs : List Pict} {l : List Frame} (h : Counts c ps l) (hs : ∀ p ∈ ps, p ∈ qs) : Counts c qs l :=
  fun i hi => by
    obtain ⟨p, p1, p2⟩ := h i hi
    exact ⟨p, hs p p1, p2⟩

theorem cut_shape : ∀ ps : List Pict, ∃ g gs, cutGops ps = g :: gs
  | [] => ⟨_, _, rfl⟩
  | p :: ps => by
    obtain ⟨g, gs, e⟩ := cut_shape ps
    unfold cutGops
    rw [e]
    split
    · exact ⟨_, _, rfl⟩
    · exact ⟨_, _, rfl⟩

/-- What is returned while `ps` are decoded: first of the current group of pictures, of which `seen` has been decoded. -/
def Good (b : Bool) (fs : FrameStore) (c : Nat) (seen ps : List Pict) : Prop :=
  ∃ g gs l l', cutGops ps = g :: gs ∧ Emits b fs c ps (l ++ l') ∧ Counts c (seen ++ g) l ∧ InOrder gs l'

/-- The store is asked before the loop. -/
theorem store {ps : List Pict} (ht : ∀ fs c seen, Holds fs seen → Good true fs c seen ps) :
    ∀ (n : Nat) {fs : FrameStore} {c : Nat} {seen : List Pict}, 1024 - c ≤ n → Holds fs seen → Good false fs c seen ps
  | n, fs, c, seen, hn, hh => by
    cases hg : fs.tryGet c with
    | none =>
      obtain ⟨g, gs, l, l', h1, h2, h3, h4⟩ := ht fs c seen hh
      exact ⟨g, gs, l, l', h1, .go hg h2, h3, h4⟩
    | some f =>
      obtain ⟨p, p1, p2, rfl, p4⟩ := hh.get hg
      match n, hn with
      | 0, hn => omega
      | n + 1, hn =>
        obtain ⟨g, gs, l, l', h1, h2, h3, h4⟩ := store ht n (fs := fs) (c := c + 1) (seen := seen) (by omega) hh
        exact ⟨g, gs, p.frame :: l, l', h1, .wait hg p4 h2, counts_cons (List.mem_append_left _ p1) p2 h3, h4⟩

theorem loop : ∀ (ps : List Pict), (∀ p ∈ ps, p.tr < 1024) → ∀ fs c seen, Holds fs seen → Good true fs c seen ps
  | [], _, fs, c, seen, _ => ⟨[], [], [], [], rfl, .done, fun i hi => absurd hi (Nat.not_lt_zero _), .nil⟩
  | p :: ps, hp, fs, c, seen, hh => by
    have ih := loop ps fun q hq => hp q (List.mem_cons_of_mem _ hq)
    have hp0 := hp p (List.mem_cons_self ..)
    have ha := hh.after hp0
    obtain ⟨g, gs, e⟩ := cut_shape ps
    cases hg : p.newGop with
    | false =>
      have ec : cutGops (p :: ps) = (p :: g) :: gs := by
        rw [cutGops, hg, e]; rfl
      rw [hg] at ha
      have hmem : ∀ q ∈ (p :: seen) ++ g, q ∈ seen ++ (p :: g) := by
        intro q hq
        simp only [List.mem_append, List.mem_cons] at hq ⊢
        rcases hq with (rfl | h) | h
        · exact .inr (.inl rfl)
        · exact .inl h
        · exact .inr (.inr h)
      by_cases hc : p.tr = c
      · obtain ⟨g', gs', l, l', h1, h2, h3, h4⟩ := store ih 1024 (fs := fs.after p) (c := p.tr + 1) (seen := p :: seen) (by omega) ha
        rw [e] at h1
        cases h1
        subst hc
        exact ⟨_, _, p.frame :: l, l', ec, .hit (by rw [hg]; rfl) h2,
          counts_cons (List.mem_append_right _ (List.mem_cons_self ..)) rfl (counts_mono h3 hmem), h4⟩
      · obtain ⟨g', gs', l, l', h1, h2, h3, h4⟩ := ih (fs.after p) c (p :: seen) ha
        rw [e] at h1
        cases h1
        exact ⟨_, _, l, l', ec, .miss (by rw [hg]; exact hc) (by rw [hg]; exact h2), counts_mono h3 hmem, h4⟩
    | true =>
      have ec : cutGops (p :: ps) = [] :: (p :: g) :: gs := by
        rw [cutGops, hg, e]; rfl
      rw [hg] at ha
      by_cases hc : p.tr = 0
      · obtain ⟨g', gs', l, l', h1, h2, h3, h4⟩ := store ih 1024 (fs := fs.after p) (c := p.tr + 1) (seen := [p]) (by omega) ha
        rw [e] at h1
        cases h1
        refine ⟨_, _, [], (p.frame :: l) ++ l', ec, .hit (by rw [hg]; exact hc) h2, fun i hi => absurd hi (Nat.not_lt_zero _), .cons ?_ h4⟩
        rw [hc] at h3
        exact counts_cons (List.mem_cons_self ..) hc h3
      · obtain ⟨g', gs', l, l', h1, h2, h3, h4⟩ := ih (fs.after p) 0 [p] ha
        rw [e] at h1
        cases h1
        exact ⟨_, _, [], l ++ l', ec, .miss (by rw [hg]; exact hc) (by rw [hg]; exact h2), fun i hi => absurd hi (Nat.not_lt_zero _), .cons h3 h4⟩

theorem run_small {fuel : Nat} {s s' : VS} {ps : List Pict} (h : Run fuel s ps s') : ∀ p ∈ ps, p.tr < 1024 := by
  induction h with
  | nil s => intro p hp; cases hp
  | @cons s s1 s' s'' ph p ps hstep ht hg hph hk htr _ _ _ ih =>
    intro q hq
    rcases List.mem_cons.1 hq with rfl | hq
    · obtain ⟨_, ph', _, h2, h3, _⟩ := step_effect hstep
      rw [hph] at h2
      cases h2
      omega
    · exact ih q hq

end AnyOrder

/-- **C152** Whatever the order in which the pictures of a stream are coded, and whatever their temporal references are: let `ps` be the
pictures that a new decoder can decode up to the first failure (if any).  The calls of `Next` return of every group of pictures the frames of
pictures with the temporal references 0, 1, 2, …, in this order and without gap, one group of pictures after the other; the call after
them reports the failure. -/
theorem C152 {fuel k : Nat} {br : BR} {ps : List Pict} {s' : VS} (h : Run fuel (VS.new br) ps s') (hk : ps.length < k) :
    ∃ l t, nexts fuel k l.length (VS.new br) = (.ok l, t) ∧ InOrder (cutGops ps) l ∧
      ∀ e, (step fuel s').1 = .err e → (VS.next fuel k t).1 = .err e := by
  obtain ⟨g, gs, l, l', h1, h2, h3, h4⟩ := AnyOrder.loop ps (AnyOrder.run_small h) (VS.new br).fs 0 []
    (fun r hr => by rcases hr with hr | hr <;> cases hr)
  have hp : Emits false (VS.new br).fs 0 ps (l ++ l') := .go rfl h2
  obtain ⟨t, n1, _⟩ := emits_calls (k := k) (e := .eof) hp (k' := k) rfl rfl h hk hk
  refine ⟨l ++ l', t, n1, ?_, fun e he => ?_⟩
  · rw [h1]; exact .cons h3 h4
  · obtain ⟨u, m1, m2⟩ := emits_calls (k := k) (e := e) hp (k' := k) rfl rfl h hk hk
    rw [n1] at m1
    cases m1
    exact m2 he

/-- The pictures of the groups are those of the stream. -/
theorem C152_all : ∀ ps : List Pict, (cutGops ps).flatten = ps
  | [] => rfl
  | p :: ps => by
    have ih := C152_all ps
    obtain ⟨g, gs, e⟩ := AnyOrder.cut_shape ps
    rw [e] at ih
    rw [cutGops, e]
    have ih : g ++ gs.flatten = ps := by simpa using ih
    split <;> simp [joinFirst, ih]

/-- All groups but the first begin with a header and have no other. -/
theorem C152_headers : ∀ ps : List Pict, (∀ p ∈ (cutGops ps).headD [], p.newGop = false) ∧
    ∀ g ∈ (cutGops ps).tail, ∃ p qs, g = p :: qs ∧ p.newGop = true ∧ ∀ q ∈ qs, q.newGop = false
  | [] => ⟨fun p hp => (by cases hp), fun g hg => (by cases hg)⟩
  | p :: ps => by
    obtain ⟨a, b⟩ := C152_headers ps
    obtain ⟨g, gs, e⟩ := AnyOrder.cut_shape ps
    rw [e] at a b
    rw [cutGops, e]
    have a : ∀ p ∈ g, p.newGop = false := a
    have b : ∀ g ∈ gs, ∃ p qs, g = p :: qs ∧ p.newGop = true ∧ ∀ q ∈ qs, q.newGop = false := b
    cases hp : p.newGop with
    | false =>
      refine ⟨fun q hq => ?_, b⟩
      rcases List.mem_cons.1 (show q ∈ p :: g from hq) with rfl | hq
      · exact hp
      · exact a q hq
    | true =>
      refine ⟨fun q hq => (by cases hq), fun x hx => ?_⟩
      rcases List.mem_cons.1 (show x ∈ (p :: g) :: gs from hx) with rfl | hx
      · exact ⟨p, g, rfl, hp, a⟩
      · exact b x hx

namespace AnyOrderEx
open ExOrder HeadLostEx

/-- two groups of pictures; in the first the B pictures are coded in the wrong order: I2 B1 B0, I1 B0 -/
def stream3 : List Bool :=
  byte (encSeq ⟨16, 16, 1, 3, 100, 20, false, none, none⟩) ++ byte (encSeqExt ⟨0x48, 1, 1, 0, 0, 0, true, 0, 0, 0, 0⟩) ++
  (byte (encGOP ⟨false, 0, 0, true, 0, 0, true, false⟩) ++ iPic 2 ++ bPic 1 ++ bPic 0) ++
  (byte (encGOP ⟨false, 0, 0, true, 0, 0, true, false⟩) ++ iPic 1 ++ bPic 0) ++ bitsOf 32 0x1B7
def u0 : VS := VS.new ⟨stream3, 0, .eof, []⟩
def u1 : VS := after u0
def u2 : VS := after u1
def u3 : VS := after u2
def u4 : VS := after u3
def u5 : VS := after u4
theorem run3 : Run 20 u0 [pictAt u0, pictAt u1, pictAt u2, pictAt u3, pictAt u4] u5 :=
  run_one (by decide +kernel) (by decide +kernel) (by decide +kernel) <|
  run_one (by decide +kernel) (by decide +kernel) (by decide +kernel) <|
  run_one (by decide +kernel) (by decide +kernel) (by decide +kernel) <|
  run_one (by decide +kernel) (by decide +kernel) (by decide +kernel) <|
  run_one (by decide +kernel) (by decide +kernel) (by decide +kernel) <| .nil _
theorem facts3 : ([u0, u1, u2, u3, u4].map fun s => ((pictAt s).newGop, (pictAt s).kind, (pictAt s).tr)) =
    [(true, 1, 2), (false, 3, 1), (false, 3, 0), (true, 1, 1), (false, 3, 0)] := by decide +kernel

/-- the hypotheses of C152 hold although the order is illegal -/
example : ∃ l t, nexts 20 6 l.length u0 = (.ok l, t) ∧
    InOrder [[], [pictAt u0, pictAt u1, pictAt u2], [pictAt u3, pictAt u4]] l ∧ (VS.next 20 6 t).1 = .err .eos := by
  have hf := facts3
  simp only [List.map_cons, List.map_nil, List.cons.injEq, Prod.mk.injEq, and_true] at hf
  obtain ⟨⟨a1, _⟩, ⟨b1, _⟩, ⟨c1, _⟩, ⟨d1, _⟩, e1, _⟩ := hf
  obtain ⟨l, t, h1, h2, h3⟩ := C152 (k := 6) run3 (by simp only [List.length_cons, List.length_nil]; omega)
  refine ⟨l, t, h1, ?_, h3 _ (isEos_eq (by decide +kernel))⟩
  simpa [cutGops, joinFirst, a1, b1, c1, d1, e1] using h2

/-- three of the five pictures are returned, so they are B0 of the first group, B0 and I1 of the second -/
example : (match (nexts 20 6 4 u0).1 with | .ok _ => false | _ => true) = true ∧
    (match (nexts 20 6 3 u0).1 with | .ok l => l.length == 3 | _ => false) = true := by
  decide +kernel

end AnyOrderEx

end Mpeg.Video
