/-
C155: pictures that come in display order are returned, whatever is between them.
-/
import Verif.Video.HeaderOnlyProps
import Verif.Video.ServedSpec
set_option linter.all false
namespace Mpeg.Video
open Spec

namespace ServedP
open AnyOrder

theorem asc_tail {c n : Nat} {g : List Pict} (h : Ascends c (n + 1) g) : Ascends (c + 1) n g := by
  obtain ⟨xs, h1, h2⟩ := h
  cases xs with
  | nil => cases h2
  | cons x xs =>
    rw [List.range'_succ, List.map_cons, List.cons.injEq] at h2
    exact ⟨xs, (List.sublist_cons_self x xs).trans h1, h2.2⟩

theorem asc_hit {c n : Nat} {p : Pict} {g : List Pict} (h : Ascends c (n + 1) (p :: g)) : Ascends (c + 1) n g := by
  obtain ⟨xs, h1, h2⟩ := h
  cases xs with
  | nil => cases h2
  | cons x xs =>
    rw [List.range'_succ, List.map_cons, List.cons.injEq] at h2
    exact ⟨xs, h1.tail, h2.2⟩

theorem asc_miss {c n : Nat} {p : Pict} {g : List Pict} (hp : p.tr ≠ c) (h : Ascends c n (p :: g)) : Ascends c n g := by
  obtain ⟨xs, h1, h2⟩ := h
  cases h1 with
  | cons _ h1 => exact ⟨xs, h1, h2⟩
  | cons_cons _ h1 =>
    cases n with
    | zero => cases h2
    | succ n =>
      rw [List.range'_succ, List.map_cons, List.cons.injEq] at h2
      exact absurd h2.1 hp

theorem asc_nil {c n m : Nat} (h : Ascends c n []) : n ≤ m := by
  obtain ⟨xs, h1, h2⟩ := h
  have := congrArg List.length h2
  rw [List.length_map, List.length_range', List.sublist_nil.1 h1] at this
  rw [← this]
  exact Nat.zero_le _

theorem asc_cons {c m : Nat} {g g' : List Pict} (ht : ∀ n, Ascends c (n + 1) g → Ascends (c + 1) n g')
    (h : ∀ n, Ascends (c + 1) n g' → n ≤ m) : ∀ n, Ascends c n g → n ≤ m + 1
  | 0, _ => Nat.zero_le _
  | n + 1, ha => Nat.succ_le_succ (h n (ht n ha))

/-- What is returned while `ps` are decoded: first of the current group of pictures, of which `seen` has been decoded. -/
def GoodS (b : Bool) (fs : FrameStore) (c : Nat) (seen ps : List Pict) : Prop :=
  ∃ g gs l l', cutGops ps = g :: gs ∧ Emits b fs c ps (l ++ l') ∧ Counts c (seen ++ g) l ∧ (∀ n, Ascends c n g → n ≤ l.length) ∧ Served gs l'

theorem store {ps : List Pict} (ht : ∀ fs c seen, Holds fs seen → GoodS true fs c seen ps) :
    ∀ (n : Nat) {fs : FrameStore} {c : Nat} {seen : List Pict}, 1024 - c ≤ n → Holds fs seen → GoodS false fs c seen ps
  | n, fs, c, seen, hn, hh => by
    cases hg : fs.tryGet c with
    | none =>
      obtain ⟨g, gs, l, l', h1, h2, h3⟩ := ht fs c seen hh
      exact ⟨g, gs, l, l', h1, .go hg h2, h3⟩
    | some f =>
      obtain ⟨p, p1, p2, rfl, p4⟩ := hh.get hg
      match n, hn with
      | 0, hn => omega
      | n + 1, hn =>
        obtain ⟨g, gs, l, l', h1, h2, h3, h4, h5⟩ := store ht n (fs := fs) (c := c + 1) (seen := seen) (by omega) hh
        exact ⟨g, gs, p.frame :: l, l', h1, .wait hg p4 h2, counts_cons (List.mem_append_left _ p1) p2 h3,
          asc_cons (fun _ => asc_tail) h4, h5⟩

theorem loop : ∀ (ps : List Pict), (∀ p ∈ ps, p.tr < 1024) → ∀ fs c seen, Holds fs seen → GoodS true fs c seen ps
  | [], _, fs, c, seen, _ => ⟨[], [], [], [], rfl, .done, fun i hi => absurd hi (Nat.not_lt_zero _), fun n => asc_nil, .nil⟩
  | p :: ps, hp, fs, c, seen, hh => by
    have ih := loop ps fun q hq => hp q (List.mem_cons_of_mem _ hq)
    have hp0 := hp p (List.mem_cons_self ..)
    have ha := hh.after hp0
    obtain ⟨g, gs, e⟩ := cut_shape ps
    cases hg : p.newGop with
    | false =>
      have ec : cutGops (p :: ps) = (p :: g) :: gs := by
        rw [cutGops, hg, e]; rfl
      rw [hg] at ha
      have hmem : ∀ q ∈ (p :: seen) ++ g, q ∈ seen ++ (p :: g) := by
        intro q hq
        simp only [List.mem_append, List.mem_cons] at hq ⊢
        rcases hq with (rfl | h) | h
        · exact .inr (.inl rfl)
        · exact .inl h
        · exact .inr (.inr h)
      by_cases hc : p.tr = c
      · obtain ⟨g', gs', l, l', h1, h2, h3, h4, h5⟩ := store ih 1024 (fs := fs.after p) (c := p.tr + 1) (seen := p :: seen) (by omega) ha
        rw [e] at h1
        cases h1
        subst hc
        exact ⟨_, _, p.frame :: l, l', ec, .hit (by rw [hg]; rfl) h2,
          counts_cons (List.mem_append_right _ (List.mem_cons_self ..)) rfl (counts_mono h3 hmem), asc_cons (fun _ => asc_hit) h4, h5⟩
      · obtain ⟨g', gs', l, l', h1, h2, h3, h4, h5⟩ := ih (fs.after p) c (p :: seen) ha
        rw [e] at h1
        cases h1
        exact ⟨_, _, l, l', ec, .miss (by rw [hg]; exact hc) (by rw [hg]; exact h2), counts_mono h3 hmem, fun n hn => h4 n (asc_miss hc hn), h5⟩
    | true =>
      have ec : cutGops (p :: ps) = [] :: (p :: g) :: gs := by
        rw [cutGops, hg, e]; rfl
      rw [hg] at ha
      by_cases hc : p.tr = 0
      · obtain ⟨g', gs', l, l', h1, h2, h3, h4, h5⟩ := store ih 1024 (fs := fs.after p) (c := p.tr + 1) (seen := [p]) (by omega) ha
        rw [e] at h1
        cases h1
        rw [hc] at h3 h4
        exact ⟨_, _, [], (p.frame :: l) ++ l', ec, .hit (by rw [hg]; exact hc) h2, fun i hi => absurd hi (Nat.not_lt_zero _), fun n => asc_nil,
          .cons (counts_cons (List.mem_cons_self ..) hc h3) (asc_cons (fun _ => asc_hit) h4) h5⟩
      · obtain ⟨g', gs', l, l', h1, h2, h3, h4, h5⟩ := ih (fs.after p) 0 [p] ha
        rw [e] at h1
        cases h1
        exact ⟨_, _, [], l ++ l', ec, .miss (by rw [hg]; exact hc) (by rw [hg]; exact h2), fun i hi => absurd hi (Nat.not_lt_zero _),
          fun n => asc_nil, .cons h3 (fun n hn => h4 n (asc_miss hc hn)) h5⟩

end ServedP

/-- **C155** As C152, for every input and every order of coding; moreover, if a group of pictures has, in the order of coding, pictures with the
temporal references 0, 1, …, n - 1, whatever other pictures are between them, then at least n pictures of the group are returned. -/
theorem C155 {fuel k : Nat} {br : BR} {ps : List Pict} {s' : VS} (h : Run fuel (VS.new br) ps s') (hk : ps.length < k) :
    ∃ l t, nexts fuel k l.length (VS.new br) = (.ok l, t) ∧ Served (cutGops ps) l ∧
      ∀ e, (step fuel s').1 = .err e → (VS.next fuel k t).1 = .err e := by
  obtain ⟨g, gs, l, l', h1, h2, h3, h4, h5⟩ := ServedP.loop ps (AnyOrder.run_small h) (VS.new br).fs 0 []
    (fun r hr => by rcases hr with hr | hr <;> cases hr)
  have hp : Emits false (VS.new br).fs 0 ps (l ++ l') := .go rfl h2
  obtain ⟨t, n1, _⟩ := emits_calls (k := k) (e := .eof) hp (k' := k) rfl rfl h hk hk
  refine ⟨l ++ l', t, n1, ?_, fun e he => ?_⟩
  · rw [h1]; exact .cons h3 h4 h5
  · obtain ⟨u, m1, m2⟩ := emits_calls (k := k) (e := e) hp (k' := k) rfl rfl h hk hk
    rw [n1] at m1
    cases m1
    exact m2 he

theorem served_length {gs : List (List Pict)} {l : List Frame} (h : Served gs l) :
    (gs.filter fun g => g.any fun p => p.tr == 0).length ≤ l.length := by
  induction h with
  | nil => exact Nat.le_refl _
  | @cons g gs l l' h1 h2 _ ih =>
    rw [List.filter_cons, List.length_append]
    split
    · rename_i hg
      obtain ⟨p, p1, p2⟩ := List.any_eq_true.1 hg
      have := h2 1 ⟨[p], List.singleton_sublist.2 p1, by simpa using p2⟩
      rw [List.length_cons]
      omega
    · omega

/-- At least as many pictures are returned as there are groups of pictures with a picture of temporal reference 0. -/
theorem C155_groups {fuel k : Nat} {br : BR} {ps : List Pict} {s' : VS} (h : Run fuel (VS.new br) ps s') (hk : ps.length < k) :
    ∃ l t, nexts fuel k l.length (VS.new br) = (.ok l, t) ∧ ((cutGops ps).filter fun g => g.any fun p => p.tr == 0).length ≤ l.length := by
  obtain ⟨l, t, h1, h2, _⟩ := C155 h hk
  exact ⟨l, t, h1, served_length h2⟩

theorem served_all {gs : List (List Pict)} {l : List Frame} (h : Served gs l) :
    (∀ g ∈ gs, g.map (fun p => p.tr) = List.range g.length) → l = gs.flatten.map fun p => p.frame := by
  induction h with
  | nil => exact fun _ => rfl
  | @cons g gs l l' h1 h2 _ ih =>
    intro ha
    have hg := ha g (List.mem_cons_self ..)
    have hat : ∀ i (hi : i < g.length), g[i].tr = i := by
      intro i hi
      have := congrArg (fun x => x[i]?) hg
      simpa [List.getElem?_eq_getElem hi, hi] using this
    have hinj : ∀ p ∈ g, ∀ (hi : p.tr < g.length), p = g[p.tr] := by
      intro p hp hi
      obtain ⟨j, hj, rfl⟩ := List.mem_iff_getElem.1 hp
      have := hat j hj
      simp only [this]
    have hlt : ∀ p ∈ g, p.tr < g.length := by
      intro p hp
      obtain ⟨j, hj, rfl⟩ := List.mem_iff_getElem.1 hp
      rw [hat j hj]; exact hj
    have hle := h2 g.length ⟨g, List.Sublist.refl g, by rw [hg, List.range_eq_range']⟩
    have hge : l.length ≤ g.length := by
      by_cases hc : l.length ≤ g.length
      · exact hc
      · obtain ⟨p, p1, p2, _⟩ := h1 g.length (by omega)
        have := hlt p p1
        omega
    have hl : l = g.map fun p => p.frame := by
      apply List.ext_getElem
      · rw [List.length_map]; omega
      · intro i hi hi'
        obtain ⟨p, p1, p2, p3⟩ := h1 i hi
        rw [List.length_map] at hi'
        rw [List.getElem_map, ← p3]
        obtain ⟨j, hj, rfl⟩ := List.mem_iff_getElem.1 p1
        have := hat j hj
        have : j = i := by omega
        subst this
        rfl
    rw [List.flatten_cons, List.map_append, ← hl, ih fun x hx => ha x (List.mem_cons_of_mem _ hx)]

/-- Streams without reordering: if the temporal references of every group of pictures are 0, 1, 2, … in the order of coding, all
pictures are returned in this order; B pictures are not required to follow the rules for reference pictures. -/
theorem C155_low_delay {fuel k : Nat} {br : BR} {ps : List Pict} {s' : VS} (h : Run fuel (VS.new br) ps s') (hk : ps.length < k)
    (hg : ∀ g ∈ cutGops ps, g.map (fun p => p.tr) = List.range g.length) :
    ∃ t, nexts fuel k ps.length (VS.new br) = (.ok (ps.map fun p => p.frame), t) ∧
      ∀ e, (step fuel s').1 = .err e → (VS.next fuel k t).1 = .err e := by
  obtain ⟨l, t, h1, h2, h3⟩ := C155 h hk
  have := served_all h2 hg
  rw [C152_all] at this
  subst this
  rw [List.length_map] at h1
  exact ⟨t, h1, h3⟩

namespace ServedP
open AnyOrder

theorem holds_enter {fs : FrameStore} {p : Pict} (hp : p.tr < 1024) (hg : p.newGop = true) : Holds (fs.after p) [p] := by
  have he : ∀ r, ((fs.entered p.newGop).f0 = some r ∨ (fs.entered p.newGop).f1 = some r) → r.previousGOP = true := by
    rw [hg]
    rintro r (hr | hr)
    · obtain ⟨a, _, rfl⟩ := Option.map_eq_some_iff.1 (show fs.f0.map _ = some r from hr); rfl
    · obtain ⟨a, _, rfl⟩ := Option.map_eq_some_iff.1 (show fs.f1.map _ = some r from hr); rfl
  obtain ⟨a, b⟩ := set_slots (fs.entered p.newGop) p.tr
  intro r hr hq
  unfold FrameStore.after at hr
  split at hr
  · rcases hr with hr | hr
    · have := he r (.inr (b.symm.trans hr))
      rw [hq] at this; cases this
    · have hr : some (RefFrame.mk p.frame p.tr false) = some r := hr
      cases hr
      exact ⟨p, List.mem_cons_self .., rfl, rfl, hp⟩
  · rw [a, b] at hr
    have := he r hr
    rw [hq] at this; cases this

end ServedP

/-- As C155, for a decoder in any state, whatever it has decoded before and whatever has failed: from the next header of a group of pictures
on, when no picture of the group before is waiting in the store. -/
theorem C155_any_state {fuel k : Nat} {s s' : VS} {p : Pict} {ps : List Pict} (hw : s.fs.tryGet s.frameCounter = none)
    (hg : p.newGop = true) (h : Run fuel s (p :: ps) s') (hk : (p :: ps).length < k) :
    ∃ l t, nexts fuel k l.length s = (.ok l, t) ∧ Served (cutGops (p :: ps)) l ∧
      ∀ e, (step fuel s').1 = .err e → (VS.next fuel k t).1 = .err e := by
  have hsm := AnyOrder.run_small h
  have hp0 := hsm p (List.mem_cons_self ..)
  have ih := ServedP.loop ps fun q hq => hsm q (List.mem_cons_of_mem _ hq)
  have ha := ServedP.holds_enter (fs := s.fs) hp0 hg
  obtain ⟨g, gs, e⟩ := AnyOrder.cut_shape ps
  have ec : cutGops (p :: ps) = [] :: (p :: g) :: gs := by
    rw [cutGops, hg, e]; rfl
  have : ∃ l, Emits true s.fs s.frameCounter (p :: ps) l ∧ Served ((p :: g) :: gs) l := by
    by_cases hc : p.tr = 0
    · obtain ⟨g', gs', l, l', h1, h2, h3, h4, h5⟩ := ServedP.store ih 1024 (fs := s.fs.after p) (c := p.tr + 1) (seen := [p]) (by omega) ha
      rw [e] at h1
      cases h1
      rw [hc] at h3 h4
      exact ⟨(p.frame :: l) ++ l', .hit (by rw [hg]; exact hc) h2,
        .cons (AnyOrder.counts_cons (List.mem_cons_self ..) hc h3) (ServedP.asc_cons (fun _ => ServedP.asc_hit) h4) h5⟩
    · obtain ⟨g', gs', l, l', h1, h2, h3, h4, h5⟩ := ih (s.fs.after p) 0 [p] ha
      rw [e] at h1
      cases h1
      exact ⟨l ++ l', .miss (by rw [hg]; exact hc) (by rw [hg]; exact h2), .cons h3 (fun n hn => h4 n (ServedP.asc_miss hc hn)) h5⟩
  obtain ⟨l, h2, h5⟩ := this
  have hp : Emits false s.fs s.frameCounter (p :: ps) l := .go hw h2
  obtain ⟨t, n1, _⟩ := emits_calls (k := k) (e := .eof) hp (k' := k) rfl rfl h hk hk
  refine ⟨l, t, n1, ?_, fun e he => ?_⟩
  · rw [ec]
    exact .cons (l := []) (fun i hi => absurd hi (Nat.not_lt_zero _)) (fun n => ServedP.asc_nil) h5
  · obtain ⟨u, m1, m2⟩ := emits_calls (k := k) (e := e) hp (k' := k) rfl rfl h hk hk
    rw [n1] at m1
    cases m1
    exact m2 he

namespace ServedEx
open ExOrder HeadLostEx

/-- two groups of pictures: I0 I5 B1 B2 (between which the pictures 3 and 4 do not come), and I0 I1 -/
def stream6 : List Bool :=
  byte (encSeq ⟨16, 16, 1, 3, 100, 20, false, none, none⟩) ++ byte (encSeqExt ⟨0x48, 1, 1, 0, 0, 0, true, 0, 0, 0, 0⟩) ++
  (byte (encGOP ⟨false, 0, 0, true, 0, 0, true, false⟩) ++ iPic 0 ++ iPic 5 ++ bPic 1 ++ bPic 2) ++
  (byte (encGOP ⟨false, 0, 0, true, 0, 0, true, false⟩) ++ iPic 0 ++ iPic 1) ++ bitsOf 32 0x1B7
def x0 : VS := VS.new ⟨stream6, 0, .eof, []⟩
def x1 : VS := after x0
def x2 : VS := after x1
def x3 : VS := after x2
def x4 : VS := after x3
def x5 : VS := after x4
def x6 : VS := after x5
theorem run6 : Run 20 x0 [pictAt x0, pictAt x1, pictAt x2, pictAt x3, pictAt x4, pictAt x5] x6 :=
  run_one (by decide +kernel) (by decide +kernel) (by decide +kernel) <|
  run_one (by decide +kernel) (by decide +kernel) (by decide +kernel) <|
  run_one (by decide +kernel) (by decide +kernel) (by decide +kernel) <|
  run_one (by decide +kernel) (by decide +kernel) (by decide +kernel) <|
  run_one (by decide +kernel) (by decide +kernel) (by decide +kernel) <|
  run_one (by decide +kernel) (by decide +kernel) (by decide +kernel) <| .nil _
theorem facts6 : ([x0, x1, x2, x3, x4, x5].map fun s => ((pictAt s).newGop, (pictAt s).tr)) =
    [(true, 0), (false, 5), (false, 1), (false, 2), (true, 0), (false, 1)] := by decide +kernel

/-- the hypotheses of C155 hold, and three pictures of the first group come in order -/
example : Ascends 0 3 [pictAt x0, pictAt x1, pictAt x2, pictAt x3] ∧ ∃ l t, nexts 20 7 l.length x0 = (.ok l, t) ∧
    Served [[], [pictAt x0, pictAt x1, pictAt x2, pictAt x3], [pictAt x4, pictAt x5]] l ∧ (VS.next 20 7 t).1 = .err .eos := by
  have hf := facts6
  simp only [List.map_cons, List.map_nil, List.cons.injEq, Prod.mk.injEq, and_true] at hf
  obtain ⟨⟨a1, a2⟩, ⟨b1, b2⟩, ⟨c1, c2⟩, ⟨d1, d2⟩, ⟨e1, e2⟩, f1, f2⟩ := hf
  refine ⟨⟨[pictAt x0, pictAt x2, pictAt x3], .cons_cons _ (.cons _ (List.Sublist.refl _)), by simp [a2, c2, d2, List.range']⟩, ?_⟩
  obtain ⟨l, t, h1, h2, h3⟩ := C155 (k := 7) run6 (by simp only [List.length_cons, List.length_nil]; omega)
  refine ⟨l, t, h1, ?_, h3 _ (isEos_eq (by decide +kernel))⟩
  simpa [cutGops, joinFirst, a1, b1, c1, d1, e1, f1] using h2

/-- the decoder after three calls -/
def z0 : VS := { x4 with frameCounter := 3 }
def z1 : VS := after z0
def z2 : VS := after z1
theorem run6b : Run 20 z0 [pictAt z0, pictAt z1] z2 :=
  run_one (by decide +kernel) (by decide +kernel) (by decide +kernel) <|
  run_one (by decide +kernel) (by decide +kernel) (by decide +kernel) <| .nil _

/-- the hypotheses of C155_any_state hold in a state after the first group of pictures, with pictures in the store -/
example : z0.fs.f0.isSome = true ∧ z0.fs.f1.isSome = true ∧ ∃ l t, nexts 20 3 l.length z0 = (.ok l, t) ∧
    Served (cutGops [pictAt z0, pictAt z1]) l ∧ (VS.next 20 3 t).1 = .err .eos := by
  refine ⟨by decide +kernel, by decide +kernel, ?_⟩
  obtain ⟨l, t, h1, h2, h3⟩ := C155_any_state (k := 3) (Option.isNone_iff_eq_none.1 (by decide +kernel)) (by decide +kernel) run6b
    (by simp only [List.length_cons, List.length_nil]; omega)
  exact ⟨l, t, h1, h2, h3 _ (isEos_eq (by decide +kernel))⟩

/-- two groups of pictures without reordering: I0 I1 B2, and I0 I1 -/
def stream7 : List Bool :=
  byte (encSeq ⟨16, 16, 1, 3, 100, 20, false, none, none⟩) ++ byte (encSeqExt ⟨0x48, 1, 1, 0, 0, 0, true, 0, 0, 0, 0⟩) ++
  (byte (encGOP ⟨false, 0, 0, true, 0, 0, true, false⟩) ++ iPic 0 ++ iPic 1 ++ bPic 2) ++
  (byte (encGOP ⟨false, 0, 0, true, 0, 0, true, false⟩) ++ iPic 0 ++ iPic 1) ++ bitsOf 32 0x1B7
def y0 : VS := VS.new ⟨stream7, 0, .eof, []⟩
def y1 : VS := after y0
def y2 : VS := after y1
def y3 : VS := after y2
def y4 : VS := after y3
def y5 : VS := after y4
theorem run7 : Run 20 y0 [pictAt y0, pictAt y1, pictAt y2, pictAt y3, pictAt y4] y5 :=
  run_one (by decide +kernel) (by decide +kernel) (by decide +kernel) <|
  run_one (by decide +kernel) (by decide +kernel) (by decide +kernel) <|
  run_one (by decide +kernel) (by decide +kernel) (by decide +kernel) <|
  run_one (by decide +kernel) (by decide +kernel) (by decide +kernel) <|
  run_one (by decide +kernel) (by decide +kernel) (by decide +kernel) <| .nil _

/-- the hypotheses of C155_low_delay hold: all five pictures are returned -/
example : ∃ t, nexts 20 6 5 y0 = (.ok [(pictAt y0).frame, (pictAt y1).frame, (pictAt y2).frame, (pictAt y3).frame, (pictAt y4).frame], t) ∧
    (VS.next 20 6 t).1 = .err .eos := by
  obtain ⟨t, h1, h2⟩ := C155_low_delay (k := 6) run7 (by simp only [List.length_cons, List.length_nil]; omega) (by decide +kernel)
  exact ⟨t, h1, h2 _ (isEos_eq (by decide +kernel))⟩

end ServedEx

end Mpeg.Video
