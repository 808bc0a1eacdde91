/-
C111: what `Next` returns of a stream of which pictures are missing.
-/
import Verif.Video.LostLemmas
import Verif.Video.OrderProps
namespace Mpeg.Video
open Spec

/-- In a group of pictures with gaps no temporal reference occurs twice. -/
theorem C111_distinct {ps : List Pict} (h : Damaged ps) : ps.Pairwise fun p q => p.tr ≠ q.tr := by
  obtain ⟨gs, g1, g2, g3⟩ := h.order
  have hord := (from_ord g1 (by omega)).1.sublist g3
  clear g3 h
  induction ps with
  | nil => exact .nil
  | cons p ps ih =>
    exact .cons (fun q hq => hord.ne _ _ (pair_sub hq)) (ih (hord.sublist (.map _ (List.sublist_cons_self ..))))

/-- The frames that are due are determined: `Shown` has exactly one solution. -/
theorem C111_shown {ps : List Pict} (h : Damaged ps) : ∃ l, Shown ps l ∧ ∀ l', Shown ps l' → l' = l := by
  have hd := C111_distinct h
  have hsame : ∀ p ∈ ps, ∀ q ∈ ps, p.tr = q.tr → p = q := by
    intro p hp q hq e
    obtain ⟨i, hi, rfl⟩ := List.getElem_of_mem hp
    obtain ⟨j, hj, rfl⟩ := List.getElem_of_mem hq
    rw [List.pairwise_iff_getElem] at hd
    rcases Nat.lt_trichotomy i j with k | k | k
    · exact absurd e (hd i j hi hj k)
    · subst k; rfl
    · exact absurd e.symm (hd j i hj hi k)
  -- as many frames as possible
  have hex : ∃ l, Shown ps l := by
    have step : ∀ n, (∃ l, Shown ps l) ∨ ∃ l : List Frame, l.length = n ∧ ∀ i (h : i < l.length), ∃ p ∈ ps, p.tr = i ∧ p.frame = l[i] := by
      intro n
      induction n with
      | zero => exact .inr ⟨[], rfl, fun i h => absurd h (Nat.not_lt_zero _)⟩
      | succ n ih =>
        rcases ih with k | ⟨l, hl, hk⟩
        · exact .inl k
        · by_cases hp : ∃ p ∈ ps, p.tr = l.length
          · obtain ⟨p, p1, p2⟩ := hp
            refine .inr ⟨l ++ [p.frame], by simp [hl], fun i hi => ?_⟩
            rw [List.length_append, List.length_singleton] at hi
            by_cases hil : i < l.length
            · obtain ⟨q, q1, q2, q3⟩ := hk i hil
              exact ⟨q, q1, q2, by rw [q3, List.getElem_append_left hil]⟩
            · obtain rfl : i = l.length := by omega
              exact ⟨p, p1, p2, by simp⟩
          · exact .inl ⟨l, hk, fun p hp' e => hp ⟨p, hp', e⟩⟩
    rcases step 1025 with k | ⟨l, hl, hk⟩
    · exact k
    · obtain ⟨p, p1, p2, _⟩ := hk 1024 (by omega)
      obtain ⟨gs, g1, g2, g3⟩ := h.order
      have := ((from_ord g1 (by omega)).1.sublist g3).small _ (List.mem_map_of_mem p1)
      have : p.tr < 1024 := this
      omega
  obtain ⟨l, hl⟩ := hex
  refine ⟨l, hl, fun l' hl' => ?_⟩
  have hlen : l'.length = l.length := by
    rcases Nat.lt_trichotomy l'.length l.length with k | k | k
    · obtain ⟨p, p1, p2, _⟩ := hl.1 _ k
      exact absurd p2 (hl'.2 p p1)
    · exact k
    · obtain ⟨p, p1, p2, _⟩ := hl'.1 _ k
      exact absurd p2 (hl.2 p p1)
  refine List.ext_getElem hlen fun i h1 h2 => ?_
  obtain ⟨p, p1, p2, p3⟩ := hl'.1 i h1
  obtain ⟨q, q1, q2, q3⟩ := hl.1 i h2
  rw [← p3, ← q3, hsame p p1 q q1 (p2.trans q2.symm)]

/-- **C111** Of a stream from which any pictures of any groups of pictures are missing, successive calls of `Next` return
of every group of pictures the pictures before the first one that is missing, in display order, and nothing else; the
next call reports what the stream holds after the pictures.  (`k`: a call decodes at most all pictures of the stream.)
Partial: pictures that are present but follow a missing one in display order are not returned, see `C111_false`. -/
theorem C111_partial {fuel k : Nat} {br : BR} {gops : List (List Pict × List Frame)} {s' : VS}
    (hg : ∀ g ∈ gops, Damaged g.1 ∧ Shown g.1 g.2) (h : Run fuel (VS.new br) (gops.flatMap (·.1)) s')
    (hk : (gops.flatMap (·.1)).length < k) :
    ∃ t, nexts fuel k (gops.flatMap (·.2)).length (VS.new br) = (.ok (gops.flatMap (·.2)), t) ∧
      ∀ e, (step fuel s').1 = .err e → (VS.next fuel k t).1 = .err e := by
  have hp : Emits false (VS.new br).fs 0 (gops.flatMap (·.1)) (gops.flatMap (·.2)) := .go rfl (emits_gops hg _ _)
  obtain ⟨t, n1, _⟩ := emits_calls (k := k) (e := .eof) hp (k' := k) rfl rfl h hk hk
  refine ⟨t, n1, fun e he => ?_⟩
  obtain ⟨u, m1, m2⟩ := emits_calls (k := k) (e := e) hp (k' := k) rfl rfl h hk hk
  rw [n1] at m1
  cases m1
  exact m2 he

/-- A group of pictures without gaps is returned completely, whatever happened to the groups before it. -/
theorem C111_whole {gs : List Group} (h : LegalGop gs) (hs : (display gs).length ≤ 1024) :
    Damaged (coded gs) ∧ Shown (coded gs) ((display gs).map (·.frame)) := by
  cases h with
  | @mk g gs h1 h2 h3 =>
    -- the temporal references of the pictures in display order
    have hpos : ∀ {gs : List Group} {base : Nat}, LegalFrom base gs → base + (display gs).length ≤ 1024 →
        ∀ i (h : i < (display gs).length), ((display gs)[i]).tr = base + i := by
      intro gs base hl
      induction hl with
      | nil => intro _ i h; exact absurd h (Nat.not_lt_zero _)
      | @cons base g gs a b c ih =>
        intro hle i h
        have e : display (g :: gs) = g.bs ++ (g.ref :: display gs) := by simp [display, Group.display]
        have hlen : (display (g :: gs)).length = g.bs.length + (1 + (display gs).length) := by
          rw [e, List.length_append, List.length_cons]; omega
        have hi : (display (g :: gs))[i] = (g.bs ++ (g.ref :: display gs))[i]'(by rw [← e]; exact h) := by
          simp only [e]
        rw [hi]
        by_cases hib : i < g.bs.length
        · rw [List.getElem_append_left hib, a.bsTr i hib, Nat.mod_eq_of_lt (by omega)]
        · rw [List.getElem_append_right (by omega)]
          by_cases hir : i = g.bs.length
          · subst hir
            simp only [Nat.sub_self, List.getElem_cons_zero]
            rw [a.refTr, Nat.mod_eq_of_lt (by omega)]
          · obtain ⟨j, hj⟩ : ∃ j, i - g.bs.length = j + 1 := ⟨i - g.bs.length - 1, by omega⟩
            simp only [hj, List.getElem_cons_succ]
            rw [ih (by omega) j (by omega)]
            omega
    have hmem : ∀ {gs : List Group} {p : Pict}, p ∈ coded gs ↔ p ∈ display gs := by
      intro gs p
      simp only [coded, display, List.mem_flatMap, Group.coded, Group.display, List.mem_cons, List.mem_append,
        List.not_mem_nil, or_false, or_comm, false_or]
    -- the same group of pictures without its header
    have hl : LegalFrom 0 (⟨{ g.ref with newGop := false }, g.bs⟩ :: gs) :=
      .cons ⟨h1.ref, h1.refTr, h1.bs, h1.bsTr⟩ rfl (by simpa using h3)
    have hlen : (display (⟨{ g.ref with newGop := false }, g.bs⟩ :: gs)).length = (display (g :: gs)).length := by
      simp [display, Group.display]
    have hdisp : ∀ i (h : i < (display (g :: gs)).length), ((display (g :: gs))[i]).tr = i := by
      intro i h
      have := hpos hl (by omega) i (by omega)
      rw [Nat.zero_add] at this
      have e : ((display (⟨{ g.ref with newGop := false }, g.bs⟩ :: gs)).map (·.tr)) = (display (g :: gs)).map (·.tr) := by
        simp [display, Group.display]
      have e2 := congrArg (fun l => l[i]?) e
      simp only [List.getElem?_map] at e2
      rw [List.getElem?_eq_getElem (show i < (display (⟨{ g.ref with newGop := false }, g.bs⟩ :: gs)).length by omega),
        List.getElem?_eq_getElem h] at e2
      simp only [Option.map_some, Option.some.injEq] at e2
      exact e2.symm.trans this
    refine ⟨⟨⟨g.ref, g.bs ++ coded gs, by simp [coded, Group.coded], h2, fun q hq => ?_⟩, ⟨_, hl, by omega, ?_⟩⟩, fun i hi => ?_,
      fun p hp => ?_⟩
    · rcases List.mem_append.1 hq with k | k
      · exact (h1.bs q k).2
      · clear hdisp hlen hl hmem hpos hq hs
        have : ∀ {base : Nat} {gs : List Group}, LegalFrom base gs → ∀ q ∈ coded gs, q.newGop = false := by
          intro base gs hl
          induction hl with
          | nil => intro q hq; cases hq
          | @cons base g gs a b c ih =>
            intro q hq
            have hq : q ∈ g.coded ++ coded gs := hq
            rcases List.mem_append.1 hq with k | k
            · rcases List.mem_cons.1 k with rfl | k
              · exact b
              · exact (a.bs q k).2
            · exact ih q k
        exact this h3 q k
    · have : (coded (⟨{ g.ref with newGop := false }, g.bs⟩ :: gs)).map Pict.header = (coded (g :: gs)).map Pict.header := by
        simp [coded, Group.coded, Pict.header]
      rw [this]
      exact List.Sublist.refl _
    · rw [List.length_map] at hi
      refine ⟨(display (g :: gs))[i], hmem.2 (List.getElem_mem _), hdisp i hi, by rw [List.getElem_map]⟩
    · rw [List.length_map]
      obtain ⟨i, hi, rfl⟩ := List.getElem_of_mem (hmem.1 hp)
      rw [hdisp i hi]
      omega

/-- Of a group of pictures from which the picture with temporal reference `m` is missing, at most `m` frames are due. -/
theorem C111_cost {ps : List Pict} {l : List Frame} {m : Nat} (h : Shown ps l) (hm : ∀ p ∈ ps, p.tr ≠ m) : l.length ≤ m := by
  rcases Nat.lt_or_ge m l.length with k | k
  · obtain ⟨p, p1, p2, _⟩ := h.1 m k
    exact absurd p2 (hm p p1)
  · exact k

/-- **C111** A lost picture costs more than itself: of a stream that is one group of pictures from which (only) the
picture with temporal reference `m` is missing, exactly the `m` pictures before it are returned, and then the call of
`Next` reports the end of the stream, although the pictures behind the missing one were all decoded. -/
theorem C111_false {fuel k : Nat} {br : BR} {ps : List Pict} {s' : VS} {e : Err} {m : Nat} (hd : Damaged ps)
    (hm : ∀ p ∈ ps, p.tr ≠ m) (hb : ∀ i < m, ∃ p ∈ ps, p.tr = i) (h : Run fuel (VS.new br) ps s') (hk : ps.length < k)
    (he : (step fuel s').1 = .err e) :
    ∃ l t, l.length = m ∧ Shown ps l ∧ nexts fuel k m (VS.new br) = (.ok l, t) ∧ (VS.next fuel k t).1 = .err e := by
  obtain ⟨l, hl, -⟩ := C111_shown hd
  have hlen : l.length = m := by
    refine Nat.le_antisymm (C111_cost hl hm) (Nat.le_of_not_lt fun k => ?_)
    obtain ⟨p, p1, p2⟩ := hb _ k
    exact hl.2 p p1 p2
  obtain ⟨t, n1, n2⟩ := C111_partial (k := k) (gops := [(ps, l)]) (br := br) (s' := s') (fuel := fuel)
    (fun g hg => by rw [List.mem_singleton.1 hg]; exact ⟨hd, hl⟩) (by simpa using h) (by simpa using hk)
  have e1 : [(ps, l)].flatMap (·.2) = l := by simp
  rw [e1, hlen] at n1
  exact ⟨l, t, hlen, hl, n1, n2 e he⟩

namespace ExLost
open ExOrder

/-- 16 x 16; two groups of pictures of three pictures; of the first, the second picture in display order is missing -/
def stream : List Bool :=
  byte (encSeq ⟨16, 16, 1, 3, 100, 20, false, none, none⟩) ++ byte (encSeqExt ⟨0x48, 1, 1, 0, 0, 0, true, 0, 0, 0, 0⟩) ++
  (byte (encGOP ⟨false, 0, 0, true, 0, 0, true, false⟩) ++ iPic 0 ++ iPic 2) ++
  (byte (encGOP ⟨false, 0, 0, true, 0, 3, true, false⟩) ++ iPic 0 ++ iPic 2 ++ bPic 1) ++ bitsOf 32 0x1B7

def s0 : VS := VS.new ⟨stream, 0, .eof, []⟩
def s1 : VS := after s0
def s2 : VS := after s1
def s3 : VS := after s2
def s4 : VS := after s3
def s5 : VS := after s4

theorem run : Run 20 s0 [pictAt s0, pictAt s1, pictAt s2, pictAt s3, pictAt s4] s5 :=
  run_one (by decide +kernel) (by decide +kernel) (by decide +kernel) <|
  run_one (by decide +kernel) (by decide +kernel) (by decide +kernel) <|
  run_one (by decide +kernel) (by decide +kernel) (by decide +kernel) <|
  run_one (by decide +kernel) (by decide +kernel) (by decide +kernel) <|
  run_one (by decide +kernel) (by decide +kernel) (by decide +kernel) <| .nil _

theorem eos : (step 20 s5).1 = .err .eos := isEos_eq (by decide +kernel)

theorem facts : ([s0, s1, s2, s3, s4].map fun s => ((pictAt s).newGop, (pictAt s).kind, (pictAt s).tr)) =
    [(true, 1, 0), (false, 1, 2), (true, 1, 0), (false, 1, 2), (false, 3, 1)] := by decide +kernel

def gops : List (List Pict × List Frame) :=
  [([pictAt s0, pictAt s1], [(pictAt s0).frame]),
   ([pictAt s2, pictAt s3, pictAt s4], [(pictAt s2).frame, (pictAt s4).frame, (pictAt s3).frame])]

/-- the group of pictures I B I as it was coded -/
def whole (f : Frame) : List Group :=
  [⟨⟨false, 1, 0, f, none, none⟩, []⟩, ⟨⟨false, 1, 2, f, none, none⟩, [⟨false, 3, 1, f, none, none⟩]⟩]

theorem whole_legal (f : Frame) : LegalFrom 0 (whole f) := by
  refine .cons ⟨.inl rfl, rfl, fun b hb => (by cases hb), fun i hi => absurd hi (Nat.not_lt_zero _)⟩ rfl
    (.cons ⟨.inl rfl, rfl, fun b hb => ?_, fun i hi => ?_⟩ rfl .nil)
  · rw [List.mem_singleton.1 hb]; exact ⟨rfl, rfl⟩
  · have hi : i < 1 := hi
    obtain rfl : i = 0 := by omega
    rfl

theorem shown2 {p q : Pict} (hp : p.tr = 0) (hq : q.tr = 2) : Shown [p, q] [p.frame] := by
  refine ⟨fun i hi => ?_, fun x hx => ?_⟩
  · have hi : i < 1 := hi
    obtain rfl : i = 0 := by omega
    exact ⟨_, List.mem_cons_self .., hp, rfl⟩
  · rcases List.mem_cons.1 hx with rfl | hx
    · rw [hp]; simp
    · rw [List.mem_singleton.1 hx, hq]; simp

theorem shown3 {p q r : Pict} (hp : p.tr = 0) (hq : q.tr = 2) (hr : r.tr = 1) :
    Shown [p, q, r] [p.frame, r.frame, q.frame] := by
  refine ⟨fun i hi => ?_, fun x hx => ?_⟩
  · have hi : i < 3 := hi
    match i, hi with
    | 0, _ => exact ⟨p, by simp, hp, rfl⟩
    | 1, _ => exact ⟨r, by simp, hr, rfl⟩
    | 2, _ => exact ⟨q, by simp, hq, rfl⟩
  · rcases List.mem_cons.1 hx with rfl | hx
    · rw [hp]; simp
    · rcases List.mem_cons.1 hx with rfl | hx
      · rw [hq]; simp
      · rw [List.mem_singleton.1 hx, hr]; simp

theorem good : ∀ g ∈ gops, Damaged g.1 ∧ Shown g.1 g.2 := by
  have hf := facts
  simp only [List.map_cons, List.map_nil, List.cons.injEq, Prod.mk.injEq, and_true] at hf
  obtain ⟨⟨a1, a2, a3⟩, ⟨b1, b2, b3⟩, ⟨c1, c2, c3⟩, ⟨d1, d2, d3⟩, e1, e2, e3⟩ := hf
  intro g hg
  rcases List.mem_cons.1 hg with rfl | hg
  · refine ⟨⟨⟨_, _, rfl, a1, fun q hq => ?_⟩, ⟨whole (pictAt s0).frame, whole_legal _, by simp [whole, display, Group.display], ?_⟩⟩,
      shown2 a3 b3⟩
    · rw [List.mem_singleton.1 hq]; exact b1
    · simp only [List.map_cons, List.map_nil, Pict.header, a2, a3, b2, b3, whole, coded, Group.coded, List.flatMap_cons,
        List.flatMap_nil, List.cons_append, List.nil_append]
      decide
  · rw [List.mem_singleton.1 hg]
    refine ⟨⟨⟨_, _, rfl, c1, fun q hq => ?_⟩, ⟨whole (pictAt s0).frame, whole_legal _, by simp [whole, display, Group.display], ?_⟩⟩,
      shown3 c3 d3 e3⟩
    · rcases List.mem_cons.1 hq with rfl | hq
      · exact d1
      · rw [List.mem_singleton.1 hq]; exact e1
    · simp only [List.map_cons, List.map_nil, Pict.header, c2, c3, d2, d3, e2, e3, whole, coded, Group.coded, List.flatMap_cons,
        List.flatMap_nil, List.cons_append, List.nil_append]
      decide

/-- five pictures are decoded; the one behind the missing picture is not returned, the next group of pictures is -/
example : ∃ t, nexts 20 6 4 s0 = (.ok [(pictAt s0).frame, (pictAt s2).frame, (pictAt s4).frame, (pictAt s3).frame], t) ∧
    (VS.next 20 6 t).1 = .err .eos := by
  have e1 : gops.flatMap (·.1) = [pictAt s0, pictAt s1, pictAt s2, pictAt s3, pictAt s4] := by
    simp only [gops, List.flatMap_cons, List.flatMap_nil, List.cons_append, List.nil_append]
  have e2 : gops.flatMap (·.2) = [(pictAt s0).frame, (pictAt s2).frame, (pictAt s4).frame, (pictAt s3).frame] := by
    simp only [gops, List.flatMap_cons, List.flatMap_nil, List.cons_append, List.nil_append]
  obtain ⟨t, h1, h2⟩ := C111_partial (k := 6) good (by rw [e1]; exact run) (by rw [e1]; simp only [List.length_cons, List.length_nil]; omega)
  rw [e2] at h1
  exact ⟨t, h1, h2 _ eos⟩

end ExLost

end Mpeg.Video
