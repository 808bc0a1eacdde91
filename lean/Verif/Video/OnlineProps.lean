/-
C154: what follows in a stream does not change which pictures are returned before.
-/
import Verif.Video.HeaderOnlyProps
set_option linter.all false
namespace Mpeg.Video
open Spec

namespace Online

theorem extend {ys : List Pict} {b : Bool} {fs : FrameStore} {c : Nat} {xs : List Pict} {l : List Frame} (h : Emits b fs c xs l) :
    ∀ seen, AnyOrder.Holds fs seen → (∀ p ∈ xs ++ ys, p.tr < 1024) → ∃ l', Emits b fs c (xs ++ ys) (l ++ l') := by
  induction h with
  | @wait fs c xs f l h1 h2 _ ih =>
    intro seen hh hs
    obtain ⟨l', e⟩ := ih seen hh hs
    exact ⟨l', .wait h1 h2 e⟩
  | @go fs c xs l h1 _ ih =>
    intro seen hh hs
    obtain ⟨l', e⟩ := ih seen hh hs
    exact ⟨l', .go h1 e⟩
  | @hit fs c p xs l h1 _ ih =>
    intro seen hh hs
    obtain ⟨l', e⟩ := ih _ (hh.after (hs p (List.mem_cons_self ..))) fun q hq => hs q (List.mem_cons_of_mem _ hq)
    exact ⟨l', .hit h1 e⟩
  | @miss fs c p xs l h1 _ ih =>
    intro seen hh hs
    obtain ⟨l', e⟩ := ih _ (hh.after (hs p (List.mem_cons_self ..))) fun q hq => hs q (List.mem_cons_of_mem _ hq)
    exact ⟨l', .miss h1 e⟩
  | @done fs c =>
    intro seen hh hs
    obtain ⟨_, _, l1, l2, _, e, _⟩ := AnyOrder.loop ys hs fs c seen hh
    exact ⟨l1 ++ l2, e⟩

theorem frameAt_append {q1 q2 : List Pict} {i : Nat} {f : Frame} (h : frameAt q1 i = some f) : frameAt (q1 ++ q2) i = some f := by
  obtain ⟨p, h1, h2⟩ := Option.map_eq_some_iff.1 h
  unfold frameAt
  rw [List.getElem?_append_left (List.getElem?_eq_some_iff.1 h1).1, h1]
  exact congrArg some h2

theorem map_append {q1 q2 : List Pict} : ∀ {l : List Frame} {idx : List Nat}, l.map some = idx.map (frameAt q1) →
    l.map some = idx.map (frameAt (q1 ++ q2))
  | [], [], _ => rfl
  | [], _ :: _, h => by cases h
  | _ :: _, [], h => by cases h
  | f :: l, i :: idx, h => by
    simp only [List.map_cons, List.cons.injEq] at h
    rw [List.map_cons, List.map_cons, frameAt_append h.1.symm, map_append h.2]

end Online

/-- **C154** Two streams of any contents; the headings of the pictures `ps` of the first are the first headings of the pictures `qs` of the second.
The pictures that `Next` returns of the first, before it reports its end or its failure, are at the same positions as the first pictures that
`Next` returns of the second: what follows in a stream, and where it ends, does not change which pictures are returned before. -/
theorem C154 {fuel fuel' k k' : Nat} {br br' : BR} {ps qs : List Pict} {s t : VS} (h : Run fuel (VS.new br) ps s)
    (h' : Run fuel' (VS.new br') qs t) (hh : ps.map heading <+: qs.map heading) (hk : ps.length < k) (hk' : qs.length < k') :
    ∃ (idx more : List Nat) (l l' : List Frame) (u v : VS), nexts fuel k idx.length (VS.new br) = (.ok l, u) ∧
      nexts fuel' k' (idx ++ more).length (VS.new br') = (.ok l', v) ∧
      l.map some = idx.map (frameAt ps) ∧ l'.map some = (idx ++ more).map (frameAt qs) ∧
      (∀ e, (step fuel s).1 = .err e → (VS.next fuel k u).1 = .err e) ∧
      ∀ e, (step fuel' t).1 = .err e → (VS.next fuel' k' v).1 = .err e := by
  have hempty : ∀ br : BR, AnyOrder.Holds (VS.new br).fs [] := fun br r hr => by rcases hr with hr | hr <;> cases hr
  obtain ⟨q1, q2, rfl, hq⟩ : ∃ q1 q2, qs = q1 ++ q2 ∧ ps.map heading = q1.map heading := by
    refine ⟨qs.take ps.length, qs.drop ps.length, (List.take_append_drop _ _).symm, ?_⟩
    rw [List.map_take, List.prefix_iff_eq_take.1 hh, List.length_map]
  obtain ⟨_, _, l1, l2, _, h2, _⟩ := AnyOrder.loop ps (AnyOrder.run_small h) (VS.new br).fs 0 [] (hempty br)
  have hp : Emits false (VS.new br).fs 0 ps (l1 ++ l2) := .go rfl h2
  obtain ⟨idx, l', e1, e2, e3⟩ := HeaderOnly.emits_same (ps := ps) (qs := q1) hp (fs' := (VS.new br').fs) (ys := q1)
    ⟨trivial, trivial⟩ hq (fun j p q a b => ⟨j, by unfold frameAt; rw [a]; rfl, by unfold frameAt; rw [b]; rfl⟩)
  obtain ⟨l'', e4⟩ := Online.extend (ys := q2) e1 [] (hempty br') (AnyOrder.run_small h')
  obtain ⟨idx2, _, _, e5, _⟩ := HeaderOnly.emits_same (ps := q1 ++ q2) (qs := q1 ++ q2) e4 (fs' := (VS.new br').fs) (ys := q1 ++ q2)
    ⟨trivial, trivial⟩ rfl (fun j p q a b => ⟨j, by unfold frameAt; rw [a]; rfl, by unfold frameAt; rw [b]; rfl⟩)
  have e6 : l''.map some = (idx2.drop l'.length).map (frameAt (q1 ++ q2)) := by
    rw [List.map_drop, ← e5, ← List.map_drop, List.drop_left]
  have e7 : (l' ++ l'').map some = (idx ++ idx2.drop l'.length).map (frameAt (q1 ++ q2)) := by
    rw [List.map_append, List.map_append, Online.map_append e3, e6]
  have n1 : (l1 ++ l2).length = idx.length := by simpa using congrArg List.length e2
  have n2 : (l' ++ l'').length = (idx ++ idx2.drop l'.length).length := by
    have := congrArg List.length e7
    rwa [List.length_map, List.length_map] at this
  have c1 : ∀ e, ∃ u, nexts fuel k (l1 ++ l2).length (VS.new br) = (.ok (l1 ++ l2), u) ∧ ((step fuel s).1 = .err e → (VS.next fuel k u).1 = .err e) :=
    fun e => emits_calls (k := k) (e := e) hp (k' := k) rfl rfl h hk hk
  have c2 : ∀ e, ∃ u, nexts fuel' k' (l' ++ l'').length (VS.new br') = (.ok (l' ++ l''), u) ∧
      ((step fuel' t).1 = .err e → (VS.next fuel' k' u).1 = .err e) :=
    fun e => emits_calls (k := k') (e := e) e4 (k' := k') rfl rfl h' hk' hk'
  obtain ⟨u, u1, _⟩ := c1 .eof
  obtain ⟨v, v1, _⟩ := c2 .eof
  refine ⟨idx, idx2.drop l'.length, l1 ++ l2, l' ++ l'', u, v, n1 ▸ u1, n2 ▸ v1, e2, e7, fun e he => ?_, fun e he => ?_⟩
  · obtain ⟨w, w1, w2⟩ := c1 e
    rw [u1] at w1
    cases w1
    exact w2 he
  · obtain ⟨w, w1, w2⟩ := c2 e
    rw [v1] at w1
    cases w1
    exact w2 he

namespace OnlineEx
open ExOrder HeadLostEx AnyOrderEx HeaderOnlyEx

/-- the first group of pictures of the stream of the example of C153, then the end code -/
def stream5 : List Bool :=
  byte (encSeq ⟨16, 16, 1, 3, 100, 20, false, none, none⟩) ++ byte (encSeqExt ⟨0x48, 1, 1, 0, 0, 0, true, 0, 0, 0, 0⟩) ++
  (byte (encGOP ⟨false, 0, 0, true, 0, 0, true, false⟩) ++ iPic' 2 ++ bPic' 1 ++ bPic' 0) ++ bitsOf 32 0x1B7
def w0 : VS := VS.new ⟨stream5, 0, .eof, []⟩
def w1 : VS := after w0
def w2 : VS := after w1
def w3 : VS := after w2
theorem run5 : Run 20 w0 [pictAt w0, pictAt w1, pictAt w2] w3 :=
  run_one (by decide +kernel) (by decide +kernel) (by decide +kernel) <|
  run_one (by decide +kernel) (by decide +kernel) (by decide +kernel) <|
  run_one (by decide +kernel) (by decide +kernel) (by decide +kernel) <| .nil _

/-- the hypotheses of C154 hold for the stream of three pictures and the one of five with other contents -/
example : ∃ (idx more : List Nat) (l l' : List Frame) (u v : VS), nexts 20 6 idx.length w0 = (.ok l, u) ∧
    nexts 20 6 (idx ++ more).length u0 = (.ok l', v) ∧
    l.map some = idx.map (frameAt [pictAt w0, pictAt w1, pictAt w2]) ∧
    l'.map some = (idx ++ more).map (frameAt [pictAt u0, pictAt u1, pictAt u2, pictAt u3, pictAt u4]) ∧
    (VS.next 20 6 u).1 = .err .eos ∧ (VS.next 20 6 v).1 = .err .eos := by
  obtain ⟨idx, more, l, l', u, v, h1, h2, h3, h4, h5, h6⟩ := C154 (k := 6) (k' := 6) run5 run3
    ⟨[heading (pictAt u3), heading (pictAt u4)], by decide +kernel⟩
    (by simp only [List.length_cons, List.length_nil]; omega) (by simp only [List.length_cons, List.length_nil]; omega)
  exact ⟨idx, more, l, l', u, v, h1, h2, h3, h4, h5 _ (isEos_eq (by decide +kernel)), h6 _ (isEos_eq (by decide +kernel))⟩

end OnlineEx

end Mpeg.Video
