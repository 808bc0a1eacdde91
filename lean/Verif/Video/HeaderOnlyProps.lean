/-
C153: which pictures `Next` returns, and in which order, depends on the picture headers only.
-/
import Verif.Video.AnyOrderProps
import Verif.Video.HeaderOnlySpec
set_option linter.all false
namespace Mpeg.Video
open Spec

namespace HeaderOnly

/-- Slots that differ in the frame only. -/
def SameSlot (R : Frame → Frame → Prop) : Option RefFrame → Option RefFrame → Prop
  | none, none => True
  | some r, some r' => R r.frame r'.frame ∧ r.temporalReference = r'.temporalReference ∧ r.previousGOP = r'.previousGOP
  | _, _ => False

def SameStore (R : Frame → Frame → Prop) (fs fs' : FrameStore) : Prop := SameSlot R fs.f0 fs'.f0 ∧ SameSlot R fs.f1 fs'.f1

theorem same_matches {R : Frame → Frame → Prop} {o o' : Option RefFrame} {c : Nat} (h : SameSlot R o o') :
    (RefFrame.matches o c = none ∧ RefFrame.matches o' c = none) ∨
      ∃ f f', RefFrame.matches o c = some f ∧ RefFrame.matches o' c = some f' ∧ R f f' := by
  match o, o', h with
  | none, none, _ => exact .inl ⟨rfl, rfl⟩
  | some r, some r', ⟨h1, h2, h3⟩ =>
    unfold RefFrame.matches
    dsimp only
    rw [← h2, ← h3]
    split
    · exact .inr ⟨_, _, rfl, rfl, h1⟩
    · exact .inl ⟨rfl, rfl⟩

theorem same_get {R : Frame → Frame → Prop} {fs fs' : FrameStore} {c : Nat} (h : SameStore R fs fs') :
    (fs.tryGet c = none ∧ fs'.tryGet c = none) ∨ ∃ f f', fs.tryGet c = some f ∧ fs'.tryGet c = some f' ∧ R f f' := by
  unfold FrameStore.tryGet
  rcases same_matches (c := c) h.1 with ⟨a, b⟩ | ⟨f, f', a, b, r⟩
  · rw [a, b]; exact same_matches h.2
  · rw [a, b]; exact .inr ⟨f, f', rfl, rfl, r⟩

theorem same_mark {R : Frame → Frame → Prop} {o o' : Option RefFrame} (h : SameSlot R o o') :
    SameSlot R (o.map fun r => { r with previousGOP := true }) (o'.map fun r => { r with previousGOP := true }) := by
  match o, o', h with
  | none, none, _ => trivial
  | some r, some r', ⟨h1, h2, h3⟩ => exact ⟨h1, h2, rfl⟩

theorem same_after {R : Frame → Frame → Prop} {fs fs' : FrameStore} {p q : Pict} (h : SameStore R fs fs') (hh : heading p = heading q)
    (hr : R p.frame q.frame) : SameStore R (fs.after p) (fs'.after q) := by
  unfold heading at hh
  simp only [Prod.mk.injEq] at hh
  obtain ⟨h1, h2, h3⟩ := hh
  have he : SameStore R (fs.entered p.newGop) (fs'.entered q.newGop) := by
    rw [← h1]
    cases p.newGop with
    | false => exact h
    | true => exact ⟨same_mark h.1, same_mark h.2⟩
  have hk : (p.kind = 1 ∨ p.kind = 2) ↔ (q.kind = 1 ∨ q.kind = 2) := by
    have := congrArg (· = true) h2
    simpa using this
  obtain ⟨a, b⟩ := set_slots (fs.entered p.newGop) p.tr
  obtain ⟨a', b'⟩ := set_slots (fs'.entered q.newGop) q.tr
  unfold FrameStore.after
  by_cases hp : p.kind = 1 ∨ p.kind = 2
  · rw [if_pos hp, if_pos (hk.1 hp)]
    refine ⟨?_, hr, h3, rfl⟩
    show SameSlot R ((fs.entered p.newGop).set p.tr).f1 ((fs'.entered q.newGop).set q.tr).f1
    rw [b, b']; exact he.2
  · rw [if_neg hp, if_neg (fun x => hp (hk.2 x))]
    exact ⟨by rw [a, a']; exact he.1, by rw [b, b']; exact he.2⟩

/-- The same pictures of `ps` and `qs`. -/
def Pair (ps qs : List Pict) (f f' : Frame) : Prop := ∃ i, frameAt ps i = some f ∧ frameAt qs i = some f'

theorem emits_same {ps qs : List Pict} {b : Bool} {fs : FrameStore} {c : Nat} {xs : List Pict} {l : List Frame} (h : Emits b fs c xs l) :
    ∀ {fs' : FrameStore} {ys : List Pict}, SameStore (Pair ps qs) fs fs' → xs.map heading = ys.map heading →
      (∀ (j : Nat) (p q : Pict), xs[j]? = some p → ys[j]? = some q → Pair ps qs p.frame q.frame) →
      ∃ (idx : List Nat) (l' : List Frame), Emits b fs' c ys l' ∧ l.map some = idx.map (frameAt ps) ∧ l'.map some = idx.map (frameAt qs) := by
  induction h with
  | @wait fs c xs f l h1 h2 _ ih =>
    intro fs' ys hs hm hp
    rcases same_get (c := c) hs with ⟨a, _⟩ | ⟨g, g', a, b, i, i1, i2⟩
    · rw [h1] at a; cases a
    · rw [h1] at a
      cases a
      obtain ⟨idx, l', e1, e2, e3⟩ := ih hs hm hp
      exact ⟨i :: idx, g' :: l', .wait b h2 e1, by rw [List.map_cons, List.map_cons, i1, e2], by rw [List.map_cons, List.map_cons, i2, e3]⟩
  | @go fs c xs l h1 _ ih =>
    intro fs' ys hs hm hp
    rcases same_get (c := c) hs with ⟨_, b⟩ | ⟨g, g', a, _⟩
    · obtain ⟨idx, l', e1, e2⟩ := ih hs hm hp
      exact ⟨idx, l', .go b e1, e2⟩
    · rw [h1] at a; cases a
  | @hit fs c p xs l h1 _ ih =>
    intro fs' ys hs hm hp
    cases ys with
    | nil => cases hm
    | cons q ys =>
      simp only [List.map_cons, List.cons.injEq] at hm
      obtain ⟨i, i1, i2⟩ := hp 0 p q rfl rfl
      obtain ⟨idx, l', e1, e2, e3⟩ := ih (same_after hs hm.1 ⟨i, i1, i2⟩) hm.2 fun j => hp (j + 1)
      have hg : p.newGop = q.newGop := congrArg Prod.fst hm.1
      have ht : p.tr = q.tr := congrArg (fun x => x.2.2) hm.1
      rw [hg, ht] at h1
      rw [ht] at e1
      exact ⟨i :: idx, q.frame :: l', .hit h1 e1, by rw [List.map_cons, List.map_cons, i1, e2], by rw [List.map_cons, List.map_cons, i2, e3]⟩
  | @miss fs c p xs l h1 _ ih =>
    intro fs' ys hs hm hp
    cases ys with
    | nil => cases hm
    | cons q ys =>
      simp only [List.map_cons, List.cons.injEq] at hm
      obtain ⟨idx, l', e1, e2⟩ := ih (same_after hs hm.1 (hp 0 p q rfl rfl)) hm.2 fun j => hp (j + 1)
      have hg : p.newGop = q.newGop := congrArg Prod.fst hm.1
      have ht : p.tr = q.tr := congrArg (fun x => x.2.2) hm.1
      rw [hg] at e1
      rw [hg, ht] at h1
      exact ⟨idx, l', .miss h1 e1, e2⟩
  | @done fs c =>
    intro fs' ys hs hm hp
    cases ys with
    | nil => exact ⟨[], [], .done, rfl, rfl⟩
    | cons q ys => cases hm

/-- Pictures with given headings, marked with their positions. -/
def canon : Nat → List (Bool × Bool × Nat) → List Pict
  | _, [] => []
  | n, h :: hs => ⟨h.1, if h.2.1 then 1 else 3, h.2.2, ⟨.zero 0, .zero 0, .zero 0, n, 0⟩, none, none⟩ :: canon (n + 1) hs

theorem canon_heading : ∀ (n : Nat) (hs : List (Bool × Bool × Nat)), (canon n hs).map heading = hs
  | _, [] => rfl
  | n, (a, b, c) :: hs => by
    unfold canon
    rw [List.map_cons, canon_heading (n + 1) hs]
    cases b <;> rfl

theorem canon_mark : ∀ (n : Nat) (hs : List (Bool × Bool × Nat)) (i : Nat) (f : Frame), frameAt (canon n hs) i = some f → f.yStride = n + i
  | _, [], i, f, h => by cases h
  | n, _ :: hs, 0, f, h => by cases h; rfl
  | n, a :: hs, i + 1, f, h => by
    have := canon_mark (n + 1) hs i f h
    omega

theorem marks {g : Nat → Option Frame} {m : Frame → Nat} (hg : ∀ i f, g i = some f → m f = i) : ∀ (l : List Frame) (idx : List Nat),
    l.map some = idx.map g → idx = l.map m
  | [], [], _ => rfl
  | [], _ :: _, h => by cases h
  | _ :: _, [], h => by cases h
  | f :: l, i :: idx, h => by
    simp only [List.map_cons, List.cons.injEq] at h
    rw [List.map_cons, hg i f h.1.symm, marks hg l idx h.2]

theorem canon_low : ∀ (n : Nat) (hs : List (Bool × Bool × Nat)), ∀ p ∈ canon n hs, n ≤ p.frame.yStride
  | _, [], p, hp => by cases hp
  | n, h :: hs, p, hp => by
    rcases List.mem_cons.1 (show p ∈ _ :: canon (n + 1) hs from hp) with rfl | hp
    · exact Nat.le_refl _
    · exact Nat.le_of_succ_le (canon_low (n + 1) hs p hp)

theorem canon_nodup : ∀ (n : Nat) (hs : List (Bool × Bool × Nat)), (canon n hs).Pairwise fun p q => p.frame.yStride ≠ q.frame.yStride
  | _, [] => .nil
  | n, h :: hs => by
    refine List.Pairwise.cons (fun q hq => ?_) (canon_nodup (n + 1) hs)
    have := canon_low (n + 1) hs q hq
    show n ≠ _
    omega

theorem mark_inj {g : List Pict} (h : g.Pairwise fun p q => p.frame.yStride ≠ q.frame.yStride) :
    ∀ p ∈ g, ∀ q ∈ g, p.frame.yStride = q.frame.yStride → p = q := by
  induction h with
  | nil => intro p hp; cases hp
  | @cons a g h1 _ ih =>
    intro p hp q hq e
    rcases List.mem_cons.1 hp with hp' | hp' <;> rcases List.mem_cons.1 hq with hq' | hq'
    · rw [hp', hq']
    · exact absurd (hp' ▸ e) (h1 q hq')
    · exact absurd (hq' ▸ e.symm) (h1 p hp')
    · exact ih p hp' q hq' e

theorem inOrder_nodup {gs : List (List Pict)} {l : List Frame} (h : InOrder gs l) :
    gs.flatten.Pairwise (fun p q => p.frame.yStride ≠ q.frame.yStride) →
      l.Pairwise (fun f f' => f.yStride ≠ f'.yStride) ∧ ∀ f ∈ l, ∃ p ∈ gs.flatten, p.frame = f := by
  induction h with
  | nil => exact fun _ => ⟨.nil, fun f hf => by cases hf⟩
  | @cons g gs l l' h1 _ ih =>
    intro hp
    rw [List.flatten_cons] at hp
    obtain ⟨a, b, c⟩ := List.pairwise_append.1 hp
    obtain ⟨d, e⟩ := ih b
    have hl : ∀ f ∈ l, ∃ p ∈ g, p.frame = f := by
      intro f hf
      obtain ⟨i, hi, rfl⟩ := List.mem_iff_getElem.1 hf
      obtain ⟨p, p1, _, p3⟩ := h1 i hi
      exact ⟨p, p1, p3⟩
    refine ⟨List.pairwise_append.2 ⟨?_, d, fun f hf f' hf' => ?_⟩, fun f hf => ?_⟩
    · rw [List.pairwise_iff_getElem]
      intro i j hi hj hij he
      obtain ⟨p, p1, p2, p3⟩ := h1 i hi
      obtain ⟨q, q1, q2, q3⟩ := h1 j hj
      have := mark_inj a p p1 q q1 (by rw [p3, q3]; exact he)
      subst this
      omega
    · obtain ⟨p, p1, rfl⟩ := hl f hf
      obtain ⟨q, q1, rfl⟩ := e f' hf'
      exact c p p1 q q1
    · rw [List.flatten_cons]
      rcases List.mem_append.1 hf with hf | hf
      · obtain ⟨p, p1, p2⟩ := hl f hf
        exact ⟨p, List.mem_append_left _ p1, p2⟩
      · obtain ⟨p, p1, p2⟩ := e f hf
        exact ⟨p, List.mem_append_right _ p1, p2⟩

end HeaderOnly

/-- **C153** For all headings of pictures (header of a group of pictures in front, reference picture or not, temporal reference) there is one
list of positions, all different, such that for every stream of whatever contents of which a new decoder can decode pictures `ps` with these headings,
the calls of `Next` return the pictures at these positions, in this order, and the call after them reports the failure of the stream. -/
theorem C153 (hs : List (Bool × Bool × Nat)) : ∃ idx : List Nat, idx.Nodup ∧ ∀ (fuel k : Nat) (br : BR) (ps : List Pict) (s : VS),
    Run fuel (VS.new br) ps s → ps.map heading = hs → ps.length < k →
    ∃ l t, nexts fuel k idx.length (VS.new br) = (.ok l, t) ∧ l.map some = idx.map (frameAt ps) ∧
      ∀ e, (step fuel s).1 = .err e → (VS.next fuel k t).1 = .err e := by
  by_cases hb : ∀ p ∈ HeaderOnly.canon 0 hs, p.tr < 1024
  · obtain ⟨g, gs, l1, l2, h1, h2, h3, h4⟩ := AnyOrder.loop (HeaderOnly.canon 0 hs) hb ⟨none, none, none, none⟩ 0 []
      (fun r hr => by rcases hr with hr | hr <;> cases hr)
    have hp : Emits false ⟨none, none, none, none⟩ 0 (HeaderOnly.canon 0 hs) (l1 ++ l2) := .go rfl h2
    have hn : InOrder (cutGops (HeaderOnly.canon 0 hs)) (l1 ++ l2) := by rw [h1]; exact .cons h3 h4
    refine ⟨(l1 ++ l2).map fun f => f.yStride,
      List.pairwise_map.2 (HeaderOnly.inOrder_nodup hn (by rw [C152_all]; exact HeaderOnly.canon_nodup 0 hs)).1, fun fuel k br ps s h hh hk => ?_⟩
    obtain ⟨idx, l, e1, e2, e3⟩ := HeaderOnly.emits_same (ps := HeaderOnly.canon 0 hs) (qs := ps) hp (fs' := (VS.new br).fs) (ys := ps)
      ⟨trivial, trivial⟩ ((HeaderOnly.canon_heading 0 hs).trans hh.symm)
      (fun j p q a b => ⟨j, by unfold frameAt; rw [a]; rfl, by unfold frameAt; rw [b]; rfl⟩)
    rw [← HeaderOnly.marks (fun i f hf => by rw [HeaderOnly.canon_mark 0 hs i f hf, Nat.zero_add]) _ _ e2]
    have n2 : l.length = idx.length := by simpa using congrArg List.length e3
    have c1 : ∀ e, ∃ u, nexts fuel k l.length (VS.new br) = (.ok l, u) ∧ ((step fuel s).1 = .err e → (VS.next fuel k u).1 = .err e) :=
      fun e => emits_calls (k := k) (e := e) e1 (k' := k) rfl rfl h hk hk
    obtain ⟨u, u1, _⟩ := c1 .eof
    refine ⟨l, u, n2 ▸ u1, e3, fun e he => ?_⟩
    obtain ⟨w, w1, w2⟩ := c1 e
    rw [u1] at w1
    cases w1
    exact w2 he
  · refine ⟨[], .nil, fun fuel k br ps s h hh hk => absurd (fun p hp => ?_) hb⟩
    have hm : (p : Pict) → p ∈ HeaderOnly.canon 0 hs → heading p ∈ ps.map heading := by
      intro p hp
      rw [hh, ← HeaderOnly.canon_heading 0 hs]
      exact List.mem_map_of_mem hp
    obtain ⟨q, q1, q2⟩ := List.mem_map.1 (hm p hp)
    have : q.tr = p.tr := congrArg (fun x => x.2.2) q2
    rw [← this]
    exact AnyOrder.run_small h q q1

/-- Two streams with the same headings, of any contents: the pictures at the same positions are returned. -/
theorem C153_two {fuel fuel' k k' : Nat} {br br' : BR} {ps qs : List Pict} {s t : VS} (h : Run fuel (VS.new br) ps s)
    (h' : Run fuel' (VS.new br') qs t) (hh : ps.map heading = qs.map heading) (hk : ps.length < k) (hk' : qs.length < k') :
    ∃ (idx : List Nat) (l l' : List Frame) (u v : VS), nexts fuel k idx.length (VS.new br) = (.ok l, u) ∧ nexts fuel' k' idx.length (VS.new br') = (.ok l', v) ∧
      l.map some = idx.map (frameAt ps) ∧ l'.map some = idx.map (frameAt qs) ∧
      (∀ e, (step fuel s).1 = .err e → (VS.next fuel k u).1 = .err e) ∧
      ∀ e, (step fuel' t).1 = .err e → (VS.next fuel' k' v).1 = .err e := by
  obtain ⟨idx, _, hi⟩ := C153 (ps.map heading)
  obtain ⟨l, u, a1, a2, a3⟩ := hi fuel k br ps s h rfl hk
  obtain ⟨l', v, b1, b2, b3⟩ := hi fuel' k' br' qs t h' hh.symm hk'
  exact ⟨idx, l, l', u, v, a1, b1, a2, b2, a3, b3⟩

namespace HeaderOnlyEx
open ExOrder HeadLostEx AnyOrderEx

/-- I picture with another DC coefficient in the first block -/
def iPic' (tr : Nat) : List Bool := picture tr (.other 1) ([true, true] ++ ([false, false, false, true, false] ++ intraMb.drop 5))
/-- B picture: prediction from the future -/
def bPic' (tr : Nat) : List Bool := picture tr (.b 0 7 0 7) ([true] ++ [false, true, false] ++ [true, true])
/-- the stream of the example of C152 with other contents -/
def stream4 : List Bool :=
  byte (encSeq ⟨16, 16, 1, 3, 100, 20, false, none, none⟩) ++ byte (encSeqExt ⟨0x48, 1, 1, 0, 0, 0, true, 0, 0, 0, 0⟩) ++
  (byte (encGOP ⟨false, 0, 0, true, 0, 0, true, false⟩) ++ iPic' 2 ++ bPic' 1 ++ bPic' 0) ++
  (byte (encGOP ⟨false, 0, 0, true, 0, 0, true, false⟩) ++ iPic' 1 ++ bPic 0) ++ bitsOf 32 0x1B7
def v0 : VS := VS.new ⟨stream4, 0, .eof, []⟩
def v1 : VS := after v0
def v2 : VS := after v1
def v3 : VS := after v2
def v4 : VS := after v3
def v5 : VS := after v4
theorem run4 : Run 20 v0 [pictAt v0, pictAt v1, pictAt v2, pictAt v3, pictAt v4] v5 :=
  run_one (by decide +kernel) (by decide +kernel) (by decide +kernel) <|
  run_one (by decide +kernel) (by decide +kernel) (by decide +kernel) <|
  run_one (by decide +kernel) (by decide +kernel) (by decide +kernel) <|
  run_one (by decide +kernel) (by decide +kernel) (by decide +kernel) <|
  run_one (by decide +kernel) (by decide +kernel) (by decide +kernel) <| .nil _

/-- the hypotheses of C153 and C153_two hold for two different streams; both are returned in the same way -/
example : stream3 ≠ stream4 ∧ ∃ (idx : List Nat) (l l' : List Frame) (u v : VS), nexts 20 6 idx.length u0 = (.ok l, u) ∧
    nexts 20 6 idx.length v0 = (.ok l', v) ∧
    l.map some = idx.map (frameAt [pictAt u0, pictAt u1, pictAt u2, pictAt u3, pictAt u4]) ∧
    l'.map some = idx.map (frameAt [pictAt v0, pictAt v1, pictAt v2, pictAt v3, pictAt v4]) ∧
    (VS.next 20 6 u).1 = .err .eos ∧ (VS.next 20 6 v).1 = .err .eos := by
  refine ⟨by decide +kernel, ?_⟩
  obtain ⟨idx, l, l', u, v, h1, h2, h3, h4, h5, h6⟩ := C153_two (k := 6) (k' := 6) run3 run4 (by decide +kernel)
    (by simp only [List.length_cons, List.length_nil]; omega) (by simp only [List.length_cons, List.length_nil]; omega)
  exact ⟨idx, l, l', u, v, h1, h2, h3, h4, h5 _ (isEos_eq (by decide +kernel)), h6 _ (isEos_eq (by decide +kernel))⟩

end HeaderOnlyEx

end Mpeg.Video
