/-
C131: an application that goes on after errors.
-/
import Verif.Video.SessionLemmas
import Verif.Video.LostProps
set_option linter.all false
namespace Mpeg.Video
open Spec

/-! ### the frames do not matter for what is returned when -/

/-- Slots with corresponding frames. -/
def RelSlot (R : Frame → Frame → Prop) : Option RefFrame → Option RefFrame → Prop
  | none, none => True
  | some a, some b => a.temporalReference = b.temporalReference ∧ a.previousGOP = b.previousGOP ∧ R a.frame b.frame
  | _, _ => False

def RelStore (R : Frame → Frame → Prop) (fs fs' : FrameStore) : Prop := RelSlot R fs.f0 fs'.f0 ∧ RelSlot R fs.f1 fs'.f1

variable {R : Frame → Frame → Prop}

theorem RelSlot.matches {a b : Option RefFrame} (h : RelSlot R a b) (c : Nat) :
    (RefFrame.matches a c = none ∧ RefFrame.matches b c = none) ∨
      ∃ f f', RefFrame.matches a c = some f ∧ RefFrame.matches b c = some f' ∧ R f f' := by
  match a, b, h with
  | none, none, _ => exact .inl ⟨rfl, rfl⟩
  | some a, some b, ⟨h1, h2, h3⟩ =>
    unfold RefFrame.matches
    dsimp only
    rw [h1, h2]
    split
    · exact .inr ⟨_, _, rfl, rfl, h3⟩
    · exact .inl ⟨rfl, rfl⟩

theorem RelStore.get {fs fs' : FrameStore} (h : RelStore R fs fs') (c : Nat) :
    (fs.tryGet c = none ∧ fs'.tryGet c = none) ∨ ∃ f f', fs.tryGet c = some f ∧ fs'.tryGet c = some f' ∧ R f f' := by
  unfold FrameStore.tryGet
  rcases h.1.matches c with ⟨a, b⟩ | ⟨f, f', a, b, hr⟩
  · rw [a, b]
    exact h.2.matches c
  · rw [a, b]
    exact .inr ⟨f, f', rfl, rfl, hr⟩

theorem RelSlot.mark {a b : Option RefFrame} (h : RelSlot R a b) :
    RelSlot R (a.map fun r => { r with previousGOP := true }) (b.map fun r => { r with previousGOP := true }) := by
  match a, b, h with
  | none, none, _ => trivial
  | some a, some b, ⟨h1, _, h3⟩ => exact ⟨h1, rfl, h3⟩

theorem RelStore.after {fs fs' : FrameStore} (h : RelStore R fs fs') {p p' : Pict} (hg : p.newGop = p'.newGop)
    (hk : p.kind = p'.kind) (ht : p.tr = p'.tr) (hf : R p.frame p'.frame) : RelStore R (fs.after p) (fs'.after p') := by
  have he : RelStore R (fs.entered p.newGop) (fs'.entered p'.newGop) := by
    rw [← hg]
    cases p.newGop with
    | false => exact h
    | true => exact ⟨h.1.mark, h.2.mark⟩
  obtain ⟨x1, x2⟩ := set_slots (fs.entered p.newGop) p.tr
  obtain ⟨y1, y2⟩ := set_slots (fs'.entered p'.newGop) p'.tr
  unfold FrameStore.after
  rw [← hk]
  split
  · refine ⟨?_, ht, rfl, hf⟩
    show RelSlot R ((fs.entered p.newGop).set p.tr).f1 ((fs'.entered p'.newGop).set p'.tr).f1
    rw [x2, y2]
    exact he.2
  · exact ⟨by rw [x1, y1]; exact he.1, by rw [x2, y2]; exact he.2⟩

theorem emits_rel {b : Bool} {fs : FrameStore} {c : Nat} {ps : List Pict} {l : List Frame} (h : Emits b fs c ps l) :
    ∀ {fs' : FrameStore} {ps' : List Pict}, RelStore R fs fs' → SamePicts R ps ps' →
      ∃ l', Emits b fs' c ps' l' ∧ Pairwise2 R l l' := by
  induction h with
  | @wait fs c ps f l h1 h2 _ ih =>
    intro fs' ps' hs hp
    obtain ⟨l', e, hl⟩ := ih hs hp
    rcases hs.get c with ⟨a, _⟩ | ⟨x, x', a, a', hr⟩
    · rw [h1] at a; cases a
    · rw [h1] at a
      cases a
      exact ⟨x' :: l', .wait a' h2 e, .cons hr hl⟩
  | @go fs c ps l h1 _ ih =>
    intro fs' ps' hs hp
    obtain ⟨l', e, hl⟩ := ih hs hp
    rcases hs.get c with ⟨_, a⟩ | ⟨x, x', a, a', hr⟩
    · exact ⟨l', .go a e, hl⟩
    · rw [h1] at a; cases a
  | @hit fs c p ps l h1 _ ih =>
    intro fs' ps' hs hp
    cases hp with
    | @cons _ p' _ ps' hg hk ht hf hp =>
      obtain ⟨l', e, hl⟩ := ih (hs.after hg hk ht hf) hp
      rw [ht] at e
      exact ⟨_, .hit (by rw [← hg, ← ht]; exact h1) e, .cons hf hl⟩
  | @miss fs c p ps l h1 _ ih =>
    intro fs' ps' hs hp
    cases hp with
    | @cons _ p' _ ps' hg hk ht hf hp =>
      obtain ⟨l', e, hl⟩ := ih (hs.after hg hk ht hf) hp
      rw [hg] at e
      exact ⟨_, .miss (by rw [← hg, ← ht]; exact h1) e, hl⟩
  | done =>
    intro fs' ps' hs hp
    cases hp
    exact ⟨[], .done, .nil⟩

/-! ### sessions -/

/-- **C131** An application calls `Next` again and again; after every failure (an error or a panic) it moves the reader
(`realign`, for instance `AlignTo`) and goes on.  The frames it gets are exactly those that successive calls of `Next`
return of a stream in which the pictures at which decoding failed are missing, and every call returns a frame or reports
one of the failures: a damaged picture costs no more than a missing one.  `R`: any correspondence between the frames of the
pictures that were decoded and those of the pictures of the other stream, for instance equality. -/
theorem C131 {fuel k : Nat} {realign : Go BR Unit} {br br' : BR} {es : List Event} {ps : List Pict} {s' t' : VS}
    (h : Steps fuel realign (VS.new br) es s') (h' : Run fuel (VS.new br') ps t') (hp : SamePicts R (kept false es) ps)
    (hk : es.length < k) :
    ∃ l l' u u', watch fuel k realign (l.length + failures es) (VS.new br) = (.ok l, u) ∧
      nexts fuel k l'.length (VS.new br') = (.ok l', u') ∧ Pairwise2 R l l' ∧
      (∀ e, (step fuel s').1 = .err e → (VS.next fuel k u).1 = .err e) ∧
      ∀ e, (step fuel t').1 = .err e → (VS.next fuel k u').1 = .err e := by
  have hsm : SmallRefs (VS.new br).fs := ⟨fun r h => (by cases h), fun r h => (by cases h)⟩
  obtain ⟨l, hl⟩ := (emits_some (h.small (g := false)) hsm).2 0
  obtain ⟨u, n1, n2⟩ := (emits_watch (k := k) (realign := realign) hl).2 rfl rfl (s := VS.new br) ⟨rfl, rfl, rfl⟩ h hk
  obtain ⟨l', hl', hr⟩ := emits_rel (R := R) hl (fs' := (VS.new br').fs) (ps' := ps) ⟨trivial, trivial⟩ hp
  have hlen : ps.length < k := by
    have := kept_length es false
    have := hp.length
    omega
  obtain ⟨u', m1, _⟩ := emits_calls (k := k) (e := .eof) hl' (k' := k) rfl rfl h' hlen hlen
  refine ⟨l, l', u, u', n1, m1, hr, n2, fun e he => ?_⟩
  obtain ⟨u2, q1, q2⟩ := emits_calls (k := k) (e := e) hl' (k' := k) rfl rfl h' hlen hlen
  rw [m1] at q1
  cases q1
  exact q2 he

/-- **C131** If what is decoded are groups of pictures with gaps, the application gets of every group the frames before the
first gap. -/
theorem C131_gops {fuel k : Nat} {realign : Go BR Unit} {br : BR} {es : List Event} {gops : List (List Pict × List Frame)}
    {s' : VS} (h : Steps fuel realign (VS.new br) es s') (hp : kept false es = gops.flatMap (·.1))
    (hg : ∀ g ∈ gops, Spec.Damaged g.1 ∧ Shown g.1 g.2) (hk : es.length < k) :
    ∃ u, watch fuel k realign ((gops.flatMap (·.2)).length + failures es) (VS.new br) = (.ok (gops.flatMap (·.2)), u) ∧
      ∀ e, (step fuel s').1 = .err e → (VS.next fuel k u).1 = .err e := by
  have hl : Emits false (VS.new br).fs 0 (kept false es) (gops.flatMap (·.2)) := by
    rw [hp]
    exact .go rfl (emits_gops hg _ _)
  exact (emits_watch (k := k) (realign := realign) hl).2 rfl rfl (s := VS.new br) ⟨rfl, rfl, rfl⟩ h hk

namespace ExSession
open ExOrder

def hdr : List Bool :=
  byte (encSeq ⟨16, 16, 1, 3, 100, 20, false, none, none⟩) ++ byte (encSeqExt ⟨0x48, 1, 1, 0, 0, 0, true, 0, 0, 0, 0⟩)
def gop : List Bool := byte (encGOP ⟨false, 0, 0, true, 0, 0, true, false⟩)
/-- an I picture whose only slice has no macroblock -/
def bad (tr : Nat) : List Bool :=
  picture tr (.other 1) (zeros 18 ++ [true, false, true, false, true, false, true, true] ++ zeros 24)

/-- the I picture with temporal reference 2 is damaged, and missing -/
def damaged : VS := VS.new ⟨hdr ++ (gop ++ iPic 0 ++ bad 2 ++ bPic 1) ++ (gop ++ iPic 0 ++ iPic 1) ++ bitsOf 32 0x1B7, 0, .eof, []⟩
def missing : VS := VS.new ⟨hdr ++ (gop ++ iPic 0 ++ bPic 1) ++ (gop ++ iPic 0 ++ iPic 1) ++ bitsOf 32 0x1B7, 0, .eof, []⟩

def isErr (r : Res Frame) : Bool := match r with | .err _ => true | _ => false
theorem isErr_eq {r : Res Frame} (h : isErr r = true) : ∃ e, r = .err e := by
  cases r <;> first | exact ⟨_, rfl⟩ | cases h
def unitOk (r : Res Unit) : Bool := match r with | .ok _ => true | _ => false
theorem unitOk_eq {r : Res Unit} (h : unitOk r = true) : r = .ok () := by
  cases r <;> first | rfl | cases h

def skip (s : VS) : VS := (VS.lift (alignTo 0x100) (step 20 s).2).2

theorem one {s s'' : VS} {es : List Event} (h1 : isOk (step 20 s) = true) (h2 : tpOk s = true)
    (h3 : (after s).ph.isSome = true) (h : Steps 20 (alignTo 0x100) (after s) es s'') :
    Steps 20 (alignTo 0x100) s (.pict (pictAt s) :: es) s'' := .pict (run_one h1 h2 h3 (.nil _)) h

theorem oneBad {s s'' : VS} {es : List Event} (h1 : isErr (step 20 s).1 = true)
    (h2 : unitOk (VS.lift (alignTo 0x100) (step 20 s).2).1 = true) (h : Steps 20 (alignTo 0x100) (skip s) es s'') :
    Steps 20 (alignTo 0x100) s (.fail (gopRead 20 s) :: es) s'' :=
  .fail (s1 := (step 20 s).2) rfl (.inl (isErr_eq h1)) (Prod.ext (unitOk_eq h2) rfl) h

def d1 : VS := after damaged
def d2 : VS := skip d1
def d3 : VS := after d2
def d4 : VS := after d3
def d5 : VS := after d4
def m1 : VS := after missing
def m2 : VS := after m1
def m3 : VS := after m2
def m4 : VS := after m3

theorem steps : Steps 20 (alignTo 0x100) damaged
    [.pict (pictAt damaged), .fail (gopRead 20 d1), .pict (pictAt d2), .pict (pictAt d3), .pict (pictAt d4)] d5 :=
  one (by decide +kernel) (by decide +kernel) (by decide +kernel) <|
  oneBad (by decide +kernel) (by decide +kernel) <|
  one (by decide +kernel) (by decide +kernel) (by decide +kernel) <|
  one (by decide +kernel) (by decide +kernel) (by decide +kernel) <|
  one (by decide +kernel) (by decide +kernel) (by decide +kernel) <| .nil _

theorem run : Run 20 missing [pictAt missing, pictAt m1, pictAt m2, pictAt m3] m4 :=
  run_one (by decide +kernel) (by decide +kernel) (by decide +kernel) <|
  run_one (by decide +kernel) (by decide +kernel) (by decide +kernel) <|
  run_one (by decide +kernel) (by decide +kernel) (by decide +kernel) <|
  run_one (by decide +kernel) (by decide +kernel) (by decide +kernel) <| .nil _

theorem facts : gopRead 20 d1 = false ∧
    ([damaged, d2, d3, d4].map fun s => ((pictAt s).newGop, (pictAt s).kind, (pictAt s).tr)) =
      [(true, 1, 0), (false, 3, 1), (true, 1, 0), (false, 1, 1)] ∧
    ([missing, m1, m2, m3].map fun s => ((pictAt s).newGop, (pictAt s).kind, (pictAt s).tr)) =
      [(true, 1, 0), (false, 3, 1), (true, 1, 0), (false, 1, 1)] := by decide +kernel

/-- corresponding frames of the two streams -/
def Corr (f f' : Frame) : Prop :=
  (f, f') ∈ [((pictAt damaged).frame, (pictAt missing).frame), ((pictAt d2).frame, (pictAt m1).frame),
    ((pictAt d3).frame, (pictAt m2).frame), ((pictAt d4).frame, (pictAt m3).frame)]

example : ∃ l l' u u', watch 20 6 (alignTo 0x100) (l.length + 1) damaged = (.ok l, u) ∧
    nexts 20 6 l'.length missing = (.ok l', u') ∧ Pairwise2 Corr l l' ∧ (VS.next 20 6 u).1 = .err .eos ∧
    (VS.next 20 6 u').1 = .err .eos := by
  obtain ⟨f0, f1, f2⟩ := facts
  simp only [List.map_cons, List.map_nil, List.cons.injEq, Prod.mk.injEq, and_true] at f1 f2
  obtain ⟨⟨a1, a2, a3⟩, ⟨b1, b2, b3⟩, ⟨c1, c2, c3⟩, e1, e2, e3⟩ := f1
  obtain ⟨⟨a1', a2', a3'⟩, ⟨b1', b2', b3'⟩, ⟨c1', c2', c3'⟩, e1', e2', e3'⟩ := f2
  obtain ⟨l, l', u, u', h1, h2, h3, h4, h5⟩ := C131 (R := Corr) (k := 6) steps run (by
    unfold kept kept kept kept kept kept
    rw [f0]
    refine .cons ?_ ?_ ?_ ?_ (.cons ?_ ?_ ?_ ?_ (.cons ?_ ?_ ?_ ?_ (.cons ?_ ?_ ?_ ?_ .nil)))
    all_goals first
      | (dsimp only; simp only [a1, a2, a3, b1, b2, b3, c1, c2, c3, e1, e2, e3, a1', a2', a3', b1', b2', b3', c1', c2', c3', e1', e2', e3', Bool.or_false]; done)
      | (dsimp only; unfold Corr; simp only [List.mem_cons, true_or, or_true]; done)) (by show 5 < 6; omega)
  exact ⟨l, l', u, u', h1, h2, h3, h4 _ (isEos_eq (by decide +kernel)), h5 _ (isEos_eq (by decide +kernel))⟩

/-- the last picture of a group of pictures is damaged, and missing -/
def damaged2 : VS := VS.new ⟨hdr ++ (gop ++ iPic 0 ++ bad 1) ++ (gop ++ iPic 0 ++ iPic 1) ++ bitsOf 32 0x1B7, 0, .eof, []⟩
def missing2 : VS := VS.new ⟨hdr ++ (gop ++ iPic 0) ++ (gop ++ iPic 0 ++ iPic 1) ++ bitsOf 32 0x1B7, 0, .eof, []⟩

/-- number of frames, then the end of the sequence -/
def outcome (r : Res (List Frame) × VS) : Option (Nat × Bool) :=
  match r with
  | (.ok l, t) => some (l.length, isEos (VS.next 20 6 t).1)
  | _ => none

end ExSession

open ExSession ExOrder in
/-- **C131** How the reader is moved matters.  If the last picture of a group of pictures is damaged, `AlignTo` with the
picture start code passes over the header of the next group of pictures.  Here the first picture of that group is then
decoded but never returned: the application gets two frames, although with the damaged picture missing it would get
three. -/
theorem C131_align_false :
    outcome (watch 20 6 (alignTo 0x100) 3 damaged2) = some (2, true) ∧
    outcome (nexts 20 6 3 missing2) = some (3, true) ∧
    outcome (watch 20 6 (alignTo 0x1B8) 4 damaged2) = some (3, true) := by
  decide +kernel

end Mpeg.Video
