/-
C57, C58: reference selection and display order.
-/
import Verif.Video.OrderLemmas3
import Verif.Video.HeaderSpec
namespace Mpeg.Video
open Spec

/-- A successful step decodes one picture; `Run` describes it. -/
theorem C57_run {fuel : Nat} {s s' : VS} {f : Frame} (h : step fuel s = (.ok f, s')) : ∃ p, p.frame = f ∧ Run fuel s [p] s' := by
  obtain ⟨s1, ph, e1, e2, _⟩ := step_effect h
  exact ⟨⟨_, ph.pictureCodingType, ph.temporalReference, f, s'.fs.past, s'.fs.future⟩, rfl,
    .cons h e1 rfl e2 rfl rfl rfl rfl (.nil _)⟩

/-- The references in `Run` are those with which the macroblocks of the picture were decoded: `pictureData` returns the
frame, in a state with these references and with the header of this picture. -/
theorem C57_used {fuel : Nat} {s s' : VS} {p : Pict} (h : Run fuel s [p] s') :
    ∃ s2 s3 ph, pictureData s2 = (.ok p.frame, s3) ∧ s2.fs.past = p.past ∧ s2.fs.future = p.future ∧
      s2.ph = some ph ∧ ph.pictureCodingType = p.kind ∧ ph.temporalReference = p.tr := by
  cases h with
  | cons hstep ht hg hph hk htr hp hf hr =>
    obtain ⟨s1', ph', e1, e2, e3, e4, e5, s2, s3, e6, e7, e8⟩ := step_effect hstep
    rw [hph] at e2
    cases e2
    refine ⟨s2, s3, _, e6, ?_, ?_, e7, hk.symm, htr.symm⟩
    · rw [hp, e5, e8]; split <;> rfl
    · rw [hf, e5, e8]; split <;> rfl

/-- **C57** In every legal coding order of any length, across any number of groups of pictures, every P picture is
decoded with the previous reference picture as `past`, every B picture with the reference pictures that surround it.
Partial: a group of pictures has at most 1024 pictures; see `C57_false` for more. -/
theorem C57_partial {fuel : Nat} {br : BR} {gops : List (List Group)} {s' : VS} (hl : LegalSeq gops) (hs : Short gops)
    (h : Run fuel (VS.new br) (coded gops.flatten) s') : RightRefs none gops.flatten := by
  have hd : Ready (VS.new br).fs 0 none := ⟨rfl, fun r h => (by cases h), fun r h => (by cases h)⟩
  cases hl with
  | headed hg => exact gops_refs h hg hs hd
  | @bare gs gops hf hg =>
    have h' : Run fuel (VS.new br) (coded gs ++ coded gops.flatten) s' := by
      simpa [coded, List.flatMap_append] using h
    obtain ⟨m, r1, r2⟩ := h'.append
    obtain ⟨_, prev', k2, k3⟩ := from_refs r1 hf (by rw [Nat.zero_add]; exact hs gs (List.mem_cons_self ..)) hd
    exact k3 _ (gops_refs r2 hg (fun g hg => hs g (List.mem_cons_of_mem _ hg)) k2)

theorem right_last {g1 g2 : Group} : ∀ {gs : List Group} {prev : Option Frame}, RightRefs prev (gs ++ [g1, g2]) →
    ∀ p ∈ g2.coded, p.past = some g1.ref.frame
  | [], prev, h, p, hp => by
    cases h with
    | cons _ _ h =>
      cases h with
      | cons a b _ =>
        rcases List.mem_cons.1 hp with rfl | hp
        · exact a (by simp)
        · exact (b p hp).1 (by simp)
  | g :: gs, prev, h, p, hp => by
    cases h with
    | cons _ _ h => exact right_last h p hp

theorem run_last {fuel : Nat} : ∀ {ps : List Pict} {s m : VS}, Run fuel s ps m → ∀ (h : ps ≠ []), (ps.getLast h).past = m.fs.past
  | [], _, _, _, hn => absurd rfl hn
  | [p], s, m, h, _ => by
    cases h with
    | cons hstep ht hg hph hk htr hp hf hr => cases hr; exact hp
  | p :: q :: ps, s, m, h, _ => by
    obtain ⟨t, -, hr⟩ := h.inv
    rw [List.getLast_cons (List.cons_ne_nil q ps)]
    exact run_last hr _

/-- **C57** fails where the temporal reference wraps: in a group of pictures whose first 1024 pictures end with the
groups `g1`, `g2`, a P picture `p` at display position 1024 (temporal reference 0) is predicted from the reference
picture of `g1`, not from the one of `g2`, which is the previous one. -/
theorem C57_false {fuel : Nat} {br : BR} {gs gs0 : List Group} {g1 g2 : Group} {p : Pict} {s' : VS} (hl : LegalFrom 0 gs)
    (hn : (display gs).length = 1024) (hgs : gs = gs0 ++ [g1, g2]) (hp : Group.Legal ⟨p, []⟩ 1024) (hg : p.newGop = false)
    (h : Run fuel (VS.new br) (coded gs ++ [p]) s') : p.past = some g1.ref.frame := by
  obtain ⟨m, r1, r2⟩ := h.append
  have hright : RightRefs none gs := by
    have hd : Ready (VS.new br).fs 0 none := ⟨rfl, fun r h => (by cases h), fun r h => (by cases h)⟩
    exact (from_refs r1 hl (by omega) hd).1
  have hlast : m.fs.past = some g1.ref.frame := by
    have e : coded gs = coded (gs0 ++ [g1]) ++ g2.coded := by
      rw [hgs, show gs0 ++ [g1, g2] = (gs0 ++ [g1]) ++ [g2] by simp]
      simp [coded, List.flatMap_append]
    have hne : coded gs ≠ [] := by rw [e]; simp [Group.coded]
    rw [← run_last r1 hne]
    rw [hgs] at hright
    refine right_last hright _ ?_
    have : (coded gs).getLast hne = g2.coded.getLast (by simp [Group.coded]) := by
      simp only [e]
      exact List.getLast_append_of_ne_nil _ (by simp [Group.coded])
    rw [this]
    exact List.getLast_mem _
  rw [← hlast]
  obtain ⟨s1, he, -⟩ := r2.inv
  have htr : p.tr = 0 := hp.refTr.trans (by simp)
  rw [he.past, hg, htr]
  -- no picture of the group of pictures precedes position 0
  have hno : ∀ {gs : List Group} {base : Nat} {s m : VS}, Run fuel s (coded gs) m → LegalFrom base gs →
      (∀ r, s.fs.f0 = some r → r.previousGOP = false) → (∀ r, s.fs.f1 = some r → r.previousGOP = false) →
      (∀ r, m.fs.f0 = some r → r.previousGOP = false) ∧ (∀ r, m.fs.f1 = some r → r.previousGOP = false) := by
    have hone : ∀ {p : Pict} {s m : VS}, Eff fuel p s m → p.newGop = false →
        (∀ r, s.fs.f0 = some r → r.previousGOP = false) → (∀ r, s.fs.f1 = some r → r.previousGOP = false) →
        (∀ r, m.fs.f0 = some r → r.previousGOP = false) ∧ (∀ r, m.fs.f1 = some r → r.previousGOP = false) := by
      intro p s m he hg h0 h1
      have hf := he.fs
      rw [hg] at hf
      obtain ⟨a, b⟩ := set_slots s.fs p.tr
      rw [hf]
      split
      · refine ⟨fun r hr => h1 r (b.symm.trans hr), fun r hr => ?_⟩
        cases hr
        rfl
      · exact ⟨fun r hr => h0 r (a.symm.trans hr), fun r hr => h1 r (b.symm.trans hr)⟩
    have hmany : ∀ {ps : List Pict} {s m : VS}, Run fuel s ps m → (∀ p ∈ ps, p.newGop = false) →
        (∀ r, s.fs.f0 = some r → r.previousGOP = false) → (∀ r, s.fs.f1 = some r → r.previousGOP = false) →
        (∀ r, m.fs.f0 = some r → r.previousGOP = false) ∧ (∀ r, m.fs.f1 = some r → r.previousGOP = false) := by
      intro ps
      induction ps with
      | nil => intro s m h _ h0 h1; cases h; exact ⟨h0, h1⟩
      | cons p ps ih =>
        intro s m h hp h0 h1
        obtain ⟨t, he, hr⟩ := h.inv
        obtain ⟨a, b⟩ := hone he (hp p (List.mem_cons_self ..)) h0 h1
        exact ih hr (fun q hq => hp q (List.mem_cons_of_mem _ hq)) a b
    intro gs base s m h hl h0 h1
    refine hmany h ?_ h0 h1
    clear h h0 h1
    induction hl with
    | nil => intro p hp; cases hp
    | @cons base g gs ha hb hc ih =>
      intro p hp
      have : p ∈ g.coded ++ coded gs := hp
      rcases List.mem_append.1 this with k | k
      · rcases List.mem_cons.1 k with rfl | k
        · exact hb
        · exact (ha.bs p k).2
      · exact ih p k
  obtain ⟨a, b⟩ := hno r1 hl (fun r hr => by cases hr) (fun r hr => by cases hr)
  have hset : ∀ (fs : FrameStore) (o : Option RefFrame), (∀ r, o = some r → r.previousGOP = false) →
      (fs.setOne o 0).past = fs.past := by
    intro fs o ho
    cases o with
    | none => rfl
    | some r =>
      unfold FrameStore.setOne
      dsimp only
      rw [if_neg]
      rintro (k | k)
      · rw [ho r rfl] at k; cases k
      · omega
  show (m.fs.set 0).past = m.fs.past
  unfold FrameStore.set
  rw [hset _ _ b, hset _ _ a]

/-- **C58** For every legal coding order of any length and any number of groups of pictures, successive calls to `Next`
return the frames of all pictures, each once, in display order; the next call reports what the stream holds after them.
(`k`: a call of `Next` decodes at most two pictures.)  Partial: at most 1024 pictures per group of pictures; see
`C58_false` for more. -/
theorem C58_partial {fuel k : Nat} {br : BR} {gops : List (List Group)} {s' : VS} (hk : 2 ≤ k) (hl : LegalSeq gops)
    (hs : Short gops) (h : Run fuel (VS.new br) (coded gops.flatten) s') :
    ∃ t, nexts fuel k (display gops.flatten).length (VS.new br) = (.ok ((display gops.flatten).map (·.frame)), t) ∧
      ∀ e, (step fuel s').1 = .err e → (VS.next fuel k t).1 = .err e := by
  have hd : Ready (VS.new br).fs 0 none := ⟨rfl, fun r h => (by cases h), fun r h => (by cases h)⟩
  obtain ⟨t, prev', n1, n2, n3⟩ := seq_next hk h hl hs hd rfl
  refine ⟨t, n1, fun e he => ?_⟩
  rw [next_loop n3.tryGet]
  obtain ⟨j, rfl⟩ : ∃ j, k = j + 1 := ⟨k - 1, by omega⟩
  unfold nextLoop
  rw [Go.bind_err (Prod.ext ((sim_step fuel s' t n2).1.trans he) rfl)]

/-- **C58** fails from the 1025th picture of a group of pictures on: although the stream goes on with any number of
pictures without a group of pictures header, none of them is returned; the call after the 1024th reports the end. -/
theorem C58_false {fuel k : Nat} {br : BR} {gs : List Group} {more : List Pict} {s' : VS} {e : Err} (hk : 2 ≤ k)
    (hl : LegalFrom 0 gs) (hn : (display gs).length = 1024) (hm : ∀ p ∈ more, p.newGop = false) (hkm : more.length < k)
    (h : Run fuel (VS.new br) (coded gs ++ more) s') (he : (step fuel s').1 = .err e) :
    ∃ t, nexts fuel k 1024 (VS.new br) = (.ok ((display gs).map (·.frame)), t) ∧ (VS.next fuel k t).1 = .err e := by
  have hd : Ready (VS.new br).fs 0 none := ⟨rfl, fun r h => (by cases h), fun r h => (by cases h)⟩
  obtain ⟨m, r1, r2⟩ := h.append
  obtain ⟨t, prev', n1, n2, n3, n4⟩ := from_next hk r1 hl (by omega) hd rfl
  rw [hn, Nat.zero_add] at n3 n4
  rw [hn] at n1
  refine ⟨t, n1, ?_⟩
  obtain ⟨u, q1, q2⟩ := r2.eqv n2
  rw [next_loop (by rw [n3]; exact n4.tryGet)]
  exact loop_lost q1 (by omega) hm ((sim_step fuel s' u q2).1.trans he) hkm

/-! ### a stream -/

namespace ExOrder

/-- zero padding up to the byte boundary -/
def byte (l : List Bool) : List Bool := l ++ zeros (padding l.length)

def picExt : PicExt := ⟨1, 1, 1, 1, 0, 3, false, 1, false, 0, 0, 0, false, true, true, none⟩
/-- an intra coded macroblock with the DC differences 0 -/
def intraMb : List Bool :=
  (List.replicate 4 [true, false, false, true, false]).flatten ++ (List.replicate 2 [false, false, true, false]).flatten
def slice1 (mb : List Bool) : List Bool := byte (bitsOf 32 0x101 ++ bitsOf 5 3 ++ [false] ++ mb)
def picture (tr : Nat) (kind : PicKind) (mb : List Bool) : List Bool :=
  byte (encPic ⟨tr, kind, 0, []⟩) ++ byte (encPicExt picExt) ++ slice1 mb
/-- I picture -/
def iPic (tr : Nat) : List Bool := picture tr (.other 1) ([true, true] ++ intraMb)
/-- B picture: prediction from the past, vector (0, 0), no coefficients -/
def bPic (tr : Nat) : List Bool := picture tr (.b 0 7 0 7) ([true] ++ [false, false, true, false] ++ [true, true])

/-- 16 x 16; two groups of pictures: I B, and I I B -/
def stream : List Bool :=
  byte (encSeq ⟨16, 16, 1, 3, 100, 20, false, none, none⟩) ++ byte (encSeqExt ⟨0x48, 1, 1, 0, 0, 0, true, 0, 0, 0, 0⟩) ++
  (byte (encGOP ⟨false, 0, 0, true, 0, 0, true, false⟩) ++ iPic 1 ++ bPic 0) ++
  (byte (encGOP ⟨false, 0, 0, true, 0, 2, true, false⟩) ++ iPic 0 ++ iPic 2 ++ bPic 1) ++ bitsOf 32 0x1B7

def s0 : VS := VS.new ⟨stream, 0, .eof, []⟩

def frameOf (r : Res Frame × VS) : Frame :=
  match r.1 with
  | .ok f => f
  | _ => createFrameBuffer 0 0 1
def isOk (r : Res Frame × VS) : Bool :=
  match r.1 with
  | .ok _ => true
  | _ => false
theorem isOk_eq {r : Res Frame × VS} (h : isOk r = true) : r = (.ok (frameOf r), r.2) := by
  rcases r with ⟨r, s⟩
  cases r <;> first | rfl | cases h

/-- the picture a step decodes -/
def pictAt (s : VS) : Pict :=
  let r := step 20 s
  ⟨(toPicture 20 s).2.br.bits.take 32 == bitsOf 32 groupStartCode, (r.2.ph.map (·.pictureCodingType)).getD 0,
    (r.2.ph.map (·.temporalReference)).getD 0, frameOf r, r.2.fs.past, r.2.fs.future⟩
def after (s : VS) : VS := (step 20 s).2
def tpOk (s : VS) : Bool := match (toPicture 20 s).1 with | .ok _ => true | _ => false

theorem run_one {s s'' : VS} {ps : List Pict} (h1 : isOk (step 20 s) = true) (h2 : tpOk s = true)
    (h3 : (after s).ph.isSome = true) (hr : Run 20 (after s) ps s'') : Run 20 s (pictAt s :: ps) s'' := by
  obtain ⟨ph, hph⟩ := Option.isSome_iff_exists.1 h3
  refine .cons (s' := after s) (s1 := (toPicture 20 s).2) (ph := ph) (isOk_eq h1) ?_ rfl hph ?_ ?_ rfl rfl hr
  · revert h2
    unfold tpOk
    cases h : (toPicture 20 s).1 with
    | ok u => intro _; exact Prod.ext h rfl
    | err x => intro h; cases h
    | panic => intro h; cases h
    | hang => intro h; cases h
  · show ((after s).ph.map (·.pictureCodingType)).getD 0 = _
    rw [hph]; rfl
  · show ((after s).ph.map (·.temporalReference)).getD 0 = _
    rw [hph]; rfl

def s1 : VS := after s0
def s2 : VS := after s1
def s3 : VS := after s2
def s4 : VS := after s3
def s5 : VS := after s4

theorem run : Run 20 s0 [pictAt s0, pictAt s1, pictAt s2, pictAt s3, pictAt s4] s5 :=
  run_one (by decide +kernel) (by decide +kernel) (by decide +kernel) <|
  run_one (by decide +kernel) (by decide +kernel) (by decide +kernel) <|
  run_one (by decide +kernel) (by decide +kernel) (by decide +kernel) <|
  run_one (by decide +kernel) (by decide +kernel) (by decide +kernel) <|
  run_one (by decide +kernel) (by decide +kernel) (by decide +kernel) <| .nil _

def isEos (r : Res Frame) : Bool :=
  match r with
  | .err .eos => true
  | _ => false
theorem isEos_eq {r : Res Frame} (h : isEos r = true) : r = .err .eos := by
  unfold isEos at h
  split at h
  · rfl
  · cases h
theorem eos : (step 20 s5).1 = .err .eos := isEos_eq (by decide +kernel)

def gops : List (List Group) := [[⟨pictAt s0, [pictAt s1]⟩], [⟨pictAt s2, []⟩, ⟨pictAt s3, [pictAt s4]⟩]]

theorem facts : ([s0, s1, s2, s3, s4].map fun s => ((pictAt s).newGop, (pictAt s).kind, (pictAt s).tr)) =
    [(true, 1, 1), (false, 3, 0), (true, 1, 0), (false, 1, 2), (false, 3, 1)] := by decide +kernel

theorem legal : LegalSeq gops := by
  have hf := facts
  simp only [List.map_cons, List.map_nil, List.cons.injEq, Prod.mk.injEq, and_true] at hf
  obtain ⟨⟨a1, a2, a3⟩, ⟨b1, b2, b3⟩, ⟨c1, c2, c3⟩, ⟨d1, d2, d3⟩, e1, e2, e3⟩ := hf
  have one : ∀ {p : Pict} {i : Nat}, i < 1 → ∀ (h : i < [p].length), [p][i] = p := by
    intro p i hi h
    obtain rfl : i = 0 := by omega
    rfl
  refine .headed fun g hg => ?_
  rcases List.mem_cons.1 hg with rfl | hg
  · refine .mk ⟨.inl a2, a3, fun b hb => ?_, fun i hi => ?_⟩ a1 .nil
    · rcases List.mem_cons.1 hb with rfl | hb
      · exact ⟨b2, b1⟩
      · cases hb
    · have hi' : i < 1 := hi
      obtain rfl : i = 0 := by omega
      exact b3
  · rcases List.mem_cons.1 hg with rfl | hg
    · refine .mk ⟨.inl c2, c3, fun b hb => (by cases hb), fun i hi => absurd hi (Nat.not_lt_zero _)⟩ c1
        (.cons ⟨.inl d2, d3, fun b hb => ?_, fun i hi => ?_⟩ d1 .nil)
      · rcases List.mem_cons.1 hb with rfl | hb
        · exact ⟨e2, e1⟩
        · cases hb
      · have hi' : i < 1 := hi
        obtain rfl : i = 0 := by omega
        exact e3
    · cases hg

theorem short : Short gops := by
  intro g hg
  rcases List.mem_cons.1 hg with rfl | hg
  · decide
  · rcases List.mem_cons.1 hg with rfl | hg
    · decide
    · cases hg

/-- five pictures, returned in display order, then the end of the sequence -/
example : ∃ t, nexts 20 2 5 s0 = (.ok [(pictAt s1).frame, (pictAt s0).frame, (pictAt s2).frame, (pictAt s4).frame,
    (pictAt s3).frame], t) ∧ (VS.next 20 2 t).1 = .err .eos := by
  obtain ⟨t, h1, h2⟩ := C58_partial (k := 2) (Nat.le_refl 2) legal short run
  have e : (display gops.flatten).map (·.frame) =
    [(pictAt s1).frame, (pictAt s0).frame, (pictAt s2).frame, (pictAt s4).frame, (pictAt s3).frame] := by
    simp only [gops, display, Group.display, List.flatten_cons, List.flatten_nil, List.append_nil, List.cons_append,
      List.nil_append, List.flatMap_cons, List.flatMap_nil, List.map_cons, List.map_nil]
  have e' : (display gops.flatten).length = 5 := by
    rw [← List.length_map (f := fun p : Pict => p.frame), e]; rfl
  rw [e, e'] at h1
  exact ⟨t, h1, h2 _ eos⟩

theorem right3 {prev : Option Frame} {g1 g2 g3 : Group} (h : RightRefs prev [g1, g2, g3]) (b : Pict) (hb : b ∈ g3.bs) :
    b.past = some g2.ref.frame ∧ b.future = some g3.ref.frame := by
  cases h with
  | cons _ _ h =>
    cases h with
    | cons _ _ h =>
      cases h with
      | cons _ k _ => exact ⟨(k b hb).1 (by simp), (k b hb).2⟩

/-- the B picture of the second group of pictures is predicted from the I pictures on both sides -/
example : (pictAt s4).past = some (pictAt s2).frame ∧ (pictAt s4).future = some (pictAt s3).frame :=
  right3 (C57_partial legal short run) (pictAt s4) (List.mem_cons_self ..)

end ExOrder

end Mpeg.Video
