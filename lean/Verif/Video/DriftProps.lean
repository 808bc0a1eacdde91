/-
C133: errors in reference pictures do not grow.
-/
import Verif.Video.DriftLemmas3
import Verif.Video.RoundsExample
namespace Mpeg.Video
open Spec

/-- **C133**: two decoders that are the same except that corresponding frames which they hold differ by at most `D 0` in each
luma sample, `D 1` in each Cb and `D 2` in each Cr sample.  Whatever the input (legal or not), and whatever an application does
with them (any number of calls of `Next`, any operations on the reader in between): both do the same with it, every call has
the same outcome in both, and the frames returned differ by at most `D`, too; so do the frames held afterwards.  Prediction,
interpolation, averaging, clamping and the copies of skipped macroblocks never make a difference larger, nor let it pass from
one component into another. -/
theorem C133 {D : Nat → Nat} (fuel k : Nat) : ∀ (l : List Action) {s t : VS}, Twins (StoreNear D) s t →
    Pairwise2 (SameRes (FrameNear D)) (perform fuel k l s).1 (perform fuel k l t).1 ∧
    Twins (StoreNear D) (perform fuel k l s).2 (perform fuel k l t).2
  | [], _, _, h => ⟨.nil, h⟩
  | .next :: l, s, t, h => by
    obtain ⟨h1, h2⟩ := twins_next fuel k s t h
    obtain ⟨h3, h4⟩ := C133 fuel k l h2
    exact ⟨.cons h1 h3, h4⟩
  | .reader m :: l, s, t, h => C133 fuel k l (twins_lift m s t h).2

/-- The planes of a frame: 0 luma, 1 Cb, 2 Cr. -/
def Spec.component (f : Frame) (c : Nat) : Plane := if c = 0 then f.y else if c = 1 then f.cb else f.cr

/-- **C133**, components: if the samples of the held frames agree in one component (and are otherwise any bytes), then the frames
returned agree in this component: no component is ever predicted from another one. -/
theorem C133_component {c : Nat} (hc : c < 3) (fuel k : Nat) (l : List Action) {s t : VS}
    (h : Twins (StoreNear fun i => if i = c then 0 else 255) s t) :
    Pairwise2 (SameRes fun f g => (component f c).len = (component g c).len ∧
      ∀ i < (component f c).len, (component f c).data i = (component g c).data i) (perform fuel k l s).1 (perform fuel k l t).1 := by
  have hm : ∀ {a b : List (Res Frame)}, Pairwise2 (SameRes (FrameNear fun i => if i = c then 0 else 255)) a b →
      Pairwise2 (SameRes fun f g => (component f c).len = (component g c).len ∧
        ∀ i < (component f c).len, (component f c).data i = (component g c).data i) a b := by
    intro a b h
    induction h with
    | nil => exact .nil
    | cons h _ ih =>
      refine .cons ?_ ih
      cases h with
      | ok h =>
        refine .ok ?_
        have hz : ∀ {p q : Plane}, PlaneNear 0 p q → p.len = q.len ∧ ∀ i < p.len, p.data i = q.data i :=
          fun h => ⟨h.len, fun i hi => by have := h.near i hi; unfold NNear at this; omega⟩
        rcases (show c = 0 ∨ c = 1 ∨ c = 2 by omega) with rfl | rfl | rfl
        · exact hz h.y
        · exact hz h.cb
        · exact hz h.cr
      | err e => exact .err e
      | panic => exact .panic
      | hang => exact .hang
  exact hm (C133 fuel k l h).1

/-- **C133**, pictures: the data of an I picture are decoded to the same frame, or fail in the same way, whatever frames the decoder
holds (or none); those of a P picture depend on the past frame only. -/
theorem C133_picture {Q : FrameStore → FrameStore → Prop} {s t : VS} (h : Twins Q s t) {ph : PictureHeader} (hp : s.ph = some ph)
    (hk : ph.pictureCodingType = 1 ∨ ph.pictureCodingType = 2 ∧ s.fs.past = t.fs.past) :
    (pictureData s).1 = (pictureData t).1 ∧ Twins Q (pictureData s).2 (pictureData t).2 := pictureData_blind h hp hk

theorem pictureStep_keeps (s : VS) : (pictureStep s).2.ph = s.ph := by
  unfold pictureStep
  rw [Go.bind_ok (Go.get_apply s)]
  cases hp : s.ph with
  | none => exact hp
  | some ph =>
    dsimp only
    rw [Go.bind_ok (Go.modify_apply ..)]
    have hd : ∀ u : VS, (pictureData u).2.ph = u.ph := by
      intro u
      rw [pictureData_of]
      dsimp only
      unfold pictureOf
      cases u.sh with
      | none => rfl
      | some sh =>
      cases u.se with
      | none => rfl
      | some se =>
      cases hu : u.ph with
      | none => exact hu
      | some ph =>
      cases u.pce with
      | none => exact hu
      | some pce =>
        dsimp only
        rw [pictureWith_from]
        generalize slicesOf ⟨sh, se, ph, pce, u.qm, u.fs.past, u.fs.future⟩ (startMB se pce u) = x
        obtain ⟨r, m⟩ := x
        cases r <;> exact hu
    have h2 := hd { s with fs := s.fs.set ph.temporalReference }
    rcases hx : pictureData { s with fs := s.fs.set ph.temporalReference } with ⟨r, u⟩
    rw [hx] at h2
    cases r with
    | ok f =>
      rw [Go.bind_ok hx, Go.bind_ok (Go.modify_apply ..)]
      show (if _ then _ else _ : VS).ph = _
      split <;> exact h2.trans hp
    | err e => rw [Go.bind_err hx]; exact h2.trans hp
    | panic => rw [Go.bind_panic hx]; exact h2.trans hp
    | hang => rw [Go.bind_hang hx]; exact h2.trans hp

/-- **C133**, I pictures: a call of `Next` that finds an I picture next in the stream and nothing waiting in the store has the same
outcome whatever frames the decoder holds. -/
theorem C133_intra (fuel : Nat) {s t : VS} (h : Twins (fun _ _ => True) s t) (hs : s.fs.tryGet s.frameCounter = none)
    (ht : t.fs.tryGet t.frameCounter = none) {ph : PictureHeader} (hp : (VS.next fuel 1 s).2.ph = some ph)
    (hI : ph.pictureCodingType = 1) :
    (VS.next fuel 1 s).1 = (VS.next fuel 1 t).1 ∧ Twins (fun _ _ => True) (VS.next fuel 1 s).2 (VS.next fuel 1 t).2 := by
  have key : (step fuel s).2.ph = some ph →
      SameRes Eq (step fuel s).1 (step fuel t).1 ∧ Twins (fun _ _ => True) (step fuel s).2 (step fuel t).2 := by
    intro hp
    have hh := twins_stepHead (Q := fun _ _ => True) (fun _ _ _ => trivial) fuel s t h
    rw [step_head] at hp ⊢
    rcases hx : stepHead fuel s with ⟨r, u⟩
    rcases hy : stepHead fuel t with ⟨r', u'⟩
    rw [hx, hy] at hh
    obtain ⟨h1, h2⟩ := hh
    cases h1 with
    | err e => rw [Go.bind_err hx, Go.bind_err hy]; exact ⟨.err e, h2⟩
    | panic => rw [Go.bind_panic hx, Go.bind_panic hy]; exact ⟨.panic, h2⟩
    | hang => rw [Go.bind_hang hx, Go.bind_hang hy]; exact ⟨.hang, h2⟩
    | ok _ =>
      rw [Go.bind_ok hx] at hp ⊢
      rw [Go.bind_ok hy]
      dsimp only at hp h2 ⊢
      rw [pictureStep_keeps] at hp
      have hd := C133_picture (Q := fun _ _ => True) (s := { u with fs := u.fs.set ph.temporalReference })
        (t := { u' with fs := u'.fs.set ph.temporalReference })
        ⟨h2.br, h2.sh, h2.se, h2.gop, h2.ph, h2.pce, h2.qm, h2.counter, trivial⟩ hp (.inl hI)
      unfold pictureStep
      rw [Go.bind_ok (Go.get_apply u), Go.bind_ok (Go.get_apply u'), ← h2.ph, hp]
      dsimp only
      rw [Go.bind_ok (Go.modify_apply ..), Go.bind_ok (Go.modify_apply ..)]
      rcases hx : pictureData { u with fs := u.fs.set ph.temporalReference } with ⟨q, v⟩
      rcases hy : pictureData { u' with fs := u'.fs.set ph.temporalReference } with ⟨q', v'⟩
      rw [hx, hy] at hd
      obtain ⟨rfl, h3⟩ := hd
      cases q with
      | err e => rw [Go.bind_err hx, Go.bind_err hy]; exact ⟨.err e, h3⟩
      | panic => rw [Go.bind_panic hx, Go.bind_panic hy]; exact ⟨.panic, h3⟩
      | hang => rw [Go.bind_hang hx, Go.bind_hang hy]; exact ⟨.hang, h3⟩
      | ok f =>
        rw [Go.bind_ok hx, Go.bind_ok hy, Go.bind_ok (Go.modify_apply ..), Go.bind_ok (Go.modify_apply ..)]
        refine ⟨.ok rfl, ?_⟩
        show Twins _ (if _ then _ else _) (if _ then _ else _)
        split
        · exact ⟨h3.br, h3.sh, h3.se, h3.gop, h3.ph, h3.pce, h3.qm, h3.counter, trivial⟩
        · exact h3
  have hn : ∀ s : VS, s.fs.tryGet s.frameCounter = none → VS.next fuel 1 s = nextLoop fuel 1 s := by
    intro s hs
    unfold VS.next
    rw [hs]
  rw [hn s hs] at hp ⊢
  rw [hn t ht]
  have hph : (step fuel s).2.ph = some ph := by
    unfold nextLoop at hp
    rcases hx : step fuel s with ⟨r, u⟩
    cases r with
    | err e => rw [Go.bind_err hx] at hp; exact hp
    | panic => rw [Go.bind_panic hx] at hp; exact hp
    | hang => rw [Go.bind_hang hx] at hp; exact hp
    | ok f =>
      rw [Go.bind_ok hx, Go.bind_ok (Go.get_apply u)] at hp
      cases hu : u.ph with
      | none => rw [hu] at hp; exact hu.symm.trans hp
      | some ph' =>
        rw [hu] at hp
        dsimp only at hp
        split at hp
        · exact hu.symm.trans hp
        · exact hu.symm.trans hp
  obtain ⟨h1, h2⟩ := key hph
  unfold nextLoop
  rcases hx : step fuel s with ⟨r, u⟩
  rcases hy : step fuel t with ⟨r', u'⟩
  rw [hx, hy] at h1 h2
  rw [hx] at hph
  cases h1 with
  | err e => rw [Go.bind_err hx, Go.bind_err hy]; exact ⟨rfl, h2⟩
  | panic => rw [Go.bind_panic hx, Go.bind_panic hy]; exact ⟨rfl, h2⟩
  | hang => rw [Go.bind_hang hx, Go.bind_hang hy]; exact ⟨rfl, h2⟩
  | ok hf =>
    cases hf
    rw [Go.bind_ok hx, Go.bind_ok hy, Go.bind_ok (Go.get_apply u), Go.bind_ok (Go.get_apply u')]
    dsimp only at hph h2 ⊢
    rw [← h2.ph, ← h2.counter, hph]
    dsimp only
    split
    · exact ⟨rfl, ⟨h2.br, h2.sh, h2.se, h2.gop, h2.ph, h2.pce, h2.qm, by
        show (u.frameCounter + 1) % 2 ^ 32 = (u'.frameCounter + 1) % 2 ^ 32; rw [h2.counter], trivial⟩⟩
    · exact ⟨rfl, h2⟩

namespace ExDrift
open ExStream ExResync ExRounds

/-- the luma samples of a frame made brighter by `d` -/
def brighter (d : Nat) (f : Frame) : Frame := { f with y := ⟨f.y.len, fun i => f.y.data i + d⟩ }
def slot (d : Nat) (r : RefFrame) : RefFrame := { r with frame := brighter d r.frame }
/-- the decoder with brighter frames in its store -/
def bright (d : Nat) (s : VS) : VS :=
  { s with fs := ⟨s.fs.f0.map (slot d), s.fs.f1.map (slot d), s.fs.past.map (brighter d), s.fs.future.map (brighter d)⟩ }

theorem brighter_near (d : Nat) (f : Frame) : FrameNear (fun i => if i = 0 then d else 0) f (brighter d f) :=
  ⟨rfl, rfl, ⟨rfl, fun i _ => ⟨by show _ ≤ _ + d + d; omega, by show _ + d ≤ _ + d; omega⟩⟩, planeNear_refl _ _, planeNear_refl _ _⟩
theorem both_self {α : Type} {R : α → α → Prop} {g : α → α} (h : ∀ a, R a (g a)) : ∀ o : Option α, Both R o (o.map g)
  | none => .none
  | some a => .some (h a)
theorem bright_twins (d : Nat) (s : VS) : Twins (StoreNear fun i => if i = 0 then d else 0) s (bright d s) :=
  ⟨rfl, rfl, rfl, rfl, rfl, rfl, rfl, rfl, ⟨both_self (fun r => ⟨brighter_near d r.frame, rfl, rfl⟩) _,
    both_self (fun r => ⟨brighter_near d r.frame, rfl, rfl⟩) _, both_self (brighter_near d) _, both_self (brighter_near d) _⟩⟩

/-- I picture, P picture, group of pictures with an I picture -/
def stream3 : List Bool := bitsI ++ (byte (encPic ⟨1, .p 0 7, 0, []⟩) ++ (byte (encPicExt picE) ++
  (byte ((sl 0 mbP).head ((cx 16 1).env picP) ++ ((codeP ⟨none, none⟩ blank).bits ++ [])) ++ (bitsG ++ bitsOf 32 0x1B7))))

/-- after the I picture -/
def afterI : VS := (VS.next 1000 2 (VS.new ⟨stream3, 0, .eof, []⟩)).2

/-- a decoder, and one whose reference frame is brighter by 3: the two further pictures differ by at most 3, in luma only -/
example : Pairwise2 (SameRes (FrameNear fun i => if i = 0 then 3 else 0)) (perform 1000 2 [.next, .next] afterI).1
    (perform 1000 2 [.next, .next] (bright 3 afterI)).1 := (C133 1000 2 _ (bright_twins 3 afterI)).1

/-- first luma sample of the results -/
def firsts (l : List (Res Frame)) : List (Option Nat) := l.map fun r => match r with
  | .ok f => some (f.y.data 0)
  | _ => none

/-- the P picture does differ by 3; the I picture behind it does not -/
example : (perform 1000 2 [.next, .next] afterI).1.length = 2 ∧
    firsts (perform 1000 2 [.next, .next] (bright 3 afterI)).1 =
      [(firsts (perform 1000 2 [.next, .next] afterI).1)[0]!.map (· + 3), (firsts (perform 1000 2 [.next, .next] afterI).1)[1]!] ∧
    (firsts (perform 1000 2 [.next, .next] afterI).1).all (·.isSome) := by decide +kernel

/-- the state before the last I picture -/
def beforeI : VS := (VS.next 1000 2 afterI).2

example : ((VS.next 1000 1 beforeI).2.ph.map (·.pictureCodingType) = some 1) ∧ (beforeI.fs.tryGet beforeI.frameCounter).isNone ∧
    ((bright 3 beforeI).fs.tryGet beforeI.frameCounter).isNone := by decide +kernel

end ExDrift

end Mpeg.Video
