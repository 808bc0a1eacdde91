/-
C142: a decoder that is started at an entry point and one that has decoded everything before return the same pictures from there on.
-/
import Verif.Video.EntryProps
import Verif.Video.DisplayProps
import Verif.Video.SyncLemmas
namespace Mpeg.Video
open Spec

/-- Decoders on the same input that agree in what has been read since an entry point: stage 1 sequence header and matrices, 2 sequence
extension, 3 group of pictures header, 4 picture header, 5 picture coding extension. -/
structure Joined (n : Nat) (s t : VS) : Prop where
  br : s.br = t.br
  sh : 1 ≤ n → s.sh = t.sh
  qm : 1 ≤ n → s.qm = t.qm
  se : 2 ≤ n → s.se = t.se
  gop : 3 ≤ n → s.gop = t.gop
  counter : 3 ≤ n → s.frameCounter = t.frameCounter
  store : 3 ≤ n → Since 0 s.fs t.fs
  ph : 4 ≤ n → s.ph = t.ph
  pce : 5 ≤ n → s.pce = t.pce

section
variable {n : Nat}

theorem joined_lift {α : Type} (m : Go BR α) : Go.Step (Joined n) Eq (VS.lift m) (VS.lift m) := by
  intro s t h
  unfold VS.lift
  rw [h.br]
  exact ⟨sameRes_refl _, ⟨rfl, h.sh, h.qm, h.se, h.gop, h.counter, h.store, h.ph, h.pce⟩⟩
theorem joined_loadMatrix (set : QMatrices → Matrix → QMatrices) : Go.Step (Joined n) Eq (loadMatrix set) (loadMatrix set) :=
  .bindEq (joined_lift _) fun _ => .opt (.bindEq (joined_lift _) fun _ => .modify fun s t h =>
    ⟨h.br, h.sh, fun hn => by dsimp only; rw [h.qm hn], h.se, h.gop, h.counter, h.store, h.ph, h.pce⟩)
theorem joined_quant : Go.Step (Joined n) Eq quantMatrixExtension quantMatrixExtension :=
  .bindEq (.ignoreErr (joined_lift _)) fun _ => .bindEq (joined_loadMatrix _) fun _ => .bindEq (joined_loadMatrix _) fun _ =>
    .bindEq (joined_loadMatrix _) fun _ => .bindEq (joined_loadMatrix _) fun _ => joined_lift _
theorem joined_body (i : Nat) : Go.Step (Joined n) Eq (extensionBody i) (extensionBody i) := by
  unfold extensionBody
  exact .ite (.bindEq (joined_lift _) fun _ => .ite (.bindEq (joined_lift _) fun _ => .pure rfl) (joined_lift _))
    (.ite (.bindEq (joined_lift _) fun _ => .ite joined_quant (.ite .panic (.bindEq (joined_lift _) fun _ => .pure rfl))) (.pure rfl))
theorem joined_extensionData (i : Nat) : ∀ f, Go.Step (Joined n) Eq (extensionData i f) (extensionData i f)
  | 0 => .hang
  | f + 1 => .bindEq (joined_lift _) fun _ => .ite (.bindEq (by
      rw [extensionDataStep_eq]
      exact .bindEq (.ignoreErr (joined_lift _)) fun _ => joined_body i) fun _ => joined_extensionData i f) (.pure rfl)
theorem joined_extUser (i : Nat) : ∀ f, Go.Step (Joined n) Eq (extensionAndUserData i f) (extensionAndUserData i f)
  | 0 => .hang
  | f + 1 => .bindEq (joined_lift _) fun _ => .ite
      (.ite (.bindEq (joined_extensionData i f) fun _ => joined_extUser i f) (joined_extUser i f))
      (.ite (.bindEq (joined_lift _) fun _ => joined_extUser i f) (.pure rfl))
end

/-- a step that succeeds in both, and after which they agree in more -/
def Gain (n n' : Nat) (m : Go VS Unit) : Prop :=
  ∀ s t u, Joined n s t → m s = (.ok (), u) → ∃ u', m t = (.ok (), u') ∧ Joined n' u u'

theorem Gain.step {n : Nat} {m : Go VS Unit} (h : Go.Step (Joined n) Eq m m) : Gain n n m := by
  intro s t u hj hs
  obtain ⟨h1, h2⟩ := h s t hj
  rw [hs] at h1 h2
  rcases ht : m t with ⟨r, u'⟩
  rw [ht] at h1 h2
  cases h1
  exact ⟨u', rfl, h2⟩
theorem Gain.bind {a b c : Nat} {m k : Go VS Unit} (hm : Gain a b m) (hk : Gain b c k) : Gain a c (m >>= fun _ => k) := by
  intro s t u hj hs
  obtain ⟨_, s1, h1, h2⟩ := Go.bind_eq_ok hs
  obtain ⟨t1, h3, h4⟩ := hm s t s1 hj h1
  obtain ⟨t2, h5, h6⟩ := hk s1 t1 u h4 h2
  exact ⟨t2, (Go.bind_ok h3).trans h5, h6⟩
theorem Gain.store {α : Type} {n n' : Nat} {m : Go BR α} {put : VS → Option α → VS}
    (hp : ∀ s t x, Joined n s t → Joined n' (put s x) (put t x)) : Gain n n' (storeHeader m put) := by
  intro s t u hj hs
  have h1 := joined_lift (n := n) m s t hj
  unfold storeHeader at hs ⊢
  rcases hx : VS.lift m s with ⟨r, s'⟩
  rcases hy : VS.lift m t with ⟨r', t'⟩
  rw [hx, hy] at h1
  rw [hx] at hs
  obtain ⟨hr, h2⟩ := h1
  cases hr with
  | err e => cases hs
  | panic => cases hs
  | hang => cases hs
  | ok e =>
    cases e
    exact Gain.step (joined_lift nextStartCode) _ _ u (hp _ _ _ h2) hs

theorem gain_sequenceHeader : Gain 0 1 sequenceHeader := by
  intro s t u hj hs
  unfold sequenceHeader at hs ⊢
  have h1 := joined_lift (n := 0) readSequenceHeader s t hj
  rcases hx : VS.lift readSequenceHeader s with ⟨r, s'⟩
  rcases hy : VS.lift readSequenceHeader t with ⟨r', t'⟩
  rw [hx, hy] at h1
  obtain ⟨hr, h2⟩ := h1
  cases hr with
  | err e => rw [Go.bind_err hx] at hs; cases hs
  | panic => rw [Go.bind_panic hx] at hs; cases hs
  | hang => rw [Go.bind_hang hx] at hs; cases hs
  | ok e =>
    cases e
    rw [Go.bind_ok hx] at hs
    rw [Go.bind_ok hy]
    cases hs
    exact ⟨_, rfl, ⟨h2.br, fun _ => rfl, fun _ => rfl, fun h => absurd h (by decide), fun h => absurd h (by decide),
      fun h => absurd h (by decide), fun h => absurd h (by decide), fun h => absurd h (by decide), fun h => absurd h (by decide)⟩⟩
theorem gain_sequenceExtension : Gain 1 2 sequenceExtension := Gain.store fun s t _ h =>
  ⟨h.br, fun _ => h.sh (by decide), fun _ => h.qm (by decide), fun _ => rfl, fun h => absurd h (by decide),
    fun h => absurd h (by decide), fun h => absurd h (by decide), fun h => absurd h (by decide), fun h => absurd h (by decide)⟩
theorem gain_pictureHeader : Gain 3 4 pictureHeader := Gain.store fun s t _ h =>
  ⟨h.br, fun _ => h.sh (by decide), fun _ => h.qm (by decide), fun _ => h.se (by decide), fun _ => h.gop (by decide),
    fun _ => h.counter (by decide), fun _ => h.store (by decide), fun _ => rfl, fun h => absurd h (by decide)⟩
theorem gain_pictureCodingExtension : Gain 4 5 pictureCodingExtension := Gain.store fun s t _ h =>
  ⟨h.br, fun _ => h.sh (by decide), fun _ => h.qm (by decide), fun _ => h.se (by decide), fun _ => h.gop (by decide),
    fun _ => h.counter (by decide), fun _ => h.store (by decide), fun _ => h.ph (by decide), fun _ => rfl⟩

/-- no group of pictures header has been read -/
def NoGroup (s : VS) : Prop := s.gop = none

theorem noGroup_lift {α : Type} (m : Go BR α) : Go.Keeps NoGroup (VS.lift m) := fun _ h => h
theorem noGroup_storeHeader {α : Type} {m : Go BR α} {put : VS → Option α → VS} (hp : ∀ s x, NoGroup s → NoGroup (put s x)) :
    Go.Keeps NoGroup (storeHeader m put) := by
  intro s h
  unfold storeHeader
  have h1 := noGroup_lift m s h
  generalize VS.lift m s = y at h1
  obtain ⟨r, s'⟩ := y
  cases r with
  | ok a => exact noGroup_lift nextStartCode _ (hp s' _ h1)
  | err e => exact hp s' _ h1
  | panic => exact h1
  | hang => exact h1
theorem noGroup_loadMatrix (set : QMatrices → Matrix → QMatrices) : Go.Keeps NoGroup (loadMatrix set) := by
  unfold loadMatrix
  exact .bind (noGroup_lift _) fun _ => .opt (.bind (noGroup_lift _) fun _ => .modify fun _ h => h)
theorem noGroup_body (i : Nat) : Go.Keeps NoGroup (extensionBody i) := by
  unfold extensionBody quantMatrixExtension
  exact .ite (.bind (noGroup_lift _) fun _ => .ite (.bind (noGroup_lift _) fun _ => .pure _) (noGroup_lift _))
    (.ite (.bind (noGroup_lift _) fun _ => .ite (.bind (.ignoreErr (noGroup_lift _)) fun _ => .bind (noGroup_loadMatrix _) fun _ =>
      .bind (noGroup_loadMatrix _) fun _ => .bind (noGroup_loadMatrix _) fun _ => .bind (noGroup_loadMatrix _) fun _ => noGroup_lift _)
      (.ite .panic (.bind (noGroup_lift _) fun _ => .pure _))) (.pure _))
theorem noGroup_extensionData (i : Nat) : ∀ f, Go.Keeps NoGroup (extensionData i f)
  | 0 => .hang
  | f + 1 => .bind (noGroup_lift _) fun _ => .ite (.bind (by
      rw [extensionDataStep_eq]
      exact .bind (.ignoreErr (noGroup_lift _)) fun _ => noGroup_body i) fun _ => noGroup_extensionData i f) (.pure _)
theorem noGroup_extUser (i : Nat) : ∀ f, Go.Keeps NoGroup (extensionAndUserData i f)
  | 0 => .hang
  | f + 1 => .bind (noGroup_lift _) fun _ => .ite
      (.ite (.bind (noGroup_extensionData i f) fun _ => noGroup_extUser i f) (noGroup_extUser i f))
      (.ite (.bind (noGroup_lift _) fun _ => noGroup_extUser i f) (.pure _))
theorem noGroup_sequenceHeader : Go.Keeps NoGroup sequenceHeader := by
  unfold sequenceHeader
  exact .bind (noGroup_lift _) fun _ => .modify fun _ h => h

/-- the group of pictures header, if it is there -/
theorem gain_groupHeader {fuel : Nat} {s t u : VS} (hj : Joined 2 s t) (hs : groupHeader fuel s = (.ok (), u)) :
    (∃ u', groupHeader fuel t = (.ok (), u') ∧ Joined 3 u u') ∨ u = s := by
  unfold groupHeader at hs ⊢
  obtain ⟨v, s1, h1, h2⟩ := Go.bind_eq_ok hs
  have hp := joined_lift (n := 2) (BR.peek 32) s t hj
  rcases hy : VS.lift (BR.peek 32) t with ⟨r, t1⟩
  rw [h1, hy] at hp
  obtain ⟨hr, hj1⟩ := hp
  cases hr with | ok e =>
  cases e
  rw [Go.bind_ok hy]
  cases hc : (v == groupStartCode) with
  | false =>
    rw [hc] at h2
    cases h2
    exact .inr (vpeek_inv h1).1
  | true =>
    rw [hc] at h2
    refine .inl ?_
    change (VS.lift readGOPHeader >>= _) s1 = _ at h2
    show ∃ u', (VS.lift readGOPHeader >>= _) t1 = _ ∧ _
    have hl := joined_lift (n := 2) readGOPHeader s1 t1 hj1
    obtain ⟨g, s2, h3, h4⟩ := Go.bind_eq_ok h2
    rcases hz : VS.lift readGOPHeader t1 with ⟨r, t2⟩
    rw [h3, hz] at hl
    obtain ⟨hr, hj2⟩ := hl
    cases hr with | ok e =>
    cases e
    rw [Go.bind_ok hz, Go.bind_ok (Go.modify_apply ..)]
    rw [Go.bind_ok (Go.modify_apply ..)] at h4
    refine Gain.step (joined_extUser 1 fuel) _ _ u ?_ h4
    exact ⟨hj2.br, fun _ => hj2.sh (by decide), fun _ => hj2.qm (by decide), fun _ => hj2.se (by decide), fun _ => rfl, fun _ => rfl,
      fun _ => since_any _ _, fun h => absurd h (by decide), fun h => absurd h (by decide)⟩

/-- the headers from `CONTINUE` on, when a group of pictures header is among them -/
theorem gain_continueHead {fuel : Nat} {s t u : VS} (hj : Joined 2 s t) (hn : NoGroup s) (hs : continueHead fuel s = (.ok (), u))
    (hg : u.gop.isSome = true) : ∃ u', continueHead fuel t = (.ok (), u') ∧ Joined 5 u u' := by
  unfold continueHead moreHead at hs ⊢
  obtain ⟨_, s1, h1, h2⟩ := Go.bind_eq_ok hs
  obtain ⟨t1, h3, hj1⟩ := Gain.step (joined_extUser 0 fuel) s t s1 hj h1
  have hn1 : NoGroup s1 := by
    have := noGroup_extUser 0 fuel s hn
    rw [h1] at this
    exact this
  rw [Go.bind_ok h3]
  obtain ⟨_, s2, h4, h5⟩ := Go.bind_eq_ok h2
  rcases gain_groupHeader hj1 h4 with ⟨t2, h6, hj2⟩ | rfl
  · rw [Go.bind_ok h6]
    exact Gain.bind gain_pictureHeader (Gain.bind gain_pictureCodingExtension (Gain.step (joined_extUser 2 fuel))) s2 t2 u hj2 h5
  · exfalso
    have hk : Go.Keeps NoGroup (do pictureHeader; pictureCodingExtension; extensionAndUserData 2 fuel : Go VS Unit) :=
      .bind (noGroup_storeHeader fun _ _ h => h) fun _ => .bind (noGroup_storeHeader fun _ _ h => h) fun _ => noGroup_extUser 2 fuel
    have := hk s2 hn1
    rw [h5] at this
    have hx : u.gop = none := this
    rw [hx] at hg
    cases hg

/-- all headers before the first picture -/
theorem join_stepHead {fuel : Nat} {s : VS} (hsh : s.sh.isSome = true) {r : List Bool} (hb : s.br.bits = bitsOf 32 0x1B3 ++ r)
    (hp : s.br.pos % 8 = 0) {u : VS} (hs : stepHead fuel (VS.new s.br) = (.ok (), u)) (hg : u.gop.isSome = true) :
    ∃ u', stepHead fuel s = (.ok (), u') ∧ Twins (Since 0) u u' := by
  have hk : ∃ u', stepHead fuel s = (.ok (), u') ∧ Joined 5 u u' := by
    unfold stepHead at hs ⊢
    rw [if_pos hsh]
    rw [if_neg (by simp [VS.new])] at hs
    unfold startHead at hs
    unfold resumeHead
    obtain ⟨_, s1, h1, h2⟩ := Go.bind_eq_ok hs
    have e1 : s1 = VS.new s.br := by
      have hh : nextStartCode s.br = (.ok (), s1.br) := by
        unfold VS.lift at h1
        rw [Prod.mk.injEq] at h1
        obtain ⟨h1, rfl⟩ := h1
        exact Prod.ext h1 rfl
      have he := nextStartCode_stay hh (r := bitsOf 8 0xB3 ++ r) (by
        rw [hb]
        show bitsOf (24 + 8) 0x1B3 ++ r = _
        rw [bitsOf_append, List.append_assoc]
        congr 1) hp
      unfold VS.lift at h1
      rw [Prod.mk.injEq] at h1
      obtain ⟨h1, rfl⟩ := h1
      have he : (nextStartCode s.br).2 = s.br := he
      show { VS.new s.br with br := (nextStartCode s.br).2 } = VS.new s.br
      rw [he]
      rfl
    subst e1
    have hv : VS.lift (BR.peek 32) s = (.ok 0x1B3, s) :=
      vpeek_code (pos := s.br.pos) (stop := s.br.stop) (later := s.br.later) s (by decide) (by rw [← hb])
    rw [Go.bind_ok hv, if_neg (by decide), if_neg (by decide)]
    obtain ⟨_, s2, h3, h4⟩ := Go.bind_eq_ok h2
    have j0 : Joined 0 (VS.new s.br) s := ⟨rfl, fun h => absurd h (by decide), fun h => absurd h (by decide), fun h => absurd h (by decide),
      fun h => absurd h (by decide), fun h => absurd h (by decide), fun h => absurd h (by decide), fun h => absurd h (by decide),
      fun h => absurd h (by decide)⟩
    obtain ⟨t2, h5, j1⟩ := gain_sequenceHeader _ s s2 j0 h3
    rw [Go.bind_ok h5]
    have n2 := noGroup_sequenceHeader (VS.new s.br) rfl
    rw [h3] at n2
    obtain ⟨v, s3, h6, h7⟩ := Go.bind_eq_ok h4
    obtain ⟨rfl, _⟩ := vpeek_inv h6
    obtain ⟨_, s4, h8, h9⟩ := Go.bind_eq_ok h7
    have e4 : s4 = s3 := by
      unfold Go.check at h8
      split at h8
      · cases h8; rfl
      · cases h8
    subst e4
    obtain ⟨_, s5, h10, h11⟩ := Go.bind_eq_ok h9
    obtain ⟨t5, h12, j2⟩ := gain_sequenceExtension _ t2 s5 j1 h10
    rw [Go.bind_ok h12]
    have n5 : NoGroup s5 := by
      have := noGroup_storeHeader (m := readSequenceExtension) (put := fun s x => { s with se := x }) (fun _ _ h => h) _ n2
      have h10 : storeHeader readSequenceExtension (fun s x => { s with se := x }) _ = _ := h10
      rw [h10] at this
      exact this
    exact gain_continueHead j2 n5 h11 hg
  obtain ⟨u', h1, h2⟩ := hk
  exact ⟨u', h1, ⟨h2.br, h2.sh (by decide), h2.se (by decide), h2.gop (by decide), h2.ph (by decide), h2.pce (by decide),
    h2.qm (by decide), h2.counter (by decide), h2.store (by decide)⟩⟩

/-- **C142**: a decoder `s` with any history comes to a sequence header (and has nothing waiting to be returned); the headers that
follow it are legal up to a picture, and there is a group of pictures header among them.  Whatever the input behind them, damaged or
not, and whatever an application does: as long as no picture refers to pictures before this point, all calls of `Next` have exactly
the same result as those of a new decoder that begins to read here. -/
theorem C142 (fuel : Nat) {k : Nat} (hk : 1 ≤ k) {l : List Action} {s : VS} (hsh : s.sh.isSome = true)
    (hs : s.fs.tryGet s.frameCounter = none) {r : List Bool} (hb : s.br.bits = bitsOf 32 0x1B3 ++ r) (hp : s.br.pos % 8 = 0)
    (hok : (stepHead fuel (VS.new s.br)).1 = .ok ()) (hg : (stepHead fuel (VS.new s.br)).2.gop.isSome = true)
    (hr : refersSince fuel k 0 (.next :: l) (VS.new s.br) = true) :
    (perform fuel k (.next :: l) s).1 = (perform fuel k (.next :: l) (VS.new s.br)).1 := by
  obtain ⟨u', h1, h2⟩ := join_stepHead (fuel := fuel) hsh hb hp (u := (stepHead fuel (VS.new s.br)).2) (Prod.ext hok rfl) hg
  unfold refersSince callSince at hr
  have hw : (VS.new s.br).fs.tryGet (VS.new s.br).frameCounter = none := rfl
  rw [hw, Bool.and_eq_true] at hr
  obtain ⟨h3, h4⟩ := since_loop (fuel := fuel) (k := k) (n := 0) (s := VS.new s.br) (t := s)
    ⟨by rw [hok, h1]; exact .ok rfl, by rw [h1]; exact h2⟩ (fun h => by omega) hr.1
  have e1 : VS.next fuel k s = nextLoop fuel k s := by unfold VS.next; rw [hs]
  have e2 : VS.next fuel k (VS.new s.br) = nextLoop fuel k (VS.new s.br) := by unfold VS.next; rw [hw]
  rw [e2] at hr
  have h5 := C141 fuel k l h4 hr.2
  simp only [perform, e1, e2, h3, h5]

/-- **C142**, files: the same for a new decoder on a file that consists of the rest of the input (the operations of the application
on the reader must not depend on the number of bytes read). -/
theorem C142_file (fuel : Nat) {k : Nat} (hk : 1 ≤ k) {l : List Action} (hl : ∀ a ∈ l, a.OK) {s : VS} (hsh : s.sh.isSome = true)
    (hs : s.fs.tryGet s.frameCounter = none) {r : List Bool} (hb : s.br.bits = bitsOf 32 0x1B3 ++ r) (hp : s.br.pos % 8 = 0)
    (hok : (stepHead fuel (VS.new s.br)).1 = .ok ()) (hg : (stepHead fuel (VS.new s.br)).2.gop.isSome = true)
    (hr : refersSince fuel k 0 (.next :: l) (VS.new s.br) = true) :
    (perform fuel k (.next :: l) s).1 = (perform fuel k (.next :: l) (VS.new { s.br with pos := 0 })).1 := by
  rw [C142 fuel hk hsh hs hb hp hok hg hr]
  have ha : Alike (VS.new s.br) (VS.new { s.br with pos := 0 }) := ⟨⟨rfl, rfl, rfl, hp⟩, .none, .none, .none, .none, rfl, rfl, rfl⟩
  refine (C139 fuel k (.next :: l) (fun a ha => ?_) ha).1
  rcases List.mem_cons.1 ha with rfl | ha
  · trivial
  · exact hl a ha

/-! ### I, P; then a sequence header, a group, I, P and a P picture with damaged data -/

namespace ExJoin
open ExStream ExResync ExRounds ExDrift ExEntry

def rest6 : List Bool := bitsI ++ (pBits 1 ++ ((pBits 2).take 200 ++ bitsOf 32 0x1B7))
/-- after the first two pictures -/
def running : VS := (perform 1000 3 [.next, .next] (VS.new ⟨bitsI ++ (pBits 1 ++ rest6), 0, .eof, []⟩)).2

/-- The decoder holds two frames, the counter stands at 2; three more calls return the I and the P picture and report the damage, and
so do three calls on a file with only the last three pictures. -/
example : running.fs.f0.isSome ∧ running.fs.f1.isSome ∧ running.frameCounter = 2 ∧
    (firsts (perform 1000 3 [.next, .next, .next] running).1).map (·.isSome) = [true, true, false] ∧
    (perform 1000 3 [.next, .next, .next] running).1 =
      (perform 1000 3 [.next, .next, .next] (VS.new { running.br with pos := 0 })).1 := by
  have hw : (running.fs.tryGet running.frameCounter).isNone := by decide +kernel
  have hsh : running.sh.isSome = true := by decide +kernel
  have hb : running.br.bits.take 32 = bitsOf 32 0x1B3 := by decide +kernel
  have hp : running.br.pos % 8 = 0 := by decide +kernel
  have hh : (match stepHead 1000 (VS.new running.br) with | (.ok _, u) => u.gop.isSome | _ => false) = true := by decide +kernel
  have hr : refersSince 1000 3 0 [.next, .next, .next] (VS.new running.br) = true := by decide +kernel
  refine ⟨by decide +kernel, by decide +kernel, by decide +kernel, by decide +kernel, ?_⟩
  generalize running = s at *
  have hd := List.take_append_drop 32 s.br.bits
  rw [hb] at hd
  refine C142_file 1000 (by decide) (fun a ha => ?_) hsh (Option.isNone_iff_eq_none.1 hw) hd.symm hp ?_ ?_ hr
  · rcases List.mem_cons.1 ha with rfl | ha
    · trivial
    · rw [List.mem_singleton.1 ha]
      trivial
  · rcases hx : stepHead 1000 (VS.new s.br) with ⟨x, u⟩
    rw [hx] at hh
    cases x with
    | ok _ => rfl
    | _ => cases hh
  · rcases hx : stepHead 1000 (VS.new s.br) with ⟨x, u⟩
    rw [hx] at hh
    cases x with
    | ok _ => exact hh
    | _ => cases hh

/-- Without a group of pictures header the counter is not reset: the running decoder does not return the I picture behind the second
sequence header, the new one does. -/
def rest7 : List Bool := byte (encSeq (seqH 16)) ++ (byte (encSeqExt (seqE 1)) ++
  (byte (encPic ⟨0, .other 1, 0, []⟩) ++ (byte (encPicExt picE) ++ (sliceBits ++ bitsOf 32 0x1B7))))
def running7 : VS := (perform 1000 3 [.next] (VS.new ⟨bitsI ++ rest7, 0, .eof, []⟩)).2

example : running7.br.bits.take 32 = bitsOf 32 0x1B3 ∧ (running7.fs.tryGet running7.frameCounter).isNone ∧
    (firsts (perform 1000 3 [.next] running7).1).map (·.isSome) = [false] ∧
    (firsts (perform 1000 3 [.next] (VS.new running7.br)).1).map (·.isSome) = [true] := by decide +kernel

end ExJoin

end Mpeg.Video
