/-
The decoder with pointers does what the decoder with values does: `Next`.
-/
import Verif.Video.HeapLemmas
import Verif.Video.HeapSpec
import Verif.Video.ShapeLemmas2
set_option linter.all false
namespace Mpeg.Video
open Spec

/-- all pointers of the frame store have been allocated -/
def HVS.Inv (h : HVS) : Prop :=
  (∀ r, h.fs.f0 = some r → r.frame < h.free) ∧ (∀ r, h.fs.f1 = some r → r.frame < h.free) ∧
  (∀ a, h.fs.past = some a → a < h.free) ∧ ∀ a, h.fs.future = some a → a < h.free

/-- what had been allocated is still there -/
def Old (h h' : HVS) : Prop := h.free ≤ h'.free ∧ ∀ a < h.free, h'.mem a = h.mem a

theorem Old.refl (h : HVS) : Old h h := ⟨Nat.le_refl _, fun _ _ => rfl⟩
theorem Old.trans {a b c : HVS} (h : Old a b) (g : Old b c) : Old a c :=
  ⟨Nat.le_trans h.1 g.1, fun x hx => (g.2 x (Nat.lt_of_lt_of_le hx h.1)).trans (h.2 x hx)⟩

/-- results correspond -/
def ResRel {α β : Type} (R : α → β → Prop) : Res α → Res β → Prop
  | .ok a, .ok b => R a b
  | .err e, .err e' => e = e'
  | .panic, .panic => True
  | .hang, .hang => True
  | _, _ => False

/-- the two do the same, what had been allocated stays -/
def SimV {α β : Type} (R : HVS → α → β → Prop) (x : Go HVS α) (y : Go VS β) : Prop :=
  ∀ h : HVS, h.Inv → (x h).2.toVS = (y h.toVS).2 ∧ (x h).2.Inv ∧ Old h (x h).2 ∧ ResRel (R (x h).2) (x h).1 (y h.toVS).1

/-- equal results -/
abbrev SimE {α : Type} (x : Go HVS α) (y : Go VS α) : Prop := SimV (fun _ a b => a = b) x y
/-- a pointer to the picture -/
def Points (h : HVS) (a : Nat) (f : Frame) : Prop := a < h.free ∧ h.mem a = f

namespace SimV
variable {α β γ δ : Type}
theorem pure (a : α) : SimE (Pure.pure a) (Pure.pure a) := fun h hi => ⟨rfl, hi, .refl _, rfl⟩
theorem panic {R : HVS → α → β → Prop} : SimV R Go.panic Go.panic := fun h hi => ⟨rfl, hi, .refl _, trivial⟩
theorem hang {R : HVS → α → β → Prop} : SimV R Go.hang Go.hang := fun h hi => ⟨rfl, hi, .refl _, trivial⟩
theorem throw {R : HVS → α → β → Prop} (e : Err) : SimV R (Go.throw e) (Go.throw e) := fun h hi => ⟨rfl, hi, .refl _, rfl⟩
theorem check {c : Bool} {e : Err} : SimE (Go.check c e) (Go.check c e) := by
  cases c
  · exact throw e
  · exact pure ()
theorem ite {R : HVS → α → β → Prop} {c : Prop} [Decidable c] {x x' : Go HVS α} {y y' : Go VS β} (h1 : SimV R x y) (h2 : SimV R x' y') :
    SimV R (if c then x else x') (if c then y else y') := by split <;> assumption
theorem bind {R : HVS → γ → δ → Prop} {x : Go HVS α} {y : Go VS α} {f : α → Go HVS γ} {g : α → Go VS δ} (h1 : SimE x y)
    (h2 : ∀ a, SimV R (f a) (g a)) : SimV R (x >>= f) (y >>= g) := by
  intro h hi
  obtain ⟨e1, e2, e3, e4⟩ := h1 h hi
  rw [Go.bind_apply, Go.bind_apply]
  cases hx : x h with
  | mk r h' =>
    cases hy : y h.toVS with
    | mk q s =>
      rw [hx, hy] at e1 e4
      rw [hx] at e2 e3
      cases r with
      | ok a =>
        cases q with
        | ok b =>
          have e4 : a = b := e4
          subst e4
          have e1 : h'.toVS = s := e1
          subst e1
          obtain ⟨f1, f2, f3, f4⟩ := h2 a h' e2
          exact ⟨f1, f2, e3.trans f3, f4⟩
        | err e => exact e4.elim
        | panic => exact e4.elim
        | hang => exact e4.elim
      | err e =>
        cases q with
        | ok b => exact e4.elim
        | err e' => exact ⟨e1, e2, e3, e4⟩
        | panic => exact e4.elim
        | hang => exact e4.elim
      | panic =>
        cases q with
        | panic => exact ⟨e1, e2, e3, e4⟩
        | ok b => exact e4.elim
        | err e => exact e4.elim
        | hang => exact e4.elim
      | hang =>
        cases q with
        | hang => exact ⟨e1, e2, e3, e4⟩
        | ok b => exact e4.elim
        | err e => exact e4.elim
        | panic => exact e4.elim
theorem opt {c : Bool} {d : α} {x : Go HVS α} {y : Go VS α} (h : SimE x y) : SimE (Go.opt c d x) (Go.opt c d y) := by
  cases c
  · exact pure d
  · exact h
theorem lift {m : Go VS α} (hk : ∀ fs, Go.Keeps (OnStore (· = fs)) m) : SimE (HVS.lift m) m := by
  intro h hi
  have hf : (m h.toVS).2.fs = h.fs.at h.mem := hk (h.fs.at h.mem) h.toVS rfl
  refine ⟨?_, hi, .refl _, ?_⟩
  · show VS.mk _ _ _ _ _ _ _ (h.fs.at h.mem) _ = _
    rw [← hf]; rfl
  · show ResRel _ (m h.toVS).1 (m h.toVS).1
    cases (m h.toVS).1 with
    | ok a => exact rfl
    | err e => exact rfl
    | panic => trivial
    | hang => trivial
end SimV

/-! ### frame store -/

theorem store_at_eq {fs : HStore} {m m' : Mem} {n : Nat} (h0 : ∀ r, fs.f0 = some r → r.frame < n)
    (h1 : ∀ r, fs.f1 = some r → r.frame < n) (h2 : ∀ a, fs.past = some a → a < n) (h3 : ∀ a, fs.future = some a → a < n)
    (hm : ∀ a < n, m' a = m a) : fs.at m' = fs.at m := by
  have hr : ∀ o : Option HRef, (∀ r, o = some r → r.frame < n) → o.map (HRef.at · m') = o.map (HRef.at · m) := by
    intro o ho
    cases o with
    | none => rfl
    | some r => simp only [Option.map_some, HRef.at, hm _ (ho r rfl)]
  have ha : ∀ o : Option Nat, (∀ a, o = some a → a < n) → o.map m' = o.map m := by
    intro o ho
    cases o with
    | none => rfl
    | some a => simp only [Option.map_some, hm _ (ho a rfl)]
  unfold HStore.at
  rw [hr _ h0, hr _ h1, ha _ h2, ha _ h3]

theorem at_mark (fs : HStore) (m : Mem) : fs.markGOP.at m = (fs.at m).markGOP := by
  unfold HStore.markGOP FrameStore.markGOP HStore.at
  simp only [Option.map_map]
  rfl

theorem at_setOne (fs : HStore) (m : Mem) (r : Option HRef) (tr : Nat) :
    (fs.setOne r tr).at m = (fs.at m).setOne (r.map (HRef.at · m)) tr := by
  cases r with
  | none => rfl
  | some r =>
    show HStore.at (if r.previousGOP = true ∨ r.temporalReference < tr then _ else _) m =
      if r.previousGOP = true ∨ r.temporalReference < tr then _ else _
    split <;> rfl

theorem at_set (fs : HStore) (m : Mem) (tr : Nat) : (fs.set tr).at m = (fs.at m).set tr := by
  unfold HStore.set FrameStore.set
  rw [at_setOne, at_setOne]
  rfl

theorem at_matches (r : Option HRef) (m : Mem) (tr : Nat) :
    RefFrame.matches (r.map (HRef.at · m)) tr = (HRef.matches r tr).map m := by
  cases r with
  | none => rfl
  | some r =>
    show (if r.previousGOP = false ∧ r.temporalReference = tr then _ else _) =
      Option.map m (if r.previousGOP = false ∧ r.temporalReference = tr then _ else _)
    split <;> rfl

theorem at_tryGet (fs : HStore) (m : Mem) (tr : Nat) : (fs.at m).tryGet tr = (fs.tryGet tr).map m := by
  have h0 : RefFrame.matches (fs.at m).f0 tr = _ := at_matches fs.f0 m tr
  have h1 : RefFrame.matches (fs.at m).f1 tr = _ := at_matches fs.f1 m tr
  unfold FrameStore.tryGet HStore.tryGet
  rw [h0, h1]
  cases HRef.matches fs.f0 tr <;> rfl

theorem inv_mark {h : HVS} (hi : h.Inv) (g : Option GOPHeader) (n : Nat) :
    HVS.Inv { h with gop := g, fs := h.fs.markGOP, frameCounter := n } := by
  obtain ⟨h0, h1, h2, h3⟩ := hi
  refine ⟨?_, ?_, h2, h3⟩
  · intro r hr
    simp only [HStore.markGOP, Option.map_eq_some_iff] at hr
    obtain ⟨q, hq, rfl⟩ := hr
    exact h0 q hq
  · intro r hr
    simp only [HStore.markGOP, Option.map_eq_some_iff] at hr
    obtain ⟨q, hq, rfl⟩ := hr
    exact h1 q hq

/-- a store of allocated pointers -/
def HStore.Below (fs : HStore) (n : Nat) : Prop :=
  (∀ r, fs.f0 = some r → r.frame < n) ∧ (∀ r, fs.f1 = some r → r.frame < n) ∧
  (∀ a, fs.past = some a → a < n) ∧ ∀ a, fs.future = some a → a < n

theorem below_setOne {fs : HStore} {n : Nat} (h : fs.Below n) {r : Option HRef} (hr : ∀ q, r = some q → q.frame < n) (tr : Nat) :
    (fs.setOne r tr).Below n := by
  obtain ⟨h0, h1, h2, h3⟩ := h
  unfold HStore.setOne
  cases r with
  | none => exact ⟨h0, h1, h2, h3⟩
  | some q =>
    dsimp only
    split
    · exact ⟨h0, h1, fun a ha => by cases ha; exact hr _ rfl, h3⟩
    · exact ⟨h0, h1, h2, fun a ha => by cases ha; exact hr _ rfl⟩

theorem below_set {fs : HStore} {n : Nat} (h : fs.Below n) (tr : Nat) : (fs.set tr).Below n := by
  unfold HStore.set
  exact below_setOne (below_setOne h h.1 tr) h.2.1 tr

theorem below_tryGet {fs : HStore} {n : Nat} (h : fs.Below n) {tr a : Nat} (hg : fs.tryGet tr = some a) : a < n := by
  have hm : ∀ r : Option HRef, (∀ q, r = some q → q.frame < n) → ∀ a, HRef.matches r tr = some a → a < n := by
    intro r hr a h
    cases r with
    | none => cases h
    | some q =>
      unfold HRef.matches at h
      dsimp only at h
      split at h
      · cases h; exact hr _ rfl
      · cases h
  unfold HStore.tryGet at hg
  cases h0 : HRef.matches fs.f0 tr with
  | some g => rw [h0] at hg; cases hg; exact hm _ h.1 _ h0
  | none => rw [h0] at hg; exact hm _ h.2.1 _ hg

/-! ### pictures -/

theorem simv_slices {E : HEnv} {e : PicEnv} (hse : e.se = E.se) (hsh : e.sh = E.sh) (hpce : e.pce = E.pce) (n : Nat) :
    SimM E e (do hSliceLoop E n; HMB.run (fun _ => MB.lift nextStartCode) E : Go HMB Unit)
      (do sliceLoop e n; MB.lift nextStartCode : Go MB Unit) :=
  .bind (simm_sliceLoop hse hsh hpce n) fun _ => .run (m := fun _ => MB.lift nextStartCode) fun g => fr_lift _

theorem simv_pictureData : SimV Points hPictureData pictureData := by
  intro h hi
  have hkey : ∀ sh se ph pce,
      let x := (match (do hSliceLoop ⟨sh, se, ph, pce, h.qm, h.fs.past, h.fs.future⟩ (fuelOf h.br); HMB.run (fun _ => MB.lift nextStartCode) ⟨sh, se, ph, pce, h.qm, h.fs.past, h.fs.future⟩ : Go HMB Unit)
          ⟨h.br, DcPred.reset pce.intraDCPrecision, MVD.init, 0, h.free, h.mem.write h.free (createFrameBuffer h.toVS.size.1.toNat h.toVS.size.2.toNat se.chromaFormat)⟩ with
        | (.ok _, x') => ((.ok h.free, { h with br := x'.br, mem := x'.mem, free := h.free + 1 }) : Res Nat × HVS)
        | (.err y, x') => (.err y, { h with br := x'.br, mem := x'.mem, free := h.free + 1 })
        | (.panic, x') => (.panic, { h with br := x'.br, mem := x'.mem, free := h.free + 1 })
        | (.hang, x') => (.hang, { h with br := x'.br, mem := x'.mem, free := h.free + 1 }))
      let y := pictureWith sh se ph pce h.toVS
      x.2.toVS = y.2 ∧ x.2.Inv ∧ Old h x.2 ∧ ResRel (Points x.2) x.1 y.1 := by
    intro sh se ph pce
    dsimp only
    obtain ⟨f, hf⟩ : ∃ f, createFrameBuffer h.toVS.size.1.toNat h.toVS.size.2.toNat se.chromaFormat = f := ⟨_, rfl⟩
    unfold pictureWith
    rw [hf]
    have hap : Apart ⟨sh, se, ph, pce, h.qm, h.fs.past, h.fs.future⟩ h.free :=
      ⟨fun p hp => Nat.ne_of_lt (hi.2.2.1 p hp), fun p hp => Nat.ne_of_lt (hi.2.2.2 p hp)⟩
    have hs := simv_slices (E := ⟨sh, se, ph, pce, h.qm, h.fs.past, h.fs.future⟩)
      (e := ⟨sh, se, ph, pce, h.qm, h.fs.past.map h.mem, h.fs.future.map h.mem⟩) rfl rfl rfl (fuelOf h.br)
      ⟨h.br, DcPred.reset pce.intraDCPrecision, MVD.init, 0, h.free, h.mem.write h.free f⟩ ⟨at_write hap _ _, hap⟩
    have hm : HMB.toMB ⟨h.br, DcPred.reset pce.intraDCPrecision, MVD.init, 0, h.free, h.mem.write h.free f⟩ =
        ⟨h.br, DcPred.reset pce.intraDCPrecision, MVD.init, 0, f⟩ := by
      unfold HMB.toMB; simp only [write_same]
    rw [hm] at hs
    rw [hs]
    show _ = (match (do sliceLoop ⟨sh, se, ph, pce, h.qm, h.fs.past.map h.mem, h.fs.future.map h.mem⟩ (fuelOf h.br); MB.lift nextStartCode : Go MB Unit)
      ⟨h.br, DcPred.reset pce.intraDCPrecision, MVD.init, 0, f⟩ with
      | (.ok _, m') => ((.ok m'.frame, { h.toVS with br := m'.br }) : Res Frame × VS)
      | (.err x, m') => (.err x, { h.toVS with br := m'.br })
      | (.panic, m') => (.panic, { h.toVS with br := m'.br })
      | (.hang, m') => (.hang, { h.toVS with br := m'.br })).2 ∧ _ ∧ _ ∧ ResRel _ _ (match (do sliceLoop ⟨sh, se, ph, pce, h.qm, h.fs.past.map h.mem, h.fs.future.map h.mem⟩ (fuelOf h.br); MB.lift nextStartCode : Go MB Unit)
      ⟨h.br, DcPred.reset pce.intraDCPrecision, MVD.init, 0, f⟩ with
      | (.ok _, m') => ((.ok m'.frame, { h.toVS with br := m'.br }) : Res Frame × VS)
      | (.err x, m') => (.err x, { h.toVS with br := m'.br })
      | (.panic, m') => (.panic, { h.toVS with br := m'.br })
      | (.hang, m') => (.hang, { h.toVS with br := m'.br })).1
    generalize (do sliceLoop ⟨sh, se, ph, pce, h.qm, h.fs.past.map h.mem, h.fs.future.map h.mem⟩ (fuelOf h.br); MB.lift nextStartCode : Go MB Unit)
      ⟨h.br, DcPred.reset pce.intraDCPrecision, MVD.init, 0, f⟩ = z
    obtain ⟨r, m'⟩ := z
    have hold : ∀ a < h.free, ((h.mem.write h.free f).write h.free m'.frame) a = h.mem a := by
      intro a ha
      rw [write_write, write_other _ _ (Nat.ne_of_lt ha)]
    have hto : HVS.toVS { h with br := m'.br, mem := (h.mem.write h.free f).write h.free m'.frame, free := h.free + 1 } =
        { h.toVS with br := m'.br } := by
      unfold HVS.toVS
      simp only [store_at_eq hi.1 hi.2.1 hi.2.2.1 hi.2.2.2 hold]
    have hinv : HVS.Inv { h with br := m'.br, mem := (h.mem.write h.free f).write h.free m'.frame, free := h.free + 1 } :=
      ⟨fun r hr => Nat.lt_succ_of_lt (hi.1 r hr), fun r hr => Nat.lt_succ_of_lt (hi.2.1 r hr),
        fun r hr => Nat.lt_succ_of_lt (hi.2.2.1 r hr), fun r hr => Nat.lt_succ_of_lt (hi.2.2.2 r hr)⟩
    have hold' : Old h { h with br := m'.br, mem := (h.mem.write h.free f).write h.free m'.frame, free := h.free + 1 } :=
      ⟨Nat.le_succ _, hold⟩
    cases r with
    | ok _ => exact ⟨hto, hinv, hold', Nat.lt_succ_self _, write_same _ _ _⟩
    | err e => exact ⟨hto, hinv, hold', rfl⟩
    | panic => exact ⟨hto, hinv, hold', trivial⟩
    | hang => exact ⟨hto, hinv, hold', trivial⟩
  have hall : ∀ (a : Option SequenceHeader) (b : Option SequenceExtension) (c : Option PictureHeader) (d : Option PictureCodingExtension)
      (X : SequenceHeader → SequenceExtension → PictureHeader → PictureCodingExtension → Res Nat × HVS)
      (Y : SequenceHeader → SequenceExtension → PictureHeader → PictureCodingExtension → Res Frame × VS),
      (∀ a b c d, (X a b c d).2.toVS = (Y a b c d).2 ∧ (X a b c d).2.Inv ∧ Old h (X a b c d).2 ∧ ResRel (Points (X a b c d).2) (X a b c d).1 (Y a b c d).1) →
      (fun (x : Res Nat × HVS) (y : Res Frame × VS) => x.2.toVS = y.2 ∧ x.2.Inv ∧ Old h x.2 ∧ ResRel (Points x.2) x.1 y.1)
        (match a, b, c, d with
          | some a, some b, some c, some d => X a b c d
          | _, _, _, _ => (.panic, h))
        (match a, b, c, d with
          | some a, some b, some c, some d => Y a b c d
          | _, _, _, _ => (.panic, h.toVS)) := by
    intro a b c d X Y hXY
    cases a <;> cases b <;> cases c <;> cases d <;> first
      | exact hXY _ _ _ _
      | exact ⟨rfl, hi, .refl _, trivial⟩
  exact hall h.sh h.se h.ph h.pce _ _ hkey

/-! ### frame provider -/

theorem simv_groupHeader (fuel : Nat) : SimE (hGroupHeader fuel) (groupHeader fuel) := by
  unfold hGroupHeader groupHeader
  refine .bind (.lift fun _ => fst_lift _) fun v => .opt (.bind (.lift fun _ => fst_lift _) fun g => .bind ?_ fun _ => .lift fun _ => fst_extUser _ _)
  intro h hi
  refine ⟨?_, inv_mark hi _ _, .refl _, rfl⟩
  show HVS.toVS _ = _
  unfold HVS.toVS
  simp only [Go.modify_apply, at_mark]

theorem simv_pictureStep : SimV Points hPictureStep pictureStep := by
  intro h hi
  unfold hPictureStep pictureStep
  rw [Go.bind_ok (Go.get_apply h), Go.bind_ok (Go.get_apply h.toVS)]
  rw [show h.toVS.ph = h.ph from rfl]
  cases hph : h.ph with
  | none => exact ⟨rfl, hi, .refl _, trivial⟩
  | some ph =>
    dsimp only
    rw [Go.bind_ok (Go.modify_apply ..), Go.bind_ok (Go.modify_apply ..)]
    have hi1 : HVS.Inv { h with fs := h.fs.set ph.temporalReference } := below_set (n := h.free) hi _
    have e0 : HVS.toVS { h with fs := h.fs.set ph.temporalReference } = { h.toVS with fs := h.toVS.fs.set ph.temporalReference } := by
      unfold HVS.toVS
      simp only [at_set]
    rw [← e0]
    obtain ⟨e1, e2, e3, e4⟩ := simv_pictureData _ hi1
    have e3 : Old h _ := e3
    cases hx : hPictureData { h with fs := h.fs.set ph.temporalReference } with
    | mk r h' =>
      cases hy : pictureData (HVS.toVS { h with fs := h.fs.set ph.temporalReference }) with
      | mk q s =>
        rw [hx, hy] at e1 e4
        rw [hx] at e2 e3
        have e1 : h'.toVS = s := e1
        subst e1
        cases r with
        | ok a =>
          cases q with
          | ok b =>
            rw [Go.bind_ok hx, Go.bind_ok hy, Go.bind_ok (Go.modify_apply ..), Go.bind_ok (Go.modify_apply ..), Go.pure_apply, Go.pure_apply]
            obtain ⟨p1, p2⟩ : a < h'.free ∧ h'.mem a = b := e4
            split
            · refine ⟨?_, ⟨e2.2.1, fun r hr => (by cases hr; exact p1), e2.2.2.1, e2.2.2.2⟩, e3, p1, p2⟩
              show HVS.toVS { h' with fs := h'.fs.add a ph.temporalReference } = { h'.toVS with fs := h'.toVS.fs.add b ph.temporalReference }
              rw [← p2]; rfl
            · exact ⟨rfl, e2, e3, p1, p2⟩
          | err e => exact e4.elim
          | panic => exact e4.elim
          | hang => exact e4.elim
        | err e =>
          cases q with
          | ok b => exact e4.elim
          | err e' => rw [Go.bind_err hx, Go.bind_err hy]; exact ⟨rfl, e2, e3, e4⟩
          | panic => exact e4.elim
          | hang => exact e4.elim
        | panic =>
          cases q with
          | panic => rw [Go.bind_panic hx, Go.bind_panic hy]; exact ⟨rfl, e2, e3, e4⟩
          | ok b => exact e4.elim
          | err e => exact e4.elim
          | hang => exact e4.elim
        | hang =>
          cases q with
          | hang => rw [Go.bind_hang hx, Go.bind_hang hy]; exact ⟨rfl, e2, e3, e4⟩
          | ok b => exact e4.elim
          | err e => exact e4.elim
          | panic => exact e4.elim

theorem simv_moreFrames (fuel : Nat) : SimV Points (hMoreFrames fuel) (moreFrames fuel) := by
  unfold hMoreFrames moreFrames
  exact .bind (simv_groupHeader fuel) fun _ => .bind (.lift fun _ => fst_pictureHeader) fun _ =>
    .bind (.lift fun _ => fst_pictureCodingExtension) fun _ => .bind (.lift fun _ => fst_extUser _ _) fun _ => simv_pictureStep
theorem simv_continueFrames (fuel : Nat) : SimV Points (hContinueFrames fuel) (continueFrames fuel) := by
  unfold hContinueFrames continueFrames
  exact .bind (.lift fun _ => fst_extUser _ _) fun _ => simv_moreFrames fuel
theorem simv_resume (fuel : Nat) : SimV Points (hResume fuel) (resume fuel) := by
  unfold hResume resume
  exact .bind (.lift fun _ => fst_lift _) fun v => .ite (simv_moreFrames fuel) (.ite
    (.bind (.lift fun _ => fst_lift _) fun _ => .throw _)
    (.bind (.lift fun _ => fst_sequenceHeader) fun _ => .bind (.lift fun _ => fst_sequenceExtension) fun _ => simv_continueFrames fuel))
theorem simv_start (fuel : Nat) : SimV Points (hStart fuel) (start fuel) := by
  unfold hStart start
  exact .bind (.lift fun _ => fst_lift _) fun _ => .bind (.lift fun _ => fst_sequenceHeader) fun _ =>
    .bind (.lift fun _ => fst_lift _) fun v => .bind .check fun _ => .bind (.lift fun _ => fst_sequenceExtension) fun _ =>
    simv_continueFrames fuel
theorem simv_step (fuel : Nat) : SimV Points (hStep fuel) (step fuel) := by
  intro h hi
  unfold hStep step
  rw [show h.toVS.sh = h.sh from rfl]
  split
  · exact simv_resume fuel h hi
  · exact simv_start fuel h hi

theorem simv_nextLoop (fuel : Nat) : ∀ k, SimV Points (hNextLoop fuel k) (nextLoop fuel k)
  | 0 => .hang
  | k + 1 => by
    intro h hi
    unfold hNextLoop nextLoop
    obtain ⟨e1, e2, e3, e4⟩ := simv_step fuel h hi
    cases hx : hStep fuel h with
    | mk r h' =>
      cases hy : step fuel h.toVS with
      | mk q s =>
        rw [hx, hy] at e1 e4
        rw [hx] at e2 e3
        have e1 : h'.toVS = s := e1
        subst e1
        cases r with
        | ok a =>
          cases q with
          | ok b =>
            rw [Go.bind_ok hx, Go.bind_ok hy, Go.bind_ok (Go.get_apply h'), Go.bind_ok (Go.get_apply h'.toVS)]
            rw [show h'.toVS.ph = h'.ph from rfl, show h'.toVS.frameCounter = h'.frameCounter from rfl]
            cases hph : h'.ph with
            | none => exact ⟨rfl, e2, e3, trivial⟩
            | some ph =>
              dsimp only
              split
              · rw [Go.bind_ok (Go.modify_apply ..), Go.bind_ok (Go.modify_apply ..)]
                exact ⟨rfl, e2, e3, e4⟩
              · obtain ⟨f1, f2, f3, f4⟩ := simv_nextLoop fuel k h' e2
                exact ⟨f1, f2, e3.trans f3, f4⟩
          | err e => exact e4.elim
          | panic => exact e4.elim
          | hang => exact e4.elim
        | err e =>
          cases q with
          | ok b => exact e4.elim
          | err e' => rw [Go.bind_err hx, Go.bind_err hy]; exact ⟨rfl, e2, e3, e4⟩
          | panic => exact e4.elim
          | hang => exact e4.elim
        | panic =>
          cases q with
          | panic => rw [Go.bind_panic hx, Go.bind_panic hy]; exact ⟨rfl, e2, e3, e4⟩
          | ok b => exact e4.elim
          | err e => exact e4.elim
          | hang => exact e4.elim
        | hang =>
          cases q with
          | hang => rw [Go.bind_hang hx, Go.bind_hang hy]; exact ⟨rfl, e2, e3, e4⟩
          | ok b => exact e4.elim
          | err e => exact e4.elim
          | panic => exact e4.elim

theorem simv_next (fuel k : Nat) : SimV Points (HVS.next fuel k) (VS.next fuel k) := by
  intro h hi
  unfold HVS.next VS.next
  have ht : h.toVS.fs.tryGet h.toVS.frameCounter = (h.fs.tryGet h.frameCounter).map h.mem := at_tryGet _ _ _
  rw [ht]
  cases hg : h.fs.tryGet h.frameCounter with
  | some a => exact ⟨rfl, hi, .refl _, below_tryGet hi hg, rfl⟩
  | none => exact simv_nextLoop fuel k h hi

end Mpeg.Video
namespace Mpeg.Video
open Spec

theorem simv_next_cases {fuel k : Nat} {h : HVS} (hi : h.Inv) : 
    (∃ a h', HVS.next fuel k h = (.ok a, h') ∧ VS.next fuel k h.toVS = (.ok (h'.mem a), h'.toVS) ∧ a < h'.free ∧ h'.Inv ∧ Old h h') ∨
    (∃ e h', HVS.next fuel k h = (.err e, h') ∧ VS.next fuel k h.toVS = (.err e, h'.toVS) ∧ h'.Inv ∧ Old h h') ∨
    (∃ h', HVS.next fuel k h = (.panic, h') ∧ VS.next fuel k h.toVS = (.panic, h'.toVS) ∧ h'.Inv ∧ Old h h') ∨
    (∃ h', HVS.next fuel k h = (.hang, h') ∧ VS.next fuel k h.toVS = (.hang, h'.toVS) ∧ h'.Inv ∧ Old h h') := by
  obtain ⟨e1, e2, e3, e4⟩ := simv_next fuel k h hi
  cases hx : HVS.next fuel k h with
  | mk r h' =>
    cases hy : VS.next fuel k h.toVS with
    | mk q s =>
      rw [hx, hy] at e1 e4
      rw [hx] at e2 e3
      have e1 : h'.toVS = s := e1
      subst e1
      cases r with
      | ok a =>
        cases q with
        | ok b =>
          obtain ⟨p1, p2⟩ : a < h'.free ∧ h'.mem a = b := e4
          subst p2
          exact .inl ⟨a, h', rfl, rfl, p1, e2, e3⟩
        | err e => exact e4.elim
        | panic => exact e4.elim
        | hang => exact e4.elim
      | err e =>
        cases q with
        | ok b => exact e4.elim
        | err e' =>
          have e4 : e = e' := e4
          subst e4
          exact .inr (.inl ⟨e, h', rfl, rfl, e2, e3⟩)
        | panic => exact e4.elim
        | hang => exact e4.elim
      | panic =>
        cases q with
        | panic => exact .inr (.inr (.inl ⟨h', rfl, rfl, e2, e3⟩))
        | ok b => exact e4.elim
        | err e => exact e4.elim
        | hang => exact e4.elim
      | hang =>
        cases q with
        | hang => exact .inr (.inr (.inr ⟨h', rfl, rfl, e2, e3⟩))
        | ok b => exact e4.elim
        | err e => exact e4.elim
        | panic => exact e4.elim

theorem inv_new (br : BR) : (HVS.new br).Inv :=
  ⟨fun r h => (by cases h), fun r h => (by cases h), fun r h => (by cases h), fun r h => (by cases h)⟩

theorem used_inv {h : HVS} (hu : HUsed h) : h.Inv := by
  induction hu with
  | new br => exact inv_new br
  | next fuel k _ hx ih =>
    have := (simv_next fuel k _ ih).2.1
    rw [hx] at this
    exact this
  | draw a f _ _ ih => exact ih

theorem pointers_outcomes (fuel k : Nat) : ∀ (n : Nat) (h : HVS), h.Inv →
    (pointers fuel k n h).1.map (look (pointers fuel k n h).2.mem) = outcomes fuel k n h.toVS ∧ Old h (pointers fuel k n h).2
  | 0, h, _ => ⟨rfl, .refl _⟩
  | n + 1, h, hi => by
    unfold pointers outcomes
    rcases simv_next_cases (fuel := fuel) (k := k) hi with ⟨a, h', hx, hy, h1, h2, h3⟩ | ⟨e, h', hx, hy, h2, h3⟩ | ⟨h', hx, hy, h2, h3⟩ | ⟨h', hx, hy, h2, h3⟩
    · rw [hx, hy]
      obtain ⟨g1, g2⟩ := pointers_outcomes fuel k n h' h2
      refine ⟨?_, h3.trans g2⟩
      dsimp only
      rw [List.map_cons, g1, look, g2.2 a h1]
    · rw [hx, hy]
      obtain ⟨g1, g2⟩ := pointers_outcomes fuel k n h' h2
      refine ⟨?_, h3.trans g2⟩
      dsimp only
      rw [List.map_cons, g1, look]
    · rw [hx, hy]; exact ⟨rfl, h3⟩
    · rw [hx, hy]; exact ⟨rfl, h3⟩

theorem toVS_draw {h : HVS} {a : Nat} (f : Frame) (hn : ¬ Held h a) : (draw h a f).toVS = h.toVS := by
  unfold Held at hn
  have n1 : ∀ r, (h.fs.f0 = some r ∨ h.fs.f1 = some r) → r.frame ≠ a := fun r hr e => hn (.inl ⟨r, hr, e⟩)
  have n2 : h.fs.past ≠ some a := fun e => hn (.inr (.inl e))
  have n3 : h.fs.future ≠ some a := fun e => hn (.inr (.inr e))
  have hr : ∀ o : Option HRef, (∀ r, o = some r → r.frame ≠ a) → o.map (HRef.at · (h.mem.write a f)) = o.map (HRef.at · h.mem) := by
    intro o ho
    cases o with
    | none => rfl
    | some r => simp only [Option.map_some, HRef.at, write_other _ _ (ho r rfl)]
  have ha : ∀ o : Option Nat, o ≠ some a → o.map (h.mem.write a f) = o.map h.mem := by
    intro o ho
    cases o with
    | none => rfl
    | some b => simp only [Option.map_some, write_other _ _ (fun e => ho (congrArg some e))]
  unfold HVS.toVS draw HStore.at
  simp only [hr _ fun r h => n1 r (.inl h), hr _ fun r h => n1 r (.inr h), ha _ n2, ha _ n3]

/-! ### pictures that are not references -/

/-- what holds of the result -/
def Post {α : Type} (Q : HVS → α → Prop) (m : Go HVS α) : Prop := ∀ h a h', h.Inv → m h = (.ok a, h') → Q h' a

theorem Post.bind {α β : Type} {Q : HVS → β → Prop} {x : Go HVS α} {y : Go VS α} {f : α → Go HVS β} (hx : SimE x y)
    (hf : ∀ a, Post Q (f a)) : Post Q (x >>= f) := by
  intro h b h' hi hb
  rw [Go.bind_apply] at hb
  have := (hx h hi).2.1
  cases hr : x h with
  | mk r h1 =>
    rw [hr] at hb this
    cases r with
    | ok a => exact hf a h1 b h' this hb
    | err e => cases hb
    | panic => cases hb
    | hang => cases hb

/-- not a reference, not held -/
def Loose (h : HVS) (a : Nat) : Prop :=
  ∀ ph, h.ph = some ph → ph.pictureCodingType ≠ iFrame → ph.pictureCodingType ≠ pFrame → ¬ Held h a

theorem pictureData_ok {h h' : HVS} {a : Nat} (hx : hPictureData h = (.ok a, h')) : a = h.free ∧ h'.fs = h.fs ∧ h'.ph = h.ph := by
  have hall : ∀ (a' : Option SequenceHeader) (b : Option SequenceExtension) (c : Option PictureHeader) (d : Option PictureCodingExtension)
      (X : SequenceHeader → SequenceExtension → PictureHeader → PictureCodingExtension → Res Nat × HVS),
      (∀ a' b c d, X a' b c d = (.ok a, h') → a = h.free ∧ h'.fs = h.fs ∧ h'.ph = h.ph) →
        (match a', b, c, d with
          | some a, some b, some c, some d => X a b c d
          | _, _, _, _ => (.panic, h)) = (.ok a, h') → a = h.free ∧ h'.fs = h.fs ∧ h'.ph = h.ph := by
    intro a' b c d X hX hx
    cases a' <;> cases b <;> cases c <;> cases d <;> first
      | exact hX _ _ _ _ hx
      | exact absurd (congrArg Prod.fst hx) (fun h => by cases h)
  refine hall h.sh h.se h.ph h.pce _ ?_ hx
  intro sh se ph pce hx
  dsimp only at hx
  split at hx <;> cases hx
  exact ⟨rfl, rfl, rfl⟩

theorem post_pictureStep : Post Loose hPictureStep := by
  intro h a h' hi hx
  unfold hPictureStep at hx
  rw [Go.bind_ok (Go.get_apply h)] at hx
  cases hph : h.ph with
  | none => rw [hph] at hx; cases hx
  | some ph =>
    rw [hph] at hx
    dsimp only at hx
    rw [Go.bind_ok (Go.modify_apply ..)] at hx
    rw [Go.bind_apply] at hx
    cases hy : hPictureData { h with fs := h.fs.set ph.temporalReference } with
    | mk r h1 =>
      rw [hy] at hx
      cases r with
      | err e => cases hx
      | panic => cases hx
      | hang => cases hx
      | ok b =>
        have hx : (do Go.modify _; pure b : Go HVS Nat) h1 = (.ok a, h') := hx
        rw [Go.bind_ok (Go.modify_apply ..), Go.pure_apply, Prod.mk.injEq] at hx
        obtain ⟨hx, rfl⟩ := hx
        cases hx
        obtain ⟨e1, e2, e3⟩ := pictureData_ok hy
        have e1 : a = h.free := e1
        have e2 : h1.fs = h.fs.set ph.temporalReference := e2
        have e3 : h1.ph = h.ph := e3
        intro q hq hI hP
        have hq' : ph = q := by
          have : some ph = some q := by
            rw [← hph, ← e3, ← hq]
            split <;> rfl
          exact Option.some.inj this
        subst hq'
        rw [if_neg (fun h => h.elim hI hP)]
        obtain ⟨b0, b1, b2, b3⟩ : HStore.Below h1.fs h.free := e2 ▸ below_set hi _
        rintro (⟨r, hr | hr, he⟩ | hr | hr)
        · have := b0 r hr; omega
        · have := b1 r hr; omega
        · have := b2 a hr; omega
        · have := b3 a hr; omega

theorem post_moreFrames (fuel : Nat) : Post Loose (hMoreFrames fuel) := by
  unfold hMoreFrames
  exact .bind (simv_groupHeader fuel) fun _ => .bind (SimV.lift fun _ => fst_pictureHeader) fun _ =>
    .bind (SimV.lift fun _ => fst_pictureCodingExtension) fun _ => .bind (SimV.lift fun _ => fst_extUser _ _) fun _ => post_pictureStep
theorem post_continueFrames (fuel : Nat) : Post Loose (hContinueFrames fuel) := by
  unfold hContinueFrames
  exact .bind (SimV.lift fun _ => fst_extUser _ _) fun _ => post_moreFrames fuel
theorem post_resume (fuel : Nat) : Post Loose (hResume fuel) := by
  unfold hResume
  refine .bind (SimV.lift fun _ => fst_lift _) fun v => ?_
  split
  · exact post_moreFrames fuel
  · split
    · exact .bind (SimV.lift fun _ => fst_lift _) fun _ => fun h a h' _ hx => by cases hx
    · exact .bind (SimV.lift fun _ => fst_sequenceHeader) fun _ => .bind (SimV.lift fun _ => fst_sequenceExtension) fun _ => post_continueFrames fuel
theorem post_start (fuel : Nat) : Post Loose (hStart fuel) := by
  unfold hStart
  exact .bind (SimV.lift fun _ => fst_lift _) fun _ => .bind (SimV.lift fun _ => fst_sequenceHeader) fun _ =>
    .bind (SimV.lift fun _ => fst_lift _) fun v => .bind .check fun _ => .bind (SimV.lift fun _ => fst_sequenceExtension) fun _ =>
    post_continueFrames fuel
theorem post_step (fuel : Nat) : Post Loose (hStep fuel) := by
  intro h a h' hi hx
  unfold hStep at hx
  split at hx
  · exact post_resume fuel h a h' hi hx
  · exact post_start fuel h a h' hi hx

theorem post_nextLoop (fuel : Nat) : ∀ k, Post Loose (hNextLoop fuel k)
  | 0 => fun h a h' _ hx => by cases hx
  | k + 1 => by
    intro h a h' hi hx
    unfold hNextLoop at hx
    rw [Go.bind_apply] at hx
    have hinv := (simv_step fuel h hi).2.1
    cases hs : hStep fuel h with
    | mk r h1 =>
      rw [hs] at hx hinv
      cases r with
      | err e => cases hx
      | panic => cases hx
      | hang => cases hx
      | ok b =>
        have hl := post_step fuel h b h1 hi hs
        have hx : (do
          let h ← Go.get
          match h.ph with
          | none => Go.panic
          | some ph =>
            if ph.temporalReference = h.frameCounter then do
              Go.modify HVS.count
              pure b
            else hNextLoop fuel k : Go HVS Nat) h1 = (.ok a, h') := hx
        rw [Go.bind_ok (Go.get_apply h1)] at hx
        cases hph : h1.ph with
        | none => rw [hph] at hx; cases hx
        | some ph =>
          rw [hph] at hx
          dsimp only at hx
          split at hx
          · rw [Go.bind_ok (Go.modify_apply ..), Go.pure_apply, Prod.mk.injEq] at hx
            obtain ⟨hz, rfl⟩ := hx
            have hz : b = a := by injection hz
            subst hz
            exact hl
          · exact post_nextLoop fuel k h1 a h' hinv hx

end Mpeg.Video
