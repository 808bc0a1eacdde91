/-
What macroblocks keep: the range of the vectors.
-/
import Verif.Video.MbLemmas
namespace Mpeg.Video
open Spec

/-- `m` keeps `P`, whatever its outcome. -/
def Keeps {σ α : Type} (P : σ → Prop) (m : Go σ α) : Prop := ∀ s, P s → P (m s).2

theorem keeps_pure {σ α : Type} {P : σ → Prop} (a : α) : Keeps P (pure a : Go σ α) := fun _ h => h
theorem keeps_panic {σ α : Type} {P : σ → Prop} : Keeps P (Go.panic : Go σ α) := fun _ h => h
theorem keeps_hang {σ α : Type} {P : σ → Prop} : Keeps P (Go.hang : Go σ α) := fun _ h => h
theorem keeps_throw {σ α : Type} {P : σ → Prop} (x : Err) : Keeps P (Go.throw x : Go σ α) := fun _ h => h
theorem keeps_get {σ : Type} {P : σ → Prop} : Keeps P (Go.get : Go σ σ) := fun _ h => h
theorem keeps_modify {σ : Type} {P : σ → Prop} {f : σ → σ} (h : ∀ s, P s → P (f s)) : Keeps P (Go.modify f) := h
theorem keeps_check {σ : Type} {P : σ → Prop} (c : Bool) (x : Err) : Keeps P (Go.check c x : Go σ Unit) := by
  unfold Go.check; split
  · exact keeps_pure _
  · exact keeps_throw _
theorem keeps_bind {σ α β : Type} {P : σ → Prop} {m : Go σ α} {f : α → Go σ β} (h1 : Keeps P m)
    (h2 : ∀ a, Keeps P (f a)) : Keeps P (m >>= f) := by
  intro s hs
  have := h1 s hs
  rw [Go.bind_apply]
  rcases hm : m s with ⟨r, s'⟩
  rw [hm] at this
  cases r with
  | ok a => exact h2 a _ this
  | err x => exact this
  | panic => exact this
  | hang => exact this
/-- the continuation may use what a successful first part returns -/
theorem keeps_bind_of {σ α β : Type} {P : σ → Prop} {m : Go σ α} {f : α → Go σ β} (Q : α → Prop) (h1 : Keeps P m)
    (hq : ∀ s a s', m s = (.ok a, s') → Q a) (h2 : ∀ a, Q a → Keeps P (f a)) : Keeps P (m >>= f) := by
  intro s hs
  have := h1 s hs
  rw [Go.bind_apply]
  rcases hm : m s with ⟨r, s'⟩
  rw [hm] at this
  cases r with
  | ok a => exact h2 a (hq _ _ _ hm) _ this
  | err x => exact this
  | panic => exact this
  | hang => exact this
theorem keeps_opt {σ α : Type} {P : σ → Prop} {c : Bool} {d : α} {m : Go σ α} (h : Keeps P m) :
    Keeps P (Go.opt c d m) := by
  unfold Go.opt; split
  · exact h
  · exact keeps_pure _
theorem keeps_ite {σ α : Type} {P : σ → Prop} {c : Prop} [Decidable c] {m n : Go σ α} (h1 : Keeps P m)
    (h2 : Keeps P n) : Keeps P (if c then m else n) := by
  split <;> assumption
theorem keeps_orPanic {σ α : Type} {P : σ → Prop} (o : Option α) : Keeps P (orPanic o : Go σ α) := by
  cases o
  · exact keeps_panic
  · exact keeps_pure _

/-- A predicate on the vectors alone. -/
def OnMvd (P : MVD → Prop) (s : MB) : Prop := P s.mvd

theorem keeps_lift {α : Type} {P : MVD → Prop} (m : Go BR α) : Keeps (OnMvd P) (MB.lift m) := fun _ h => h

theorem keeps_copySkipped {P : MVD → Prop} (e : PicEnv) (row : Nat) (addr : Option Nat) (incr : Nat) :
    Keeps (OnMvd P) (copySkipped e row addr incr) := by
  intro s h
  unfold copySkipped
  cases addr with
  | none => exact h
  | some a =>
    dsimp only
    split
    · split
      · refine keeps_bind (P := OnMvd P) (keeps_orPanic _) (fun f => keeps_modify ?_) s h; exact fun _ h => h
      · split
        · refine keeps_bind (P := OnMvd P) (keeps_orPanic _) (fun f => keeps_modify ?_) s h; exact fun _ h => h
        · exact h
    · exact h

theorem keeps_mbBlock {P : MVD → Prop} (e : PicEnv) (intra coded : Bool) (i : Nat) (b : Block) :
    Keeps (OnMvd P) (mbBlock e intra coded i b) := by
  intro s h
  unfold mbBlock
  split
  · split <;> exact h
  · exact h

theorem keeps_mbBlocks {P : MVD → Prop} (e : PicEnv) (intra dctType : Bool) (coded : Nat → Bool) (addr row : Nat) :
    ∀ k i b, Keeps (OnMvd P) (mbBlocks e intra dctType coded addr row k i b) := by
  intro k
  induction k with
  | zero => intro i b; exact keeps_pure _
  | succ k ih =>
    intro i b
    unfold mbBlocks
    refine keeps_bind (keeps_mbBlock _ _ _ _ _) fun b' => keeps_bind keeps_get fun s => ?_
    exact keeps_bind (keeps_orPanic _) fun f => keeps_bind (keeps_modify fun _ h => h) fun _ => ih _ _

theorem keeps_mbFinish {P : MVD → Prop} (e : PicEnv) (row a : Nat) (m : Mode) (cbp : Nat) :
    Keeps (OnMvd P) (mbFinish e row a m cbp) := by
  unfold mbFinish
  exact keeps_bind (keeps_mbBlocks _ _ _ _ _ _ _ _ _) fun _ => keeps_pure _

theorem keeps_mbPattern {P : MVD → Prop} (e : PicEnv) (row a : Nat) (m : Mode) :
    Keeps (OnMvd P) (mbPattern e row a m) := by
  unfold mbPattern
  refine keeps_ite (fun s h => ?_) (keeps_mbFinish _ _ _ _ _)
  have h' := keeps_lift (P := P) (codedBlockPattern e.se.chromaFormat) s h
  unfold mbCoded
  rcases hr : MB.lift (codedBlockPattern e.se.chromaFormat) s with ⟨r, s'⟩
  rw [hr] at h'
  cases r with
  | ok cbp => exact keeps_mbFinish _ _ _ _ _ _ h'
  | err x => exact h'
  | panic => exact h'
  | hang => exact h'

/-! ### the range of the vectors -/

/-- All vectors are legal; the predictions are, too, except that a prediction updated in field format may be twice a
legal vector. -/
def VecInv (e : PicEnv) (d : MVD) : Prop :=
  ∀ r s t, s < 2 → t < 2 → mvLegal (e.pce.fCode s t) (d.act r s t) ∧
    -32 * (mvScale (e.pce.fCode s t) : Int) ≤ d.pred r s t ∧
    d.pred r s t ≤ 32 * (mvScale (e.pce.fCode s t) : Int) - 2 ∧
    (e.pce.framePredFrameDCT = 1 → mvLegal (e.pce.fCode s t) (d.pred r s t))

/-- Every `f_code` in use is one of 1..15. -/
def FCodes (e : PicEnv) : Prop := ∀ s t, s < 2 → t < 2 → 1 ≤ e.pce.fCode s t ∧ e.pce.fCode s t ≤ 15

theorem vecInv_zero {e : PicEnv} {fwd bwd : Bool} : VecInv e ⟨fun _ _ _ => 0, fun _ _ _ => 0, fwd, bwd⟩ := by
  intro r s t _ _
  have := mvScale_pos (e.pce.fCode s t)
  unfold mvLegal
  refine ⟨⟨?_, ?_⟩, ?_, ?_, fun _ => ⟨?_, ?_⟩⟩ <;> dsimp only <;> omega

theorem vecInv_update {e : PicEnv} (he : FCodes e) {d : MVD} (h : VecInv e d) {r s t : Nat} (hs : s < 2) (ht : t < 2)
    {code : Int} {residual : Nat} (hc : code.natAbs ≤ 16) (hr : residual < mvScale (e.pce.fCode s t)) (field : Bool)
    (hf : field = true → e.pce.framePredFrameDCT ≠ 1) :
    VecInv e (d.update r s t (e.pce.fCode s t) e.pce.pictureStructure field code residual) := by
  obtain ⟨h1, h2⟩ := he s t hs ht
  obtain ⟨_, p1, p2, p3⟩ := h r s t hs ht
  have hp := mvScale_pos (e.pce.fCode s t)
  have hd := mvDelta_range (f := (mvScale (e.pce.fCode s t) : Int)) (by omega) hc (by exact_mod_cast hr)
  unfold MVD.update
  rw [fScale_eq h1 h2]
  dsimp only
  generalize hh : (field && t == 1 && e.pce.pictureStructure == framePicture) = halve
  generalize mvDelta (mvScale (e.pce.fCode s t)) code residual = dl at hd ⊢
  intro r' s' t' hs' ht'
  have h' := h r' s' t' hs' ht'
  by_cases heq : r' = r ∧ s' = s ∧ t' = t
  · obtain ⟨rfl, rfl, rfl⟩ := heq
    dsimp only [upd3]
    simp only [and_self, ↓reduceIte]
    cases halve with
    | true =>
      have := mvWrap_range (f := (mvScale (e.pce.fCode s' t') : Int)) (v := d.pred r' s' t' / 2 + dl) (by omega)
        (by omega)
      simp only [↓reduceIte]
      refine ⟨⟨by omega, by omega⟩, by omega, by omega, fun h3 => absurd h3 (hf ?_)⟩
      simp only [Bool.and_eq_true] at hh
      exact hh.1.1
    | false =>
      have := mvWrap_range (f := (mvScale (e.pce.fCode s' t') : Int)) (v := d.pred r' s' t' + dl) (by omega)
        (by omega)
      simp only [Bool.false_eq_true, ↓reduceIte]
      refine ⟨⟨by omega, by omega⟩, by omega, by omega, fun _ => ⟨by omega, by omega⟩⟩
  · dsimp only [upd3]
    simp only [heq, ↓reduceIte]
    exact h'

theorem vecInv_setFormed {e : PicEnv} {d : MVD} (h : VecInv e d) (t : MacroblockType) (pct : Nat) :
    VecInv e (d.setFormed t pct) := by
  unfold MVD.setFormed
  repeat' split
  all_goals exact h

theorem keeps_motionVectorPart {e : PicEnv} (he : FCodes e) (info : MvInfo)
    (hi : info.field = true → e.pce.framePredFrameDCT ≠ 1) (r : Nat) {s t : Nat} (hs : s < 2) (ht : t < 2) :
    Keeps (OnMvd (VecInv e)) (motionVectorPart e info r s t) := by
  unfold motionVectorPart
  refine keeps_bind_of (fun c => c.1.natAbs ≤ 16 ∧ c.2 < mvScale (e.pce.fCode s t)) (keeps_lift _) ?_ fun c hc => ?_
  · intro st a st' h
    obtain ⟨h1, h2⟩ := he s t hs ht
    have hh : ((readMotion (e.pce.fCode s t)) st.br).1 = .ok a := congrArg Prod.fst h
    exact readMotion_range h1 h2 (Prod.ext hh rfl)
  · refine keeps_ite keeps_panic (keeps_modify fun st h => ?_)
    exact vecInv_update he h hs ht hc.1 hc.2 _ hi

theorem mvInfo_field {fpfd : Nat} {m : Mode} {info : MvInfo} (h : mvInfo fpfd m = some info)
    (hf : info.field = true) : fpfd ≠ 1 := by
  intro h1
  unfold mvInfo at h
  rw [if_pos h1] at h
  cases h
  cases hf

theorem keeps_motionVectors {e : PicEnv} (he : FCodes e) {s : Nat} (hs : s < 2) (m : Mode) :
    Keeps (OnMvd (VecInv e)) (motionVectors e s m) := by
  unfold motionVectors
  have hp : ∀ info, mvInfo e.pce.framePredFrameDCT m = some info → ∀ r, Keeps (OnMvd (VecInv e)) (motionVector e info r s) := by
    intro info hi r
    unfold motionVector
    exact keeps_bind (keeps_motionVectorPart he _ (mvInfo_field hi) _ hs (by omega)) fun _ =>
      keeps_motionVectorPart he _ (mvInfo_field hi) _ hs (by omega)
  refine keeps_bind_of (fun info => mvInfo e.pce.framePredFrameDCT m = some info) (keeps_orPanic _) ?_ fun info hi => ?_
  · intro st a st' h
    cases ho : mvInfo e.pce.framePredFrameDCT m with
    | none => rw [ho] at h; cases h
    | some x => rw [ho] at h; cases h; rfl
  · have := hp info hi
    refine keeps_ite ?_ ?_
    · exact keeps_bind (keeps_opt (keeps_lift _)) fun _ => this _
    · exact keeps_bind (keeps_lift _) fun _ => keeps_bind (this _) fun _ => keeps_bind (keeps_lift _) fun _ => this _

theorem keeps_mbVectors {e : PicEnv} (he : FCodes e) (m : Mode) : Keeps (OnMvd (VecInv e)) (mbVectors e m) := by
  unfold mbVectors
  refine keeps_bind (keeps_opt (keeps_bind (keeps_lift _) fun q => keeps_modify fun _ h => h)) fun _ => ?_
  refine keeps_bind (keeps_opt (keeps_motionVectors he (by omega) m)) fun _ => ?_
  refine keeps_bind (keeps_opt (keeps_motionVectors he (by omega) m)) fun _ => ?_
  refine keeps_bind (keeps_modify fun _ h => vecInv_setFormed h _ _) fun _ => ?_
  exact keeps_opt (keeps_lift _)

theorem keeps_macroblock {e : PicEnv} (he : FCodes e) (row : Nat) (addr : Option Nat) :
    Keeps (OnMvd (VecInv e)) (macroblock e row addr) := by
  unfold macroblock
  refine keeps_bind (keeps_lift _) fun incr => keeps_bind (keeps_copySkipped _ _ _ _) fun _ => ?_
  refine keeps_bind (keeps_modify fun s h => ?_) fun _ => ?_
  · show VecInv e (if e.ph.pictureCodingType = pFrame ∧ 1 < incr then s.mvd.reset else s.mvd)
    split
    · exact vecInv_zero
    · exact h
  refine keeps_bind (keeps_lift _) fun m => keeps_bind (keeps_modify fun s h => ?_) fun _ => ?_
  · show VecInv e (ite _ s.mvd.reset s.mvd)
    split
    · exact vecInv_zero
    · exact h
  exact keeps_bind (keeps_mbVectors he m) fun _ => keeps_mbPattern _ _ _ _

theorem keeps_mbLoop {e : PicEnv} (he : FCodes e) (row : Nat) : ∀ fuel addr,
    Keeps (OnMvd (VecInv e)) (mbLoop e row fuel addr) := by
  intro fuel
  induction fuel with
  | zero => intro addr; exact keeps_hang
  | succ fuel ih =>
    intro addr
    unfold mbLoop
    exact keeps_bind (keeps_macroblock he _ _) fun a => keeps_bind (keeps_lift _) fun v =>
      keeps_ite (keeps_pure _) (ih _)

theorem keeps_slice {e : PicEnv} (he : FCodes e) : Keeps (OnMvd (VecInv e)) (slice e) := by
  unfold slice
  refine keeps_bind (keeps_lift _) fun code => keeps_bind (keeps_check _ _) fun _ => ?_
  refine keeps_bind keeps_get fun s => keeps_ite keeps_panic ?_
  refine keeps_bind (keeps_lift _) fun q => keeps_bind (keeps_modify fun _ _ => vecInv_zero) fun _ => ?_
  exact keeps_bind (fun s h => keeps_mbLoop he _ _ _ s h) fun _ => keeps_lift _

theorem keeps_sliceLoop {e : PicEnv} (he : FCodes e) : ∀ fuel, Keeps (OnMvd (VecInv e)) (sliceLoop e fuel) := by
  intro fuel
  induction fuel with
  | zero => exact keeps_hang
  | succ fuel ih =>
    unfold sliceLoop
    exact keeps_bind (keeps_slice he) fun _ => keeps_bind (keeps_lift _) fun v => keeps_ite ih (keeps_pure _)

end Mpeg.Video
