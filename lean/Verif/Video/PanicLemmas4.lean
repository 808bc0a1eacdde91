/-
Panics of macroblocks.
-/
import Verif.Video.PanicLemmas3
set_option linter.all false
namespace Mpeg.Video
open Spec
open _root_.Mpeg.BR (Took)

/-! ### vectors -/

theorem safe_part {e : PicEnv} {info : MvInfo} (h : info.dmv = false) (r s t : Nat) : Go.Safe (motionVectorPart e info r s t) := by
  unfold motionVectorPart
  rw [h]
  exact .bind (safe_mlift safe_motion) fun _ => .modify _

theorem safe_vector {e : PicEnv} {info : MvInfo} (h : info.dmv = false) (r s : Nat) : Go.Safe (motionVector e info r s) :=
  .bind (safe_part h r s 0) fun _ => safe_part h r s 1

/-- Vectors on which the decoder panics. -/
def VecFault (e : PicEnv) (s : Nat) (m : Mode) (l : List Bool) : Prop :=
  match mvInfo e.pce.framePredFrameDCT m with
  | none => l = []
  | some info => info.dmv = true ∧ PartWord (e.pce.fCode s 0) l

theorem mvInfo_count {f : Nat} {m : Mode} {info : MvInfo} (h : mvInfo f m = some info) (hd : info.dmv = true) : info.count = 1 := by
  unfold mvInfo at h
  repeat' split at h
  all_goals first | (cases h; first | rfl | cases hd) | cases h

theorem vectors_eq {e : PicEnv} {s : Nat} {m : Mode} {info : MvInfo} (h : mvInfo e.pce.framePredFrameDCT m = some info) :
    motionVectors e s m = (if info.count = 1 then do
      let _ ← Go.opt (info.field && !info.dmv) 0 (MB.lift (BR.read 1))
      motionVector e info 0 s
    else do
      let _ ← MB.lift (BR.read 1)
      motionVector e info 0 s
      let _ ← MB.lift (BR.read 1)
      motionVector e info 1 s) := by
  unfold motionVectors
  rw [h]
  rfl

theorem vectors_dmv {e : PicEnv} {s : Nat} {m : Mode} {info : MvInfo} (h : mvInfo e.pce.framePredFrameDCT m = some info)
    (hd : info.dmv = true) : motionVectors e s m = MB.lift (readMotion (e.pce.fCode s 0)) >>= fun _ => Go.panic := by
  rw [vectors_eq h, if_pos (mvInfo_count h hd), hd]
  unfold motionVector motionVectorPart
  rw [hd]
  simp only [Bool.not_true, Bool.and_false, Go.opt, Bool.false_eq_true, ↓reduceIte, pure_bind, bind_assoc]
  rfl

theorem vectors_safe {e : PicEnv} {s : Nat} {m : Mode} {info : MvInfo} (h : mvInfo e.pce.framePredFrameDCT m = some info)
    (hd : info.dmv = false) : Go.Safe (motionVectors e s m) := by
  rw [vectors_eq h]
  split
  · exact .bind (.opt (safe_mlift (BR.safe_read 1))) fun _ => safe_vector hd _ _
  · exact .bind (safe_mlift (BR.safe_read 1)) fun _ => .bind (safe_vector hd _ _) fun _ =>
      .bind (safe_mlift (BR.safe_read 1)) fun _ => safe_vector hd _ _

theorem traps_vectors {e : PicEnv} (he : Plain e) {s : Nat} (hs : s < 2) (m : Mode) (I : MB → Prop) :
    Traps MB.br (motionVectors e s m) I (VecFault e s m) (fun _ => False) := by
  unfold VecFault
  cases h : mvInfo e.pce.framePredFrameDCT m with
  | none =>
    have : motionVectors e s m = Go.panic := by unfold motionVectors; rw [h]; rfl
    rw [this]
    exact ⟨fun st _ _ => ⟨[], _, rfl, .inl rfl⟩, fun _ _ _ _ _ _ _ => rfl⟩
  | some info =>
    cases hd : info.dmv with
    | true =>
      rw [vectors_dmv h hd]
      have rd := (reads_motion (he.codes s hs 0 (by decide)).1 (he.codes s hs 0 (by decide)).2).lift
      constructor
      · intro st _ hp
        rcases Traps.bind_panic_inv hp with hp | ⟨a, st', hr, -⟩
        · exact absurd hp (safe_mlift safe_motion st).1
        · obtain ⟨l, hl, t⟩ := rd.bwd _ _ _ hr
          exact ⟨l, _, t.bits, .inl ⟨hd, hl⟩⟩
      · rintro l st r _ ⟨-, hl⟩ hb hr
        rcases rd.fwd l () st r hl hb hr with hp | ⟨a, st', h1, -, t⟩
        · exact Reads.bind_panic' hp
        · rw [Go.bind_ok h1]; rfl
    | false =>
      refine (Traps.safe (vectors_safe h hd)).congr (fun l => ?_) (fun l h => h.elim)
      constructor
      · exact False.elim
      · rintro ⟨h1, -⟩; rw [hd] at h1; cases h1

theorem vectors_ok {e : PicEnv} {s : Nat} {m : Mode} {st st' : MB} {u : Unit} (h : motionVectors e s m st = (.ok u, st'))
    (s' : Nat) (l : List Bool) : ¬ VecFault e s' m l := by
  unfold VecFault
  cases hm : mvInfo e.pce.framePredFrameDCT m with
  | none =>
    have : motionVectors e s m = Go.panic := by unfold motionVectors; rw [hm]; rfl
    rw [this] at h
    cases h
  | some info =>
    rintro ⟨hd, -⟩
    rw [vectors_dmv hm hd] at h
    obtain ⟨_, _, _, h⟩ := Go.bind_eq_ok h
    cases h

theorem opt_true_eq {σ α : Type} {d : α} {m : Go σ α} : Go.opt true d m = m := rfl
theorem opt_false_eq {σ α : Type} {d : α} {m : Go σ α} : Go.opt false d m = pure d := rfl

/-- What happens in the vectors of a macroblock. -/
def VecsFault (e : PicEnv) (m : Mode) (l : List Bool) : Prop :=
  (m.type.forward || m.type.backward || conceals e m.type) = true ∧
    VecFault e (if m.type.forward || conceals e m.type then 0 else 1) m l

theorem traps_vecs {e : PicEnv} (he : Plain e) (m : Mode) (I : MB → Prop) :
    Traps MB.br (mbVecs e m) I (VecsFault e m) (fun _ => False) := by
  have tail : Go.Safe (do
      Go.modify fun s => { s with mvd := s.mvd.setFormed m.type e.ph.pictureCodingType }
      Go.opt (m.type.intra && e.pce.concealmentMotionVectors) () (MB.lift markerBit) : Go MB Unit) :=
    .bind (.modify _) fun _ => .opt (safe_mlift safe_markerBit)
  unfold mbVecs VecsFault conceals
  cases hc : m.type.forward || (m.type.intra && e.pce.concealmentMotionVectors) with
  | true =>
    rw [opt_true_eq]
    have hv : (m.type.forward || m.type.backward || (m.type.intra && e.pce.concealmentMotionVectors)) = true := by
      revert hc; cases m.type.forward <;> cases m.type.backward <;> simp
    rw [hv, if_pos rfl]
    constructor
    · intro s hs h
      rcases Traps.bind_panic_inv h with h | ⟨u, s', h1, h⟩
      · obtain ⟨l, r, hb, hl⟩ := (traps_vectors he (by decide : 0 < 2) m I).only s hs h
        exact ⟨l, r, hb, hl.imp (fun h => ⟨rfl, h⟩) id⟩
      · exfalso
        rcases Traps.bind_panic_inv h with h | ⟨u, s'', h2, h⟩
        · cases hb : m.type.backward with
          | true =>
            rw [hb] at h
            obtain ⟨l, r, hb, hl⟩ := (traps_vectors he (by decide : 1 < 2) m (fun _ => True)).only s' trivial h
            exact vectors_ok h1 1 l (hl.elim id False.elim)
          | false => rw [hb] at h; cases h
        · exact (tail s'').1 h
    · rintro l s r hs ⟨-, hl⟩ hb hr
      exact Reads.bind_panic' ((traps_vectors he (by decide : 0 < 2) m I).sure l s r hs hl hb hr)
  | false =>
    rw [opt_false_eq, pure_bind, if_neg (by decide)]
    have hv : (m.type.forward || m.type.backward || (m.type.intra && e.pce.concealmentMotionVectors)) = m.type.backward := by
      revert hc; cases m.type.forward <;> cases m.type.backward <;> simp
    rw [hv]
    cases hb : m.type.backward with
    | true =>
      rw [opt_true_eq]
      constructor
      · intro s hs h
        rcases Traps.bind_panic_inv h with h | ⟨u, s', h1, h⟩
        · obtain ⟨l, r, hb, hl⟩ := (traps_vectors he (by decide : 1 < 2) m I).only s hs h
          exact ⟨l, r, hb, hl.imp (fun h => ⟨rfl, h⟩) id⟩
        · exact absurd h (tail s').1
      · rintro l s r hs ⟨-, hl⟩ hb hr
        exact Reads.bind_panic' ((traps_vectors he (by decide : 1 < 2) m I).sure l s r hs hl hb hr)
    | false =>
      rw [opt_false_eq, pure_bind]
      exact (Traps.safe tail).congr (fun l => ⟨False.elim, fun h => by cases h.1⟩) fun l h => h.elim

/-- The vectors and the syntax. -/
theorem vecsFault_iff {e : PicEnv} (he : Plain e) {l1 l2 : List Bool} {n : Nat} {m : Mode} {motion : List Bool}
    (hs : HeadStart e m.type n m.dctType motion l1)
    (h4 : m.frameMotion = if e.pce.pictureStructure = 3 then natOfBits motion else 0)
    (h5 : m.fieldMotion = if e.pce.pictureStructure = 3 then 0 else natOfBits motion) :
    VecsFault e m l2 ↔
      ((m.type.forward || m.type.backward || conceals e m.type) = true ∧ e.pce.framePredFrameDCT = 0 ∧ natOfBits motion = 0 ∧
        l2 = []) ∨
      (natOfBits motion = 3 ∧ PartWord (e.pce.fCode (if m.type.forward || conceals e m.type then 0 else 1) 0) l2) := by
  have hl : motion.length = if (m.type.forward || m.type.backward) && motionCoded e then 2 else 0 := by
    cases hs with | mk k v c type dct q hn hc h1 h2 h3 h6 hq => exact h2
  unfold VecsFault VecFault
  have lt : natOfBits motion < 4 := by
    have := natOfBits_lt motion
    have h : motion.length ≤ 2 := by rw [hl]; split <;> omega
    exact Nat.lt_of_lt_of_le this (Nat.pow_le_pow_right (by decide) h : 2 ^ motion.length ≤ 2 ^ 2)
  have vec3 : natOfBits motion = 3 → (m.type.forward || m.type.backward || conceals e m.type) = true ∧
      e.pce.framePredFrameDCT = 0 := by
    intro h3
    have ne : motion ≠ [] := by rintro rfl; cases h3
    have hlen : motion.length ≠ 0 := fun h => ne (List.length_eq_zero_iff.mp h)
    split at hl
    · rename_i hc
      rw [Bool.and_eq_true] at hc
      refine ⟨by rw [hc.1]; rfl, ?_⟩
      rcases he.fpfd with h | ⟨h, h'⟩
      · exact h
      · have := hc.2
        unfold motionCoded at this
        rw [h, h'] at this
        cases this
    · exact absurd hl hlen
  rcases he.fpfd with h0 | ⟨h0, h3⟩
  · unfold mvInfo
    rw [if_neg (by omega)]
    rw [h4, h5]
    generalize natOfBits motion = x at *
    have hx : x = 0 ∨ x = 1 ∨ x = 2 ∨ x = 3 := by omega
    by_cases hp : e.pce.pictureStructure = 3
    · simp only [if_pos hp]
      rcases hx with rfl | rfl | rfl | rfl
      · simp [h0]
      · simp
      · simp
      · simp [(vec3 rfl).1]
    · simp only [if_neg hp]
      rcases hx with rfl | rfl | rfl | rfl
      · simp [h0]
      · simp
      · simp
      · simp [(vec3 rfl).1]
  · unfold mvInfo
    rw [if_pos h0]
    have n3 : natOfBits motion ≠ 3 := fun h => by have := (vec3 h).2; omega
    simp [h0, n3]

/-- The faults of macroblocks before their blocks. -/
inductive HeadFault (e : PicEnv) (W H row : Nat) (addr : Option Nat) : List Bool → Prop
  | start (l : List Bool) (h : StartFault e W H row addr l) : HeadFault e W H row addr l
  | noMotion (t : MacroblockType) (n : Nat) (field : Bool) (motion l : List Bool) (h : HeadStart e t n field motion l)
      (hv : (t.forward || t.backward || conceals e t) = true) (hp : e.pce.framePredFrameDCT = 0) (hm : natOfBits motion = 0) :
      HeadFault e W H row addr l
  | dualPrime (t : MacroblockType) (n : Nat) (field : Bool) (motion l x : List Bool) (h : HeadStart e t n field motion l)
      (hm : natOfBits motion = 3) (hx : PartWord (e.pce.fCode (if t.forward || conceals e t then 0 else 1) 0) x) :
      HeadFault e W H row addr (l ++ x)

theorem traps_head {e : PicEnv} (he : Plain e) {W H row : Nat} {addr : Option Nat} (hp : PastOK e W H) :
    Traps MB.br (mbHead e row addr) (fun s => Geometry s.frame W H) (HeadFault e W H row addr) (StartRisk e addr) := by
  rw [mbHead_split]
  refine (Traps.bind (J := fun _ _ => True) (F2 := fun x l => VecsFault e x.2 l) (G2 := fun _ _ => False) (reads_start e row addr)
    (traps_start hp) (fun _ _ _ _ _ => trivial) fun x hx => traps_pure (traps_vecs he x.2 _)).congr (fun l => ?_) (fun l => ?_)
  · constructor
    · rintro (h | ⟨l1, l2, x, rfl, ⟨motion, hs, h4, h5⟩, h⟩)
      · exact .start l h
      · rcases (vecsFault_iff he hs h4 h5).1 h with ⟨hv, hf, hm, rfl⟩ | ⟨hm, hx⟩
        · rw [List.append_nil]
          exact .noMotion _ _ _ _ l1 hs hv hf hm
        · exact .dualPrime _ _ _ _ l1 l2 hs hm hx
    · intro h
      cases h with
      | start _ h => exact .inl h
      | noMotion t n field motion _ hs hv hf hm =>
        exact .inr ⟨l, [], (n, ⟨t, _, _, field⟩), by simp, ⟨motion, hs, rfl, rfl⟩,
          (vecsFault_iff (m := ⟨t, _, _, field⟩) he hs rfl rfl).2 (.inl ⟨hv, hf, hm, rfl⟩)⟩
      | dualPrime t n field motion l1 l2 hs hm hx =>
        exact .inr ⟨l1, l2, (n, ⟨t, _, _, field⟩), rfl, ⟨motion, hs, rfl, rfl⟩,
          (vecsFault_iff (m := ⟨t, _, _, field⟩) he hs rfl rfl).2 (.inr ⟨hm, hx⟩)⟩
  · rintro (h | ⟨_, _, _, _, _, h⟩)
    · exact .inr h
    · exact h.elim

/-! ### the state after the head -/

/-- The vectors after the head. -/
def MvdOK (e : PicEnv) (t : MacroblockType) (d : MVD) : Prop :=
  (t.intra = true → d.fwd = false ∧ d.bwd = false) ∧
  (e.ph.pictureCodingType = 2 → t.intra = false → t.forward = false → t.backward = false →
    d.act 0 0 0 = 0 ∧ d.act 0 0 1 = 0 ∧ d.bwd = false)

theorem lift_mvd {α : Type} {m : Go BR α} {s s' : MB} {a : α} (h : MB.lift m s = (.ok a, s')) : s'.mvd = s.mvd := by
  unfold MB.lift at h
  rw [Prod.mk.injEq] at h
  rw [← h.2]

theorem head_mvd {e : PicEnv} {row : Nat} {addr : Option Nat} {s s' : MB} {x : Nat × Mode}
    (h : mbHead e row addr s = (.ok x, s')) : MvdOK e x.2.type s'.mvd := by
  unfold mbHead at h
  obtain ⟨incr, s1, -, h⟩ := Go.bind_eq_ok h
  obtain ⟨u, s2, -, h⟩ := Go.bind_eq_ok h
  obtain ⟨u, s3, -, h⟩ := Go.bind_eq_ok h
  obtain ⟨m, s4, -, h⟩ := Go.bind_eq_ok h
  obtain ⟨u, s5, h5, h⟩ := Go.bind_eq_ok h
  obtain ⟨u, s6, h6, h⟩ := Go.bind_eq_ok h
  have hx : (incr, m) = x ∧ s6 = s' := by cases h; exact ⟨rfl, rfl⟩
  obtain ⟨rfl, rfl⟩ := hx
  unfold mbVectors at h6
  obtain ⟨u, s7, h7, h6⟩ := Go.bind_eq_ok h6
  obtain ⟨u, s8, h8, h6⟩ := Go.bind_eq_ok h6
  obtain ⟨u, s9, h9, h6⟩ := Go.bind_eq_ok h6
  obtain ⟨u, s10, h10, h11⟩ := Go.bind_eq_ok h6
  have e10 : s10.mvd = s9.mvd.setFormed m.type e.ph.pictureCodingType := by cases h10; rfl
  have e11 : s6.mvd = s10.mvd := by
    cases hc : m.type.intra && e.pce.concealmentMotionVectors with
    | true => rw [hc] at h11; exact lift_mvd h11
    | false => rw [hc] at h11; cases h11; rfl
  rw [e11, e10]
  constructor
  · intro hi
    have hi : m.type.intra = true := hi
    unfold MVD.setFormed
    rw [if_pos hi]
    exact ⟨rfl, rfl⟩
  · intro hp hi hf hb
    have hi : m.type.intra = false := hi
    have hf : m.type.forward = false := hf
    have hb : m.type.backward = false := hb
    have e9 : s9 = s8 := by rw [hb] at h9; cases h9; rfl
    have e8 : s8 = s7 := by rw [hf, hi] at h8; cases h8; rfl
    have e7 : s7.mvd = s5.mvd := by
      cases hq : m.type.quant with
      | true =>
        rw [hq] at h7
        obtain ⟨q, s', h1, h2⟩ := Go.bind_eq_ok h7
        have := lift_mvd h1
        cases h2
        exact this
      | false => rw [hq] at h7; cases h7; rfl
    have e5 : s5.mvd = s4.mvd.reset := by
      have : s5 = _ := (congrArg Prod.snd h5).symm
      rw [this]
      show (if _ then _ else _) = _
      rw [if_pos (.inr ⟨hp, hi, hf⟩)]
    unfold MVD.setFormed
    rw [if_neg (by rw [hi]; decide), if_pos ⟨hp, hf, hb⟩, e9, e8, e7, e5]
    exact ⟨rfl, rfl, rfl⟩

theorem fits_frame {W H row a i : Nat} {field : Bool} (h : FitsBlock W H row a field i) : FitsBlock W H row a false i := by
  cases field with
  | false => exact h
  | true =>
    unfold FitsBlock at h ⊢
    split
    · rename_i hi
      rw [if_pos hi] at h
      have key : ∀ x y z w : Nat, y ≤ x → x * (16 * W) + z < w → y * (16 * W) + z < w := by
        intro x y z w hy hx
        have := Nat.mul_le_mul_right (16 * W) hy
        omega
      refine key _ _ _ _ ?_ h
      simp only [Bool.false_eq_true, ↓reduceIte]
      omega
    · rename_i hi
      rw [if_neg hi] at h
      exact h

theorem type_cases {e : PicEnv} {l : List Bool} {t : MacroblockType} (h : (l, t) ∈ isoType e.ph.pictureCodingType)
    (hf : t.forward = false) (hb : t.backward = false) : t.intra = true ∨ e.ph.pictureCodingType = 2 := by
  unfold isoType at h
  have k1 : isoTypeI.all (fun x => x.2.intra) = true := by decide +kernel
  have k3 : isoTypeB.all (fun x => x.2.intra || x.2.forward || x.2.backward) = true := by decide +kernel
  split at h
  · exact .inl (List.all_eq_true.1 k1 _ h)
  · split at h
    · rename_i h2; exact .inr h2
    · split at h
      · have := List.all_eq_true.1 k3 _ h
        dsimp only at this
        rw [hf, hb] at this
        exact .inl (by simpa using this)
      · cases h

/-- A prediction from a reference. -/
def Predicted (e : PicEnv) (t : MacroblockType) : Prop :=
  (t.forward || t.backward) = true ∧ (e.past ≠ none ∨ e.future ≠ none)

theorem finish_cases {e : PicEnv} {l : List Bool} {t : MacroblockType} {d : MVD} {W H row a : Nat} {field : Bool}
    (hp : PastOK e W H) (ht : (l, t) ∈ isoType e.ph.pictureCodingType) (hd : MvdOK e t d) :
    ∀ b j f, j < 6 → Geometry f W H → finishBlock e d b j a row field f = none → ¬ FitsBlock W H row a field j ∨ Predicted e t := by
  intro b j f hj g h
  by_cases hv : (t.forward || t.backward) = true
  · by_cases hr : e.past ≠ none ∨ e.future ≠ none
    · exact .inr ⟨hv, hr⟩
    · have h1 : e.past = none := by
        cases hx : e.past with
        | none => rfl
        | some f => exact absurd (.inl (by rw [hx]; simp)) hr
      have h2 : e.future = none := by
        cases hx : e.future with
        | none => rfl
        | some f => exact absurd (.inr (by rw [hx]; simp)) hr
      refine .inl ((finishBlock_none g hj ?_ ?_).1 h)
      · unfold MVD.fwdRef; rw [h1]; simp
      · unfold MVD.bwdRef; rw [h2]; simp
  · left
    have hfb : t.forward = false ∧ t.backward = false := by
      revert hv; cases t.forward <;> cases t.backward <;> simp
    cases hi : t.intra with
    | true =>
      obtain ⟨h1, h2⟩ := hd.1 hi
      refine (finishBlock_none g hj ?_ ?_).1 h
      · unfold MVD.fwdRef; rw [h1]; rfl
      · unfold MVD.bwdRef; rw [h2]; rfl
    | false =>
      have h2 : e.ph.pictureCodingType = 2 := by
        rcases type_cases ht hfb.1 hfb.2 with h | h
        · rw [hi] at h; cases h
        · exact h
      obtain ⟨a1, a2, a3⟩ := hd.2 h2 hi hfb.1 hfb.2
      have nb : d.bwdRef e.future = none := by unfold MVD.bwdRef; rw [a3]; rfl
      cases hw : d.fwdRef e.past with
      | none => exact (finishBlock_none g hj hw nb).1 h
      | some x =>
        obtain ⟨fr, hfr⟩ : ∃ fr, e.past = some fr ∧ x = (fr, ⟨0, 0⟩) := by
          unfold MVD.fwdRef at hw
          split at hw
          · cases hx : e.past with
            | none => rw [hx] at hw; cases hw
            | some fr =>
              rw [hx] at hw
              refine ⟨fr, rfl, ?_⟩
              rw [a1, a2] at hw
              cases hw; rfl
          · cases hw
        intro hfit
        obtain ⟨c, hc⟩ := mc_zero (b := b) (hp h2 _ hfr.1) hj (fits_frame hfit)
        unfold finishBlock at h
        rw [nb, hw, hfr.2, hc] at h
        exact (updateFrame_none g hj).1 h hfit

/-! ### macroblocks -/

theorem Traps.union {σ α ι : Type} {p : σ → BR} {m : Go σ α} {I : ι → σ → Prop} {F G : List Bool → Prop}
    (h : ∀ i, Traps p m (I i) F G) : Traps p m (fun s => ∃ i, I i s) F G :=
  ⟨fun s ⟨i, hi⟩ => (h i).only s hi, fun l s r ⟨i, hi⟩ => (h i).sure l s r hi⟩

theorem Traps.pre {σ α : Type} {p : σ → BR} {m : Go σ α} {P : Prop} {I : σ → Prop} {F G : List Bool → Prop}
    (h : P → Traps p m I F G) : Traps p m (fun s => P ∧ I s) F G :=
  ⟨fun s hi => (h hi.1).only s hi.2, fun l s r hi => (h hi.1).sure l s r hi.2⟩

theorem cbp_safe' : Go.Safe (codedBlockPattern 1) := by
  intro s
  unfold codedBlockPattern decodeCbp
  have h := safe_huffDecode (PrefixFree.ne_nil pf_cbp) (by decide) s
  cases hx : huffDecode cbpTable s with
  | mk r s1 =>
    rw [hx] at h
    cases r with
    | ok v => dsimp only; rw [if_neg (by decide)]; exact h
    | err y => dsimp only; rw [if_neg (by decide)]; exact h
    | panic => exact h
    | hang => exact h

theorem traps_pattern {e : PicEnv} (he : Plain e) {row a W H : Nat} {m : Mode} {l0 : List Bool}
    (hp : PastOK e W H) (ht : (l0, m.type) ∈ isoType e.ph.pictureCodingType) :
    Traps MB.br (mbPattern e row a m) (fun s => Geometry s.frame W H ∧ MvdOK e m.type s.mvd)
      (fun l => ∃ pat l2 cbp, l = pat ++ l2 ∧ (if m.type.pattern then (pat, cbp) ∈ isoCbp else pat = []) ∧
        BlocksFault m.type.intra e.pce.intraVLCFormat (fun i => m.type.intra || (m.type.pattern && codedBlock cbp i))
          (FitsBlock W H row a m.dctType) 6 0 l2)
      (fun l => Predicted e m.type ∧ ∃ pat l2 cbp j, l = pat ++ l2 ∧ (if m.type.pattern then (pat, cbp) ∈ isoCbp else pat = []) ∧
        j < 6 ∧ BlocksWord m.type.intra e.pce.intraVLCFormat (fun i => m.type.intra || (m.type.pattern && codedBlock cbp i))
          (j + 1) 0 l2) := by
  have fin : ∀ cbp, Traps MB.br (mbFinish e row a m cbp) (fun s => Geometry s.frame W H ∧ MvdOK e m.type s.mvd) _ _ := fun cbp =>
    (Traps.union (I := fun d s => MvdOK e m.type d ∧ (Geometry s.frame W H ∧ s.mvd = d)) fun d => Traps.pre fun hd =>
      traps_finish he row a W H m cbp d (Predicted e m.type) (finish_cases hp ht hd)).weaken
      fun s hs => ⟨s.mvd, hs.2, hs.1, rfl⟩
  unfold mbPattern
  cases hpat : m.type.pattern with
  | false =>
    rw [if_neg (by decide)]
    refine (fin 0).congr (fun l => ?_) (fun l => ?_)
    · rw [hpat]
      constructor
      · intro h; exact ⟨[], l, 0, rfl, rfl, h⟩
      · rintro ⟨pat, l2, cbp, rfl, hn, h⟩
        have hn : pat = [] := hn
        subst hn
        exact BlocksFault.congr (fun j _ _ => by simp) h
    · rw [hpat]
      rintro ⟨hP, j, hj, hw⟩
      exact .inr ⟨hP, [], l, 0, j, rfl, rfl, hj, hw⟩
  | true =>
    rw [if_pos rfl]
    unfold mbCoded
    rw [he.chroma]
    constructor
    · intro s hs h
      cases hx : MB.lift (codedBlockPattern 1) s with
      | mk r s' =>
        rw [hx] at h
        cases r with
        | ok cbp =>
          dsimp only at h
          obtain ⟨pat, hc, t⟩ := cbp_inv (mlift_inv hx)
          have e1 : s'.frame = s.frame ∧ s'.mvd = s.mvd := by
            refine ⟨?_, lift_mvd hx⟩
            unfold MB.lift at hx
            rw [Prod.mk.injEq] at hx
            rw [← hx.2]
          obtain ⟨l, r, hb, hl⟩ := (fin cbp).only s' (by rw [e1.1, e1.2]; exact hs) h
          rw [hpat] at hl
          refine ⟨pat ++ l, r, by rw [t.bits, hb, List.append_assoc], hl.imp (fun h => ⟨pat, l, cbp, rfl, hc, h⟩) ?_⟩
          rintro ⟨hP, j, hj, hw⟩
          exact ⟨hP, pat, l, cbp, j, rfl, hc, hj, hw⟩
        | err y => cases h
        | panic =>
          have hm : Go.Safe (MB.lift (codedBlockPattern 1)) := safe_mlift cbp_safe'
          have h1 := (hm s).1
          rw [hx] at h1
          exact absurd rfl h1
        | hang => cases h
    · rintro l s r hs ⟨pat, l2, cbp, rfl, hc, hl⟩ hb hr
      have hc : (pat, cbp) ∈ isoCbp := hc
      obtain ⟨s', h, t⟩ := cbp_run hc (s := s.br) (r := l2 ++ r) (by rw [hb, List.append_assoc])
      rw [mlift_run h]
      dsimp only
      refine (fin cbp).sure l2 _ r hs ?_ (Reads.took_split t hb) hr
      rw [hpat]
      exact hl

theorem fr_head {e : PicEnv} (W H row : Nat) (addr : Option Nat) :
    Keeps (OnFrame fun f => Geometry f W H) (mbHead e row addr) := by
  have hk := keep_geometry e W H
  unfold mbHead
  exact keeps_bind (fr_lift _) fun incr => keeps_bind (fr_copySkipped (hk.pcopy row) (hk.bcopy row)) fun _ =>
    keeps_bind (keeps_modify fun _ h => h) fun _ => keeps_bind (fr_lift _) fun m =>
    keeps_bind (keeps_modify fun _ h => h) fun _ => keeps_bind (fr_mbVectors e m) fun _ => keeps_pure _

theorem headAt_type {e : PicEnv} {t : MacroblockType} {n : Nat} {field : Bool} {l : List Bool} (h : HeadAt e t n field l) :
    ∃ l0, (l0, t) ∈ isoType e.ph.pictureCodingType := by
  cases h with
  | mk start motion f b mark hs hF hB hM =>
    cases hs with
    | mk k v c type dct q hn hc h1 h2 h3 h6 hq => exact ⟨type, h1⟩

theorem place_eq (addr : Option Nat) (n : Nat) : newAddress addr n = place addr n := by cases addr <;> rfl

theorem traps_macroblock {e : PicEnv} (he : Plain e) {W H row : Nat} {addr : Option Nat}
    (hp : PastOK e W H) :
    Traps MB.br (macroblock e row addr) (fun s => Geometry s.frame W H) (MbFault e W H row addr) (MbRisk e addr) := by
  rw [macroblock_split]
  refine (Traps.bind (J := fun x (s : MB) => Geometry s.frame W H ∧ MvdOK e x.2.type s.mvd)
    (F2 := fun b l => ∃ pat l2 cbp, l = pat ++ l2 ∧ (if b.1.pattern then (pat, cbp) ∈ isoCbp else pat = []) ∧
        BlocksFault b.1.intra e.pce.intraVLCFormat (fun i => b.1.intra || (b.1.pattern && codedBlock cbp i))
          (FitsBlock W H row (place addr b.2.1) b.2.2) 6 0 l2)
    (G2 := fun b l => Predicted e b.1 ∧ ∃ pat l2 cbp j, l = pat ++ l2 ∧
        (if b.1.pattern then (pat, cbp) ∈ isoCbp else pat = []) ∧ j < 6 ∧
        BlocksWord b.1.intra e.pce.intraVLCFormat (fun i => b.1.intra || (b.1.pattern && codedBlock cbp i)) (j + 1) 0 l2)
    (reads_headAt he row addr) (traps_head he hp)
    (fun s x s' g h => ⟨keeps_ok (fr_head W H row addr) g h, head_mvd h⟩) fun x hx => ?_).congr (fun l => ?_) (fun l => ?_)
  · obtain ⟨lx, hx⟩ := hx
    obtain ⟨l0, ht⟩ := headAt_type hx
    rw [place_eq]
    exact traps_pattern he hp ht
  · constructor
    · rintro (h | ⟨l1, l2, ⟨t, n, field⟩, rfl, h1, pat, l3, cbp, rfl, h2, h3⟩)
      · cases h with
        | start _ h =>
          obtain ⟨k, v, c, rfl, hc, h | ⟨a, h1, h2, h3, h4⟩⟩ := h
          · exact .codingType k v c hc h
          · exact .skipped k v a c hc h1 h2 h3 h4
        | noMotion t n field motion _ h1 h2 h3 h4 => exact .noMotion t n field motion _ h1 h2 h3 h4
        | dualPrime t n field motion l x h1 h2 h3 => exact .dualPrime t n field motion l x h1 h2 h3
      · exact .blocks t n cbp field l1 pat l3 h1 h2 h3
    · intro h
      cases h with
      | codingType k v c hc h => exact .inl (.start _ ⟨k, v, c, rfl, hc, .inl h⟩)
      | skipped k v a c hc h1 h2 h3 h4 => exact .inl (.start _ ⟨k, v, c, rfl, hc, .inr ⟨a, h1, h2, h3, h4⟩⟩)
      | noMotion t n field motion _ h1 h2 h3 h4 => exact .inl (.noMotion t n field motion _ h1 h2 h3 h4)
      | dualPrime t n field motion l x h1 h2 h3 => exact .inl (.dualPrime t n field motion l x h1 h2 h3)
      | blocks t n cbp field l1 pat l3 h1 h2 h3 => exact .inr ⟨l1, _, (t, n, field), rfl, h1, pat, l3, cbp, rfl, h2, h3⟩
  · rintro (⟨k, v, c, rfl, hc, h1, h2, h3⟩ | ⟨l1, l2, ⟨t, n, field⟩, rfl, h1, hP, pat, l3, cbp, j, rfl, h2, h3, h4⟩)
    · exact .inr (.skipped k v c hc h1 h2 h3)
    · exact .inr (.predicted t n cbp j field l1 pat l3 h1 hP.1 hP.2 h2 h3 h4)

end Mpeg.Video
