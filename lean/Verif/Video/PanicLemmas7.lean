/-
Panics of macroblocks, with the vectors.
-/
import Verif.Video.PanicLemmas6
set_option linter.all false
namespace Mpeg.Video
open Spec
open _root_.Mpeg.BR (Took)

/-! ### blocks -/

/-- The references in use have the size of the picture. -/
def UsesOK (e : PicEnv) (V : Vecs) (W H : Nat) : Prop :=
  (V.fwd = true → ∀ f, e.past = some f → Geometry f W H) ∧ (V.bwd = true → ∀ f, e.future = some f → Geometry f W H)

theorem finishBlock_iff {e : PicEnv} {d : MVD} {W H i a row : Nat} {il : Bool} {b : Block} {f : Frame} (hu : UsesOK e d.vecs W H)
    (g : Geometry f W H) (hi : i < 6) : finishBlock e d b i a row il f = none ↔ ¬ FitsPred e d.vecs W H row a il i := by
  have mc : motionCompensation b (d.fwdRef e.past) (d.bwdRef e.future) i row a = none ↔
      ¬ ((d.fwd = true → e.past ≠ none → PredFits W H i row a (d.act 0 0 0) (d.act 0 0 1)) ∧
        (d.bwd = true → e.future ≠ none → PredFits W H i row a (d.act 0 1 0) (d.act 0 1 1))) := by
    have hF : d.fwd = true → ∀ f, e.past = some f → Geometry f W H := hu.1
    have hB : d.bwd = true → ∀ f, e.future = some f → Geometry f W H := hu.2
    have hn : ∀ {x y : Option (Frame × Vec)}, x = none → y = none → (motionCompensation b x y i row a = none ↔ False) := by
      rintro _ _ rfl rfl
      obtain ⟨c, hc⟩ := mc_none b i row a
      rw [hc]; simp
    unfold MVD.fwdRef MVD.bwdRef
    cases hf : d.fwd with
    | false =>
      cases hb : d.bwd with
      | false => simp [hn]
      | true =>
        cases hfu : e.future with
        | none => simp [hn]
        | some y =>
          have gy := hB hb y hfu
          simp only [Bool.false_eq_true, ↓reduceIte, Option.map_some, IsEmpty.forall_iff, true_and, forall_const, ne_eq, reduceCtorEq,
            not_false_eq_true]
          exact (C98_prediction gy gy hi ⟨0, 0⟩ _ b).2.1
    | true =>
      cases hp : e.past with
      | none =>
        cases hb : d.bwd with
        | false => simp [hn]
        | true =>
          cases hfu : e.future with
          | none => simp [hn]
          | some y =>
            have gy := hB hb y hfu
            simp only [↓reduceIte, Option.map_some, Option.map_none, IsEmpty.forall_iff, true_and, forall_const, ne_eq, reduceCtorEq,
              not_false_eq_true, not_true_eq_false]
            exact (C98_prediction gy gy hi ⟨0, 0⟩ _ b).2.1
      | some x =>
        have gx := hF hf x hp
        cases hb : d.bwd with
        | false =>
          simp only [Bool.false_eq_true, ↓reduceIte, Option.map_some, IsEmpty.forall_iff, and_true, forall_const, ne_eq, reduceCtorEq,
            not_false_eq_true]
          exact (C98_prediction gx gx hi _ ⟨0, 0⟩ b).1
        | true =>
          cases hfu : e.future with
          | none =>
            simp only [↓reduceIte, Option.map_some, Option.map_none, IsEmpty.forall_iff, and_true, forall_const, ne_eq, reduceCtorEq,
              not_false_eq_true, not_true_eq_false]
            exact (C98_prediction gx gx hi _ ⟨0, 0⟩ b).1
          | some y =>
            have gy := hB hb y hfu
            simp only [↓reduceIte, Option.map_some, forall_const, ne_eq, reduceCtorEq, not_false_eq_true]
            exact (C98_prediction gx gy hi _ _ b).2.2
  unfold FitsPred
  show _ ↔ ¬ (FitsBlock W H row a il i ∧ (d.fwd = true → e.past ≠ none → PredFits W H i row a (d.act 0 0 0) (d.act 0 0 1)) ∧
        (d.bwd = true → e.future ≠ none → PredFits W H i row a (d.act 0 1 0) (d.act 0 1 1)))
  unfold finishBlock
  cases hm : motionCompensation b (d.fwdRef e.past) (d.bwdRef e.future) i row a with
  | none =>
    have := mc.1 hm
    simp only [true_iff]
    rintro ⟨-, h⟩
    exact this h
  | some c =>
    have h2 : _ ∧ _ := Classical.not_not.1 fun h => by rw [mc.2 h] at hm; cases hm
    dsimp only
    rw [updateFrame_none g hi]
    constructor
    · rintro h ⟨h', -⟩; exact h h'
    · intro h h'; exact h ⟨h', h2⟩

theorem bcopyBlocks_iff {e : PicEnv} {d : MVD} {W H a row : Nat} (hu : UsesOK e d.vecs W H) : ∀ (k : Nat) (f : Frame), k ≤ 6 →
    Geometry f W H → (bcopyBlocks e d a row k f = none ↔ ∃ i, 6 - k ≤ i ∧ i < 6 ∧ ¬ FitsPred e d.vecs W H row a false i) := by
  intro k
  induction k with
  | zero =>
    intro f _ g
    constructor
    · intro h
      have h : some f = none := h
      cases h
    · rintro ⟨i, h1, h2, -⟩; omega
  | succ k ih =>
    intro f hk g
    have key := finishBlock_iff (b := Block.zero) (a := a) (row := row) (il := false) hu g (show 5 - k < 6 by omega)
    cases h1 : finishBlock e d Block.zero (5 - k) a row false f with
    | none =>
      rw [bcopyBlocks_none h1]
      simp only [true_iff]
      exact ⟨5 - k, by omega, by omega, key.1 h1⟩
    | some f1 =>
      rw [bcopyBlocks_step h1, ih f1 (by omega) (finishBlock_geometry g h1)]
      constructor
      · rintro ⟨i, h2, h3, h4⟩; exact ⟨i, by omega, h3, h4⟩
      · rintro ⟨i, h2, h3, h4⟩
        refine ⟨i, ?_, h3, h4⟩
        by_contra hlt
        have : i = 5 - k := by omega
        subst this
        rw [key.2 h4] at h1
        cases h1

theorem bframeCopy_iff {e : PicEnv} {d : MVD} {W H row : Nat} (hu : UsesOK e d.vecs W H) : ∀ (n a : Nat) (f : Frame),
    Geometry f W H → (bframeCopy e d row a n f = none ↔
      ∃ j i, a ≤ j ∧ j < a + n ∧ i < 6 ∧ ¬ FitsPred e d.vecs W H row j false i) := by
  intro n
  induction n with
  | zero =>
    intro a f g
    constructor
    · intro h
      have h : some f = none := h
      cases h
    · rintro ⟨j, i, h1, h2, -⟩; omega
  | succ n ih =>
    intro a f g
    have key := bcopyBlocks_iff (a := a) (row := row) hu 6 f (le_refl _) g
    cases h1 : bcopyBlocks e d a row 6 f with
    | none =>
      rw [bframeCopy_none h1]
      simp only [true_iff]
      obtain ⟨i, -, h3, h4⟩ := key.1 h1
      exact ⟨a, i, by omega, by omega, h3, h4⟩
    | some f1 =>
      rw [bframeCopy_step h1, ih (a + 1) f1 (bcopyBlocks_geometry 6 _ _ g h1)]
      constructor
      · rintro ⟨j, i, h2, h3, h4⟩; exact ⟨j, i, by omega, by omega, h4⟩
      · rintro ⟨j, i, h2, h3, h4, h5⟩
        refine ⟨j, i, ?_, by omega, h4, h5⟩
        by_contra hlt
        have : j = a := by omega
        subst this
        rw [key.2 ⟨i, by omega, h4, h5⟩] at h1
        cases h1

/-! ### the block loop -/

theorem trapsX_mbBlocks (e : PicEnv) (intra dct : Bool) (coded : Nat → Bool) (a row W H : Nat) (V : Vecs) (hu : UsesOK e V W H)
    (k : Nat) : ∀ (i : Nat) (b : Block), i + k ≤ 6 → Traps MB.br (mbBlocks e intra dct coded a row k i b)
      (fun s => Geometry s.frame W H ∧ s.mvd.vecs = V)
      (BlocksFault intra e.pce.intraVLCFormat coded (FitsPred e V W H row a dct) k i) (fun _ => False) := by
  induction k with
  | zero =>
    intro i b _
    constructor
    · intro s _ h; cases h
    · intro l s r _ h; cases h
  | succ k ih =>
    intro i b hk
    unfold mbBlocks
    have hread := reads_mbBlock e intra (coded i) i b
    rw [(blockComp_eq (i := i) (by omega)).1] at hread
    have htrap := traps_mbBlock e intra (coded i) i b (fun s => Geometry s.frame W H ∧ s.mvd.vecs = V)
    rw [(blockComp_eq (i := i) (by omega)).1] at htrap
    have rest : ∀ b', Traps MB.br (do
          let s ← Go.get
          let f ← orPanic (finishBlock e s.mvd b' i a row dct s.frame)
          Go.modify fun s => { s with frame := f }
          mbBlocks e intra dct coded a row k (i + 1) b') (fun s => Geometry s.frame W H ∧ s.mvd.vecs = V)
        (fun l => (¬ FitsPred e V W H row a dct i ∧ l = []) ∨
          BlocksFault intra e.pce.intraVLCFormat coded (FitsPred e V W H row a dct) k (i + 1) l)
        (fun l => False) := by
      intro b'
      constructor
      · rintro s ⟨g, hd⟩ h
        have key := finishBlock_iff (b := b') (a := a) (row := row) (il := dct) (by rw [hd]; exact hu) g (show i < 6 by omega)
        rw [Go.bind_ok (Go.get_apply s)] at h
        cases hx : finishBlock e s.mvd b' i a row dct s.frame with
        | none =>
          have h' := key.1 hx
          rw [hd] at h'
          exact ⟨[], _, rfl, .inl (.inl ⟨h', rfl⟩)⟩
        | some f =>
          rw [hx] at h
          obtain ⟨l, r, hb, hl⟩ := (ih (i + 1) b' (by omega)).only { s with frame := f } ⟨finishBlock_geometry g hx, hd⟩ h
          exact ⟨l, r, hb, hl.imp .inr id⟩
      · rintro l s r ⟨g, hd⟩ hl hb hr
        have key := finishBlock_iff (b := b') (a := a) (row := row) (il := dct) (by rw [hd]; exact hu) g (show i < 6 by omega)
        rw [Go.bind_ok (Go.get_apply s)]
        cases hx : finishBlock e s.mvd b' i a row dct s.frame with
        | none => rfl
        | some f =>
          rcases hl with ⟨h, rfl⟩ | h
          · rw [key.2 (by rw [hd]; exact h)] at hx; cases hx
          · exact (ih (i + 1) b' (by omega)).sure l { s with frame := f } r ⟨finishBlock_geometry g hx, hd⟩ h hb hr
    refine (Traps.bind (J := fun _ s => Geometry s.frame W H ∧ s.mvd.vecs = V)
      (F2 := fun _ l => (¬ FitsPred e V W H row a dct i ∧ l = []) ∨
          BlocksFault intra e.pce.intraVLCFormat coded (FitsPred e V W H row a dct) k (i + 1) l)
      (G2 := fun _ l => False)
      hread htrap ?_ fun b' _ => rest b').congr (fun l => ?_) (fun l => ?_)
    · rintro s b' s' ⟨g, hd⟩ h
      obtain ⟨h1, h2⟩ := mbBlock_state h
      rw [h1, h2]; exact ⟨g, hd⟩
    · constructor
      · rintro (⟨h1, h2⟩ | ⟨l1, l2, -, rfl, h1, h2 | h2⟩)
        · exact .over k i l h1 h2
        · rw [h2.2, List.append_nil]
          exact .place k i l1 h1 h2.1
        · exact .next k i l1 l2 h1 h2
      · intro h
        cases h with
        | over _ _ _ h1 h2 => exact .inl ⟨h1, h2⟩
        | place _ _ _ h1 h2 => exact .inr ⟨l, [], (), by simp, h1, .inl ⟨h2, rfl⟩⟩
        | next _ _ l1 l2 h1 h2 => exact .inr ⟨l1, l2, (), rfl, h1, .inr h2⟩
    · rintro (h | ⟨_, _, _, _, _, h⟩) <;> exact h.elim

theorem trapsX_finish {e : PicEnv} (he : Plain e) (row a W H : Nat) (m : Mode) (cbp : Nat) (V : Vecs) (hu : UsesOK e V W H) :
    Traps MB.br (mbFinish e row a m cbp) (fun s => Geometry s.frame W H ∧ s.mvd.vecs = V)
      (BlocksFault m.type.intra e.pce.intraVLCFormat (fun i => m.type.intra || (m.type.pattern && codedBlock cbp i))
        (FitsPred e V W H row a m.dctType) 6 0) (fun _ => False) := by
  unfold mbFinish
  rw [he.chroma]
  refine (traps_pure (f := fun _ => a) (trapsX_mbBlocks e _ _ _ a row W H V hu 6 0 Block.zero (by decide))).congr
    (fun l => ⟨fun h => ?_, fun h => ?_⟩) (fun l h => h.elim)
  · exact BlocksFault.congr (fun j _ h2 => pattern_eq cbp _ _ (by omega)) h
  · exact BlocksFault.congr (fun j _ h2 => (pattern_eq cbp _ _ (by omega)).symm) h

theorem trapsX_pattern {e : PicEnv} (he : Plain e) {row a W H : Nat} {m : Mode} {V : Vecs} (hu : UsesOK e V W H) :
    Traps MB.br (mbPattern e row a m) (fun s => Geometry s.frame W H ∧ s.mvd.vecs = V)
      (fun l => ∃ pat l2 cbp, l = pat ++ l2 ∧ (if m.type.pattern then (pat, cbp) ∈ isoCbp else pat = []) ∧
        BlocksFault m.type.intra e.pce.intraVLCFormat (fun i => m.type.intra || (m.type.pattern && codedBlock cbp i))
          (FitsPred e V W H row a m.dctType) 6 0 l2) (fun _ => False) := by
  have fin := fun cbp => trapsX_finish he row a W H m cbp V hu
  unfold mbPattern
  cases hpat : m.type.pattern with
  | false =>
    rw [if_neg (by decide)]
    refine (fin 0).congr (fun l => ?_) (fun l h => h.elim)
    rw [hpat]
    constructor
    · intro h; exact ⟨[], l, 0, rfl, rfl, h⟩
    · rintro ⟨pat, l2, cbp, rfl, hn, h⟩
      have hn : pat = [] := hn
      subst hn
      exact BlocksFault.congr (fun j _ _ => by simp) h
  | true =>
    rw [if_pos rfl]
    unfold mbCoded
    rw [he.chroma]
    constructor
    · intro s hs h
      cases hx : MB.lift (codedBlockPattern 1) s with
      | mk r s' =>
        rw [hx] at h
        cases r with
        | ok cbp =>
          dsimp only at h
          obtain ⟨pat, hc, t⟩ := cbp_inv (mlift_inv hx)
          have e1 : s'.frame = s.frame ∧ s'.mvd = s.mvd := by
            refine ⟨?_, lift_mvd hx⟩
            unfold MB.lift at hx
            rw [Prod.mk.injEq] at hx
            rw [← hx.2]
          obtain ⟨l, r, hb, hl⟩ := (fin cbp).only s' (by rw [e1.1, e1.2]; exact hs) h
          rw [hpat] at hl
          exact ⟨pat ++ l, r, by rw [t.bits, hb, List.append_assoc], hl.imp (fun h => ⟨pat, l, cbp, rfl, hc, h⟩) id⟩
        | err y => cases h
        | panic =>
          have hm : Go.Safe (MB.lift (codedBlockPattern 1)) := safe_mlift cbp_safe'
          have h1 := (hm s).1
          rw [hx] at h1
          exact absurd rfl h1
        | hang => cases h
    · rintro l s r hs ⟨pat, l2, cbp, rfl, hc, hl⟩ hb hr
      have hc : (pat, cbp) ∈ isoCbp := hc
      obtain ⟨s', h, t⟩ := cbp_run hc (s := s.br) (r := l2 ++ r) (by rw [hb, List.append_assoc])
      rw [mlift_run h]
      dsimp only
      refine (fin cbp).sure l2 _ r hs ?_ (Reads.took_split t hb) hr
      rw [hpat]
      exact hl

/-! ### the start of a macroblock -/

/-- Skipped macroblocks that panic. -/
def SkipFault (e : PicEnv) (V : Vecs) (W H row : Nat) (addr : Option Nat) (n : Nat) : Prop :=
  ∃ a, addr = some a ∧ 1 < n ∧ ((e.ph.pictureCodingType = 2 ∧ (e.past = none ∨ ¬ FitsCopy W H row (a + n))) ∨
    (e.ph.pictureCodingType = 3 ∧ ∃ j i, a < j ∧ j < a + n ∧ i < 6 ∧ ¬ FitsPred e V W H row j false i))

theorem refsOK_past {e : PicEnv} {W H : Nat} (h : RefsOK e W H) : PastOK e W H := fun ht => h.1 (.inl ht)

theorem orPanic_panic {σ α γ : Type} {x : Option α} {f : α → Go σ γ} {s : σ} (hf : ∀ a, (f a s).1 ≠ .panic) :
    ((orPanic x >>= f) s).1 = .panic ↔ x = none := by
  cases x with
  | none => exact ⟨fun _ => rfl, fun _ => rfl⟩
  | some a => exact ⟨fun h => absurd h (hf a), fun h => by cases h⟩

theorem copySkipped_iff {e : PicEnv} {row n W H : Nat} {addr : Option Nat} {s : MB} (g : Geometry s.frame W H)
    (hr : RefsOK e W H) : (copySkipped e row addr n s).1 = .panic ↔ SkipFault e s.mvd.vecs W H row addr n := by
  by_cases h3 : e.ph.pictureCodingType = 3
  · unfold SkipFault copySkipped
    cases addr with
    | none => simp
    | some a =>
      dsimp only
      by_cases hn : 1 < n
      · rw [if_pos hn, if_neg (by rw [h3]; decide), if_pos h3, orPanic_panic (by intro a h; cases h),
          bframeCopy_iff ⟨fun _ => hr.1 (.inr h3), fun _ => hr.2 h3⟩ _ _ _ g]
        constructor
        · rintro ⟨j, i, h1, h2, h4⟩
          exact ⟨a, rfl, hn, .inr ⟨h3, j, i, by omega, by omega, h4⟩⟩
        · rintro ⟨a', ha, -, ⟨h2, -⟩ | ⟨-, j, i, h1, h2, h4⟩⟩
          · omega
          · cases ha; exact ⟨j, i, by omega, by omega, h4⟩
      · rw [if_neg hn]
        constructor
        · intro h; cases h
        · rintro ⟨_, _, h, _⟩; exact absurd h hn
  · constructor
    · intro h
      obtain ⟨a, ha, hn, h | h⟩ := copySkipped_panic g (refsOK_past hr) h
      · exact ⟨a, ha, hn, .inl h⟩
      · exact absurd h h3
    · rintro ⟨a, rfl, hn, ⟨ht, h⟩ | ⟨ht, -⟩⟩
      · exact copySkipped_sure g (refsOK_past hr) hn ht h
      · exact absurd ht h3

/-- What happens up to the vectors. -/
def StartFaultAt (e : PicEnv) (V : Vecs) (W H row : Nat) (addr : Option Nat) (l : List Bool) : Prop :=
  ∃ k v c, l = escapes k ++ c ∧ (c, v) ∈ isoAddress ∧
    ((e.ph.pictureCodingType ≠ 1 ∧ e.ph.pictureCodingType ≠ 2 ∧ e.ph.pictureCodingType ≠ 3) ∨
      SkipFault e V W H row addr (33 * k + v))

theorem trapsX_start {e : PicEnv} {W H row : Nat} {addr : Option Nat} {V : Vecs} (hp : RefsOK e W H) :
    Traps MB.br (mbStart e row addr) (fun s => Geometry s.frame W H ∧ s.mvd.vecs = V) (StartFaultAt e V W H row addr)
      (fun _ => False) := by
  unfold mbStart
  have tc : ∀ n, Traps MB.br (copySkipped e row addr n) (fun s => Geometry s.frame W H ∧ s.mvd.vecs = V)
      (fun l => l = [] ∧ SkipFault e V W H row addr n) (fun l => False) := by
    intro n
    constructor
    · rintro s ⟨g, rfl⟩ h
      exact ⟨[], _, rfl, .inl ⟨rfl, (copySkipped_iff g hp).1 h⟩⟩
    · rintro l s r ⟨g, rfl⟩ ⟨rfl, h⟩ hb hr
      exact (copySkipped_iff g hp).2 h
  have tail : ∀ n : Nat, Traps MB.br (do
      skipResets e n
      let m ← MB.lift (macroblockMode e)
      modeResets e m.type
      mbQuant m
      pure (n, m)) (fun s => True)
      (fun l => l = [] ∧ e.ph.pictureCodingType ≠ 1 ∧ e.ph.pictureCodingType ≠ 2 ∧ e.ph.pictureCodingType ≠ 3) (fun _ => False) := by
    intro n
    have rest : ∀ m : Mode, Go.Safe (do
        modeResets e m.type
        mbQuant m
        pure (n, m) : Go MB (Nat × Mode)) := fun m =>
      .bind (.modify _) fun _ => .bind (.opt (.bind (safe_mlift (BR.safe_read 5)) fun _ => .modify _)) fun _ => .pure _
    constructor
    · intro s g h
      rcases Traps.bind_panic_inv h with h | ⟨u, s', -, h⟩
      · cases h
      · rcases Traps.bind_panic_inv h with h | ⟨m, s'', -, h⟩
        · exact ⟨[], _, rfl, .inl ⟨rfl, mode_panic h⟩⟩
        · exact absurd h (rest m _).1
    · rintro l s r g ⟨rfl, h1, h2, h3⟩ hb hr
      have : (skipResets e n s).1 = .ok () := rfl
      rw [Go.bind_ok (Prod.ext this rfl)]
      refine Reads.bind_panic' (Reads.bind_panic' (m := mbType e.ph.pictureCodingType) ?_)
      unfold mbType
      rw [if_neg h1, if_neg h2, if_neg h3]
      rfl
  refine (Traps.safeBind (J := fun _ (s : MB) => Geometry s.frame W H ∧ s.mvd.vecs = V)
    (F2 := fun n l => (l = [] ∧ SkipFault e V W H row addr n) ∨
      (l = [] ∧ e.ph.pictureCodingType ≠ 1 ∧ e.ph.pictureCodingType ≠ 2 ∧ e.ph.pictureCodingType ≠ 3))
    (G2 := fun n l => False)
    reads_incr.lift (safe_mlift safe_mbIncrement) (fun s a s' g h =>
      ⟨keeps_ok (fr_lift (P := fun f => Geometry f W H) _) g.1 h, by rw [lift_mvd h]; exact g.2⟩)
    fun n _ => ?_).congr (fun l => ?_) (fun l => ?_)
  · refine (Traps.bind (J := fun _ (s : MB) => True) (F2 := fun _ l => l = [] ∧ e.ph.pictureCodingType ≠ 1 ∧
      e.ph.pictureCodingType ≠ 2 ∧ e.ph.pictureCodingType ≠ 3) (G2 := fun _ _ => False)
      (Reads.silent (silent_copySkipped e row addr n)) (tc n) (fun s a s' g h => trivial)
      fun _ _ => tail n).congr (fun l => ?_) (fun l => ?_)
    · constructor
      · rintro (h | ⟨l1, l2, -, rfl, rfl, h1, h2⟩)
        · exact .inl h
        · exact .inr ⟨by rw [h1]; rfl, h2⟩
      · rintro (h | h)
        · exact .inl h
        · exact .inr ⟨[], l, (), rfl, rfl, h⟩
    · rintro (h | ⟨_, _, _, _, _, h⟩) <;> exact h.elim
  · unfold StartFaultAt
    constructor
    · rintro ⟨l1, l2, n, rfl, ⟨k, c, v, rfl, hc, rfl⟩, (⟨rfl, h⟩ | ⟨rfl, h⟩)⟩
      · exact ⟨k, v, c, by simp, hc, .inr h⟩
      · exact ⟨k, v, c, by simp, hc, .inl h⟩
    · rintro ⟨k, v, c, rfl, hc, h | h⟩
      · exact ⟨_, [], _, by simp, ⟨k, c, v, rfl, hc, rfl⟩, .inr ⟨rfl, h⟩⟩
      · exact ⟨_, [], _, by simp, ⟨k, c, v, rfl, hc, rfl⟩, .inl ⟨rfl, h⟩⟩
  · rintro ⟨_, _, _, _, _, h⟩; exact h.elim

/-- The faults of macroblocks before their blocks. -/
inductive HeadFaultAt (e : PicEnv) (V : Vecs) (W H row : Nat) (addr : Option Nat) : List Bool → Prop
  | start (l : List Bool) (h : StartFaultAt e V W H row addr l) : HeadFaultAt e V W H row addr l
  | noMotion (t : MacroblockType) (n : Nat) (field : Bool) (motion l : List Bool) (h : HeadStart e t n field motion l)
      (hv : (t.forward || t.backward || conceals e t) = true) (hp : e.pce.framePredFrameDCT = 0) (hm : natOfBits motion = 0) :
      HeadFaultAt e V W H row addr l
  | dualPrime (t : MacroblockType) (n : Nat) (field : Bool) (motion l x : List Bool) (h : HeadStart e t n field motion l)
      (hm : natOfBits motion = 3) (hx : PartWord (e.pce.fCode (if t.forward || conceals e t then 0 else 1) 0) x) :
      HeadFaultAt e V W H row addr (l ++ x)

theorem trapsX_head {e : PicEnv} (he : Plain e) {W H row : Nat} {addr : Option Nat} {V : Vecs} (hp : RefsOK e W H) :
    Traps MB.br (mbHead e row addr) (fun s => Geometry s.frame W H ∧ s.mvd.vecs = V) (HeadFaultAt e V W H row addr) (fun _ => False) := by
  rw [mbHead_split]
  refine (Traps.bind (J := fun _ _ => True) (F2 := fun x l => VecsFault e x.2 l) (G2 := fun _ _ => False) (reads_start e row addr)
    (trapsX_start hp) (fun _ _ _ _ _ => trivial) fun x hx => traps_pure (traps_vecs he x.2 _)).congr (fun l => ?_) (fun l => ?_)
  · constructor
    · rintro (h | ⟨l1, l2, x, rfl, ⟨motion, hs, h4, h5⟩, h⟩)
      · exact .start l h
      · rcases (vecsFault_iff he hs h4 h5).1 h with ⟨hv, hf, hm, rfl⟩ | ⟨hm, hx⟩
        · rw [List.append_nil]
          exact .noMotion _ _ _ _ l1 hs hv hf hm
        · exact .dualPrime _ _ _ _ l1 l2 hs hm hx
    · intro h
      cases h with
      | start _ h => exact .inl h
      | noMotion t n field motion _ hs hv hf hm =>
        exact .inr ⟨l, [], (n, ⟨t, _, _, field⟩), by simp, ⟨motion, hs, rfl, rfl⟩,
          (vecsFault_iff (m := ⟨t, _, _, field⟩) he hs rfl rfl).2 (.inl ⟨hv, hf, hm, rfl⟩)⟩
      | dualPrime t n field motion l1 l2 hs hm hx =>
        exact .inr ⟨l1, l2, (n, ⟨t, _, _, field⟩), rfl, ⟨motion, hs, rfl, rfl⟩,
          (vecsFault_iff (m := ⟨t, _, _, field⟩) he hs rfl rfl).2 (.inr ⟨hm, hx⟩)⟩
  · rintro (h | ⟨_, _, _, _, _, h⟩) <;> exact h.elim

/-! ### macroblocks -/

theorem headTo_type {e : PicEnv} {V V' : Vecs} {t : MacroblockType} {n : Nat} {field : Bool} {l : List Bool}
    (h : HeadTo e V t n field V' l) : ∃ l0 V2, (l0, t) ∈ isoType e.ph.pictureCodingType ∧ V' = Vecs.directions V2 e t := by
  cases h with
  | mk start motion f b mark V1 V2 hs hF hB hM =>
    cases hs with
    | mk k v c type dct q hn hc h1 h2 h3 h6 hq => exact ⟨type, V2, h1, rfl⟩

theorem headTo_uses {e : PicEnv} {V V' : Vecs} {t : MacroblockType} {n W H : Nat} {field : Bool} {l : List Bool}
    (h : HeadTo e V t n field V' l) (hr : RefsOK e W H) : UsesOK e V' W H := by
  obtain ⟨l0, V2, ht, rfl⟩ := headTo_type h
  have k1 : isoTypeI.all (fun x => x.2.intra) = true := by decide +kernel
  have k2 : isoTypeP.all (fun x => !x.2.backward) = true := by decide +kernel
  unfold isoType at ht
  split at ht
  · have hi : t.intra = true := List.all_eq_true.1 k1 _ ht
    constructor <;> intro h <;> simp [Vecs.directions, hi] at h
  · split at ht
    · rename_i h2
      have hb : t.backward = false := by simpa using List.all_eq_true.1 k2 _ ht
      refine ⟨fun _ => hr.1 (.inl h2), fun h => ?_⟩
      simp [Vecs.directions, hb] at h
    · split at ht
      · rename_i h3
        exact ⟨fun _ => hr.1 (.inr h3), fun _ => hr.2 h3⟩
      · cases ht

theorem macroblock_only {e : PicEnv} (he : Plain e) {W H row : Nat} {addr : Option Nat} (hr : RefsOK e W H) {s : MB}
    (g : Geometry s.frame W H) (h : (macroblock e row addr s).1 = .panic) :
    ∃ l r, s.br.bits = l ++ r ∧ MbFaultAt e W H row addr s.mvd.vecs l := by
  rw [macroblock_split] at h
  rcases Traps.bind_panic_inv h with h | ⟨x, s1, h1, h⟩
  · obtain ⟨l, r, hb, hl⟩ := (trapsX_head he hr).only s ⟨g, rfl⟩ h
    refine ⟨l, r, hb, ?_⟩
    cases hl.elim id False.elim with
    | start _ h =>
      obtain ⟨k, v, c, rfl, hc, h | ⟨a, h1, h2, ⟨h3, h4⟩ | ⟨h3, j, i, h4, h5, h6, h7⟩⟩⟩ := h
      · exact .codingType k v c hc h
      · exact .skippedP k v a c hc h1 h2 h3 h4
      · exact .skippedB k v a j i c hc h1 h4 h5 h3 h6 h7
    | noMotion t n field motion _ h1 h2 h3 h4 => exact .noMotion t n field motion _ h1 h2 h3 h4
    | dualPrime t n field motion l x h1 h2 h3 => exact .dualPrime t n field motion l x h1 h2 h3
  · obtain ⟨l, hl, t⟩ := (rg_head he row addr).bwd _ _ _ h1
    rw [place_eq] at h
    obtain ⟨l2, r, hb, hf⟩ := (trapsX_pattern he (headTo_uses hl hr)).only s1 ⟨keeps_ok (fr_head W H row addr) g h1, rfl⟩ h
    obtain ⟨pat, l3, cbp, rfl, h2, h3⟩ := hf.elim id False.elim
    exact ⟨l ++ (pat ++ l3), r, by rw [t.bits, hb]; simp, .blocks _ _ cbp _ _ l pat l3 hl h2 h3⟩

theorem macroblock_sure {e : PicEnv} (he : Plain e) {W H row : Nat} {addr : Option Nat} (hr : RefsOK e W H) {s : MB} {l r : List Bool}
    (g : Geometry s.frame W H) (hl : MbFaultAt e W H row addr s.mvd.vecs l) (hb : s.br.bits = l ++ r) (hlen : 24 ≤ r.length) :
    (macroblock e row addr s).1 = .panic := by
  rw [macroblock_split]
  have head : HeadFaultAt e s.mvd.vecs W H row addr l → ((mbHead e row addr >>= fun x => mbPattern e row (newAddress addr x.1) x.2) s).1 = .panic :=
    fun h => Reads.bind_panic' ((trapsX_head he hr).sure l s r ⟨g, rfl⟩ h hb hlen)
  cases hl with
  | codingType k v c hc h => exact head (.start _ ⟨k, v, c, rfl, hc, .inl h⟩)
  | skippedP k v a c hc h1 h2 h3 h4 => exact head (.start _ ⟨k, v, c, rfl, hc, .inr ⟨a, h1, h2, .inl ⟨h3, h4⟩⟩⟩)
  | skippedB k v a j i c hc h1 h4 h5 h3 h6 h7 =>
    exact head (.start _ ⟨k, v, c, rfl, hc, .inr ⟨a, h1, by omega, .inr ⟨h3, j, i, h4, h5, h6, h7⟩⟩⟩)
  | noMotion t n field motion _ h1 h2 h3 h4 => exact head (.noMotion t n field motion _ h1 h2 h3 h4)
  | dualPrime t n field motion l x h1 h2 h3 => exact head (.dualPrime t n field motion l x h1 h2 h3)
  | blocks t n cbp field V' l1 pat l3 h1 h2 h3 =>
    rcases (rg_head he row addr).fwd l1 (t, n, field) V' s (pat ++ l3 ++ r) h1 (by rw [hb]; simp)
      (by simp only [List.length_append]; omega) with hp | ⟨x, s1, h, hx, hV, tk⟩
    · exact Reads.bind_panic' hp
    · rw [Go.bind_ok h]
      rw [Prod.mk.injEq, Prod.mk.injEq] at hx
      obtain ⟨rfl, rfl, rfl⟩ := hx
      rw [place_eq]
      exact (trapsX_pattern he (headTo_uses h1 hr)).sure (pat ++ l3) s1 r ⟨keeps_ok (fr_head W H row addr) g h, hV⟩
        ⟨pat, l3, cbp, rfl, h2, h3⟩ (Reads.took_split tk hb) hlen

end Mpeg.Video
