/-
Panics of blocks and of the block loop of macroblocks.
-/
import Verif.Video.PanicLemmas
import Verif.Video.BlockLemmas2
set_option linter.all false
namespace Mpeg.Video
open Spec
open _root_.Mpeg.BR (Took)

/-! ### where programs panic -/

/-- From states in `I`: a panic of `m` is at a word of `F` or of `G`; and on a word of `F` (with 24 more bits behind it) it
does panic. -/
structure Traps {σ α : Type} (p : σ → BR) (m : Go σ α) (I : σ → Prop) (F G : List Bool → Prop) : Prop where
  only : ∀ s, I s → (m s).1 = .panic → ∃ l r, (p s).bits = l ++ r ∧ (F l ∨ G l)
  sure : ∀ l s r, I s → F l → (p s).bits = l ++ r → 24 ≤ r.length → (m s).1 = .panic

namespace Traps
variable {σ α β γ : Type} {p : σ → BR}

theorem bind_panic_inv {m : Go σ α} {f : α → Go σ γ} {s : σ} (h : ((m >>= f) s).1 = .panic) :
    (m s).1 = .panic ∨ ∃ a s', m s = (.ok a, s') ∧ (f a s').1 = .panic := by
  rw [Go.bind_apply] at h
  cases hm : m s with
  | mk r s' =>
    rw [hm] at h
    cases r with
    | ok a => exact .inr ⟨a, s', rfl, h⟩
    | err x => cases h
    | panic => exact .inl rfl
    | hang => cases h

theorem bind {m : Go σ α} {f : α → Go σ γ} {v : α → β} {L : List Bool → β → Prop} {I : σ → Prop} {J : α → σ → Prop}
    {F1 G1 : List Bool → Prop} {F2 G2 : β → List Bool → Prop} (hm : Reads p m v L) (tm : Traps p m I F1 G1)
    (hk : ∀ s a s', I s → m s = (.ok a, s') → J a s')
    (tf : ∀ a, (∃ l, L l (v a)) → Traps p (f a) (J a) (F2 (v a)) (G2 (v a))) :
    Traps p (m >>= f) I (fun l => F1 l ∨ ∃ l1 l2 b, l = l1 ++ l2 ∧ L l1 b ∧ F2 b l2)
      (fun l => G1 l ∨ ∃ l1 l2 b, l = l1 ++ l2 ∧ L l1 b ∧ G2 b l2) := by
  constructor
  · intro s hs h
    rcases bind_panic_inv h with h | ⟨a, s', h1, h2⟩
    · obtain ⟨l, r, hb, hl⟩ := tm.only s hs h
      exact ⟨l, r, hb, hl.imp .inl .inl⟩
    · obtain ⟨l1, k1, t⟩ := hm.bwd _ _ _ h1
      obtain ⟨l2, r, hb, hl⟩ := (tf a ⟨l1, k1⟩).only s' (hk _ _ _ hs h1) h2
      refine ⟨l1 ++ l2, r, by rw [t.bits, hb, List.append_assoc], ?_⟩
      rcases hl with hl | hl
      · exact .inl (.inr ⟨l1, l2, v a, rfl, k1, hl⟩)
      · exact .inr (.inr ⟨l1, l2, v a, rfl, k1, hl⟩)
  · rintro l s r hs (hl | ⟨l1, l2, b, rfl, k1, k2⟩) hb hr
    · exact Reads.bind_panic' (tm.sure l s r hs hl hb hr)
    · rcases hm.fwd l1 b s (l2 ++ r) k1 (by rw [hb, List.append_assoc]) (by rw [List.length_append]; omega) with
        h | ⟨a, s', h, rfl, t⟩
      · exact Reads.bind_panic' h
      · rw [Go.bind_ok h]
        exact (tf a ⟨l1, k1⟩).sure l2 s' r (hk _ _ _ hs h) k2 (Reads.took_split t hb) hr

theorem congr {m : Go σ α} {I : σ → Prop} {F G F' G' : List Bool → Prop} (h : Traps p m I F G) (hF : ∀ l, F l ↔ F' l)
    (hG : ∀ l, G l → F' l ∨ G' l) : Traps p m I F' G' :=
  ⟨fun s hs hp => by
    obtain ⟨l, r, hb, hl⟩ := h.only s hs hp
    refine ⟨l, r, hb, ?_⟩
    rcases hl with hl | hl
    · exact .inl ((hF l).1 hl)
    · exact hG l hl,
   fun l s r hs hl hb hr => h.sure l s r hs ((hF l).2 hl) hb hr⟩

theorem weaken {m : Go σ α} {I I' : σ → Prop} {F G : List Bool → Prop} (h : Traps p m I F G) (hI : ∀ s, I' s → I s) :
    Traps p m I' F G :=
  ⟨fun s hs => h.only s (hI s hs), fun l s r hs => h.sure l s r (hI s hs)⟩

theorem safe {m : Go σ α} {I : σ → Prop} (h : Go.Safe m) : Traps p m I (fun _ => False) (fun _ => False) :=
  ⟨fun s _ hp => absurd hp (h s).1, fun _ _ _ _ h => h.elim⟩

/-- A part that reads the language `L` and does not panic. -/
theorem safeBind {m : Go σ α} {f : α → Go σ γ} {v : α → β} {L : List Bool → β → Prop} {I : σ → Prop} {J : α → σ → Prop}
    {F2 G2 : β → List Bool → Prop} (hm : Reads p m v L) (sm : Go.Safe m)
    (hk : ∀ s a s', I s → m s = (.ok a, s') → J a s')
    (tf : ∀ a, (∃ l, L l (v a)) → Traps p (f a) (J a) (F2 (v a)) (G2 (v a))) :
    Traps p (m >>= f) I (fun l => ∃ l1 l2 b, l = l1 ++ l2 ∧ L l1 b ∧ F2 b l2)
      (fun l => ∃ l1 l2 b, l = l1 ++ l2 ∧ L l1 b ∧ G2 b l2) :=
  (bind hm (safe sm) hk tf).congr (fun l => by simp) (fun l h => .inr (h.elim False.elim id))

theorem lift {m : Go BR α} {I : MB → Prop} {F G : List Bool → Prop} (h : Traps id m (fun _ => True) F G) :
    Traps MB.br (MB.lift m) I F G :=
  ⟨fun s _ hp => h.only s.br trivial hp, fun l s r _ hl hb hr => h.sure l s.br r trivial hl hb hr⟩

end Traps

theorem safe_mlift {α : Type} {m : Go BR α} (h : Go.Safe m) : Go.Safe (MB.lift m) := fun s => h s.br

/-! ### blocks -/

theorem traps_coeff (one : Bool) (n : Nat) (b : Block) (hn : n ≤ 64) (ho : one = true → n ≠ 0) :
    Traps id (coeffLoop one 65 n b) (fun _ => True)
      (fun l => ∃ evs, CodedEvents one (decide (n = 0)) evs l ∧ 64 < n + (expand evs).length) (fun _ => False) := by
  constructor
  · intro s _ h
    cases hx : coeffLoop one 65 n b s with
    | mk x s' =>
      rw [hx] at h
      dsimp only at h
      subst h
      obtain ⟨evs, l, h1, t, h2⟩ := (coeffLoop_result one 65 n b s (by omega) hn ho).2 s' hx
      exact ⟨l, s'.bits, t.bits, .inl ⟨evs, h1, h2⟩⟩
  · rintro l s r _ ⟨evs, h1, h2⟩ hb hr
    obtain ⟨bits, pos, stop, later⟩ := s
    dsimp only [id] at hb
    subst hb
    obtain ⟨s', h⟩ := coeffLoop_overflow (stop := stop) (later := later) one evs 65 n b l r pos h1 ho hn (by omega) h2
    rw [h]

theorem reads_dc (cc : Nat) (p : Int) : Reads id (readDC cc p) (fun _ => ())
    (fun l _ => ∃ z d n, l = z ++ d ∧ (z, n) ∈ isoDc cc ∧ d.length = n) := by
  unfold readDC dcSize
  refine (Reads.bindId (reads_huff (pf_dc cc) (dc_ne_nil cc)) fun n _ => Reads.seq (reads_read n) fun v _ =>
    Reads.pure (fun _ => ()) _).congr ?_
  intro l u
  have mem : ∀ z n, (z, n) ∈ (if cc = 0 then dcLumaTable else dcChromaTable) ↔ (z, n) ∈ isoDc cc := by
    intro z n
    unfold isoDc
    split
    · exact same_dcLuma _
    · exact same_dcChroma _
  constructor
  · rintro ⟨z, l2, n, rfl, hz, d, l3, v, rfl, ⟨hd, -⟩, rfl, -⟩
    exact ⟨z, d, n, by simp, (mem z n).1 hz, hd⟩
  · rintro ⟨z, d, n, rfl, hz, hd⟩
    exact ⟨z, d, n, rfl, (mem z n).2 hz, d, [], _, by simp, ⟨hd, rfl⟩, rfl, rfl⟩

theorem bind_pure_panic {σ α γ : Type} {m : Go σ α} {f : α → γ} {s : σ} :
    ((m >>= fun a => pure (f a)) s).1 = .panic ↔ (m s).1 = .panic := by
  constructor
  · intro h
    rcases Traps.bind_panic_inv h with h | ⟨a, s', h1, h2⟩
    · exact h
    · cases h2
  · exact Reads.bind_panic'

theorem traps_pure {σ α γ : Type} {p : σ → BR} {m : Go σ α} {f : α → γ} {I : σ → Prop} {F G : List Bool → Prop}
    (h : Traps p m I F G) : Traps p (m >>= fun a => pure (f a)) I F G :=
  ⟨fun s hs hp => h.only s hs (bind_pure_panic.1 hp), fun l s r hs hl hb hr => bind_pure_panic.2 (h.sure l s r hs hl hb hr)⟩

theorem traps_block (b : Block) (p : DcPred) (fmt cc : Nat) (intra : Bool) :
    Traps id (readBlock b p fmt cc intra) (fun _ => True) (BlockOver intra fmt cc) (fun _ => False) := by
  unfold readBlock
  cases intra with
  | false =>
    rw [if_neg (by decide)]
    refine (traps_pure (f := fun c => (c, p)) (traps_coeff false 0 b (by omega) (by simp))).congr (fun l => ?_) (fun l h => .inr h)
    constructor
    · rintro ⟨evs, h1, h2⟩
      exact .nonintra evs l rfl h1 (by omega)
    · intro h
      cases h with
      | nonintra evs _ _ h1 h2 => exact ⟨evs, h1, by omega⟩
      | intra _ _ _ _ _ hi => cases hi
  | true =>
    rw [if_pos rfl]
    refine (Traps.safeBind (J := fun _ _ => True) (F2 := fun _ l => ∃ evs, CodedEvents (fmt == 1) (decide (1 = 0)) evs l ∧
      64 < 1 + (expand evs).length) (G2 := fun _ _ => False) (reads_dc cc (p.get cc)) (safe_readDC _ _)
      (fun _ _ _ _ _ => trivial) fun dc _ =>
        traps_pure (f := fun c => (c, p.set cc dc)) (traps_coeff (fmt == 1) 1 _ (by omega) (by simp))).congr (fun l => ?_)
      (fun l => by rintro ⟨_, _, _, _, _, h⟩; exact h.elim)
    constructor
    · rintro ⟨_, l2, -, rfl, ⟨z, d, n, rfl, hz, hd⟩, evs, h1, h2⟩
      exact .intra n z d evs l2 rfl hz hd h1 (by omega)
    · intro h
      cases h with
      | nonintra _ _ hi => cases hi
      | intra n z d evs l2 _ hz hd h1 h2 => exact ⟨_, l2, (), rfl, ⟨z, d, n, rfl, hz, hd⟩, evs, h1, by omega⟩

theorem mbBlock_panic {e : PicEnv} {intra : Bool} {i : Nat} {b : Block} {s : MB} :
    (mbBlock e intra true i b s).1 = .panic ↔
      (readBlock b s.dcp e.pce.intraVLCFormat (colorChannel i) intra s.br).1 = .panic := by
  unfold mbBlock
  rw [if_pos rfl]
  cases hx : readBlock b s.dcp e.pce.intraVLCFormat (colorChannel i) intra s.br with
  | mk x y => cases x <;> simp

theorem traps_mbBlock (e : PicEnv) (intra coded : Bool) (i : Nat) (b : Block) (I : MB → Prop) :
    Traps MB.br (mbBlock e intra coded i b) I
      (fun l => coded = true ∧ BlockOver intra e.pce.intraVLCFormat (colorChannel i) l) (fun _ => False) := by
  cases coded with
  | false =>
    constructor
    · intro s _ h; cases h
    · rintro l s r _ ⟨h, -⟩; cases h
  | true =>
    constructor
    · intro s _ h
      obtain ⟨l, r, hb, hl⟩ := (traps_block b s.dcp e.pce.intraVLCFormat (colorChannel i) intra).only s.br trivial (mbBlock_panic.1 h)
      exact ⟨l, r, hb, hl.imp (fun h => ⟨rfl, h⟩) id⟩
    · rintro l s r _ ⟨-, hl⟩ hb hr
      exact mbBlock_panic.2 ((traps_block b s.dcp e.pce.intraVLCFormat (colorChannel i) intra).sure l s.br r trivial hl hb hr)

theorem mbBlock_state {e : PicEnv} {intra coded : Bool} {i : Nat} {b b' : Block} {s s' : MB}
    (h : mbBlock e intra coded i b s = (.ok b', s')) : s'.frame = s.frame ∧ s'.mvd = s.mvd := by
  unfold mbBlock at h
  split at h
  · cases hx : readBlock b s.dcp e.pce.intraVLCFormat (colorChannel i) intra s.br with
    | mk x y =>
      rw [hx] at h
      cases x with
      | ok c => cases h; exact ⟨rfl, rfl⟩
      | err y => cases h
      | panic => cases h
      | hang => cases h
  · cases h; exact ⟨rfl, rfl⟩

/-! ### the block loop -/

theorem traps_mbBlocks (e : PicEnv) (intra dct : Bool) (coded : Nat → Bool) (a row W H : Nat) (d : MVD) (P : Prop)
    (hfin : ∀ b j f, j < 6 → Geometry f W H → finishBlock e d b j a row dct f = none → ¬ FitsBlock W H row a dct j ∨ P)
    (k : Nat) : ∀ (i : Nat) (b : Block), i + k ≤ 6 → Traps MB.br (mbBlocks e intra dct coded a row k i b)
      (fun s => Geometry s.frame W H ∧ s.mvd = d)
      (BlocksFault intra e.pce.intraVLCFormat coded (FitsBlock W H row a dct) k i)
      (fun l => P ∧ ∃ j, j < k ∧ BlocksWord intra e.pce.intraVLCFormat coded (j + 1) i l) := by
  induction k with
  | zero =>
    intro i b _
    constructor
    · intro s _ h; cases h
    · intro l s r _ h; cases h
  | succ k ih =>
    intro i b hk
    unfold mbBlocks
    have hread := reads_mbBlock e intra (coded i) i b
    rw [(blockComp_eq (i := i) (by omega)).1] at hread
    have htrap := traps_mbBlock e intra (coded i) i b (fun s => Geometry s.frame W H ∧ s.mvd = d)
    rw [(blockComp_eq (i := i) (by omega)).1] at htrap
    have rest : ∀ b', Traps MB.br (do
          let s ← Go.get
          let f ← orPanic (finishBlock e s.mvd b' i a row dct s.frame)
          Go.modify fun s => { s with frame := f }
          mbBlocks e intra dct coded a row k (i + 1) b') (fun s => Geometry s.frame W H ∧ s.mvd = d)
        (fun l => (¬ FitsBlock W H row a dct i ∧ l = []) ∨
          BlocksFault intra e.pce.intraVLCFormat coded (FitsBlock W H row a dct) k (i + 1) l)
        (fun l => P ∧ (l = [] ∨ ∃ j, j < k ∧ BlocksWord intra e.pce.intraVLCFormat coded (j + 1) (i + 1) l)) := by
      intro b'
      constructor
      · rintro s ⟨g, hd⟩ h
        rw [Go.bind_ok (Go.get_apply s)] at h
        cases hx : finishBlock e s.mvd b' i a row dct s.frame with
        | none =>
          rw [hd] at hx
          rcases hfin _ _ _ (by omega) g hx with h' | h'
          · exact ⟨[], _, rfl, .inl (.inl ⟨h', rfl⟩)⟩
          · exact ⟨[], _, rfl, .inr ⟨h', .inl rfl⟩⟩
        | some f =>
          rw [hx] at h
          obtain ⟨l, r, hb, hl⟩ := (ih (i + 1) b' (by omega)).only { s with frame := f } ⟨finishBlock_geometry g hx, hd⟩ h
          exact ⟨l, r, hb, hl.imp .inr fun h => ⟨h.1, .inr h.2⟩⟩
      · rintro l s r ⟨g, hd⟩ hl hb hr
        rw [Go.bind_ok (Go.get_apply s)]
        cases hx : finishBlock e s.mvd b' i a row dct s.frame with
        | none => rfl
        | some f =>
          rcases hl with ⟨h, rfl⟩ | h
          · rw [finishBlock_sure g (by omega) h] at hx; cases hx
          · exact (ih (i + 1) b' (by omega)).sure l { s with frame := f } r ⟨finishBlock_geometry g hx, hd⟩ h hb hr
    refine (Traps.bind (J := fun _ s => Geometry s.frame W H ∧ s.mvd = d)
      (F2 := fun _ l => (¬ FitsBlock W H row a dct i ∧ l = []) ∨
          BlocksFault intra e.pce.intraVLCFormat coded (FitsBlock W H row a dct) k (i + 1) l)
      (G2 := fun _ l => P ∧ (l = [] ∨ ∃ j, j < k ∧ BlocksWord intra e.pce.intraVLCFormat coded (j + 1) (i + 1) l))
      hread htrap ?_ fun b' _ => rest b').congr (fun l => ?_) (fun l => ?_)
    · rintro s b' s' ⟨g, hd⟩ h
      obtain ⟨h1, h2⟩ := mbBlock_state h
      rw [h1, h2]; exact ⟨g, hd⟩
    · constructor
      · rintro (⟨h1, h2⟩ | ⟨l1, l2, -, rfl, h1, h2 | h2⟩)
        · exact .over k i l h1 h2
        · rw [h2.2, List.append_nil]
          exact .place k i l1 h1 h2.1
        · exact .next k i l1 l2 h1 h2
      · intro h
        cases h with
        | over _ _ _ h1 h2 => exact .inl ⟨h1, h2⟩
        | place _ _ _ h1 h2 => exact .inr ⟨l, [], (), by simp, h1, .inl ⟨h2, rfl⟩⟩
        | next _ _ l1 l2 h1 h2 => exact .inr ⟨l1, l2, (), rfl, h1, .inr h2⟩
    · rintro (h | ⟨l1, l2, -, rfl, h1, hP, h2⟩)
      · exact h.elim
      · refine .inr ⟨hP, ?_⟩
        have app : ∀ j m, BlocksWord intra e.pce.intraVLCFormat coded j (i + 1) m →
            BlocksWord intra e.pce.intraVLCFormat coded (j + 1) i (l1 ++ m) := by
          intro j m hm
          cases hc : coded i with
          | true => rw [hc, if_pos rfl] at h1; exact .coded j i l1 m hc h1 hm
          | false => rw [hc, if_neg (by decide)] at h1; subst h1; exact .uncoded j i m hc hm
        rcases h2 with rfl | ⟨j, hj, hw⟩
        · exact ⟨0, by omega, app 0 [] (.nil _)⟩
        · exact ⟨j + 1, by omega, app (j + 1) l2 hw⟩

theorem BlocksFault.congr {intra : Bool} {fmt : Nat} {c c' : Nat → Bool} {fits : Nat → Prop} {k i : Nat} {l : List Bool}
    (hc : ∀ j, i ≤ j → j < i + k → c j = c' j) (h : BlocksFault intra fmt c fits k i l) : BlocksFault intra fmt c' fits k i l := by
  induction h with
  | over k i l hi h => exact .over k i l (by rw [← hc i (by omega) (by omega)]; exact hi) h
  | place k i l h hf => exact .place k i l (by unfold SomeBlock at h ⊢; rw [← hc i (by omega) (by omega)]; exact h) hf
  | next k i l m h t ih =>
    exact .next k i l m (by unfold SomeBlock at h ⊢; rw [← hc i (by omega) (by omega)]; exact h)
      (ih fun j h1 h2 => hc j (by omega) (by omega))

theorem traps_finish {e : PicEnv} (he : Plain e) (row a W H : Nat) (m : Mode) (cbp : Nat) (d : MVD) (P : Prop)
    (hfin : ∀ b j f, j < 6 → Geometry f W H → finishBlock e d b j a row m.dctType f = none →
      ¬ FitsBlock W H row a m.dctType j ∨ P) :
    Traps MB.br (mbFinish e row a m cbp) (fun s => Geometry s.frame W H ∧ s.mvd = d)
      (BlocksFault m.type.intra e.pce.intraVLCFormat (fun i => m.type.intra || (m.type.pattern && codedBlock cbp i))
        (FitsBlock W H row a m.dctType) 6 0)
      (fun l => P ∧ ∃ j, j < 6 ∧ BlocksWord m.type.intra e.pce.intraVLCFormat
        (fun i => m.type.intra || (m.type.pattern && codedBlock cbp i)) (j + 1) 0 l) := by
  unfold mbFinish
  rw [he.chroma]
  refine (traps_pure (f := fun _ => a) (traps_mbBlocks e _ _ _ a row W H d P hfin 6 0 Block.zero (by decide))).congr
    (fun l => ⟨fun h => ?_, fun h => ?_⟩) (fun l h => ?_)
  · exact BlocksFault.congr (fun j _ h2 => pattern_eq cbp _ _ (by omega)) h
  · exact BlocksFault.congr (fun j _ h2 => (pattern_eq cbp _ _ (by omega)).symm) h
  · obtain ⟨hP, j, hj, hw⟩ := h
    exact .inr ⟨hP, j, hj, BlocksWord.congr (fun j _ h2 => pattern_eq cbp _ _ (by omega)) hw⟩

end Mpeg.Video
