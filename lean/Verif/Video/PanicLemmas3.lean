/-
Panics of macroblocks up to their blocks.
-/
import Verif.Video.PanicLemmas2
set_option linter.all false
namespace Mpeg.Video
open Spec
open _root_.Mpeg.BR (Took)

/-! ### the start of a macroblock -/

theorem reads_incr : Reads id mbIncrement id (fun l n => ∃ k c v, l = escapes k ++ c ∧ (c, v) ∈ isoAddress ∧ n = 33 * k + v) := by
  constructor
  · rintro l b s r ⟨k, c, v, rfl, hm, rfl⟩ hb hr
    obtain ⟨bits, pos, stop, later⟩ := s
    dsimp only [id] at hb
    subst hb
    have hm' : (c, v) ∈ addrTable := (same_addr _).2 hm
    have h := mbIncrement_run hm' (r := r) (by rw [List.length_append]; omega) k pos stop later
    rw [← List.append_assoc] at h
    exact .inr ⟨_, _, h, rfl, ⟨rfl, by simp only [id, List.length_append, escapes_length]; omega, rfl, rfl⟩⟩
  · intro s a s' h
    obtain ⟨k, c, v, hn, hm, t⟩ := mbIncrement_inv h
    exact ⟨_, ⟨k, c, v, rfl, (same_addr _).1 hm, hn⟩, t⟩

/-- The bits of a mode, with all its fields. -/
def ModeAt (e : PicEnv) (l : List Bool) (m : Mode) : Prop :=
  ∃ type motion dct, l = type ++ (motion ++ dct) ∧ (type, m.type) ∈ isoType e.ph.pictureCodingType ∧
    motion.length = (if (m.type.forward || m.type.backward) && motionCoded e then 2 else 0) ∧
    dct.length = (if e.pce.pictureStructure == 3 && e.pce.framePredFrameDCT == 0 && (m.type.intra || m.type.pattern) then 1 else 0) ∧
    m.frameMotion = (if e.pce.pictureStructure = 3 then natOfBits motion else 0) ∧
    m.fieldMotion = (if e.pce.pictureStructure = 3 then 0 else natOfBits motion) ∧ m.dctType = (dct == [true])

theorem reads_modeAt (e : PicEnv) : Reads id (macroblockMode e) id (ModeAt e) := by
  unfold macroblockMode
  have r2 : ∀ c : Bool, Reads id (Go.opt c 0 (BR.read 2)) id
      (fun l v => l.length = (if c then 2 else 0) ∧ v = natOfBits l) := by
    intro c
    refine (reads_read 2).opt.congr ?_
    intro l v
    cases c with
    | true => exact Iff.rfl
    | false =>
      simp only [Bool.false_eq_true, ↓reduceIte, id, List.length_eq_zero_iff]
      constructor
      · rintro ⟨rfl, rfl⟩; exact ⟨rfl, rfl⟩
      · rintro ⟨rfl, rfl⟩; exact ⟨rfl, rfl⟩
  have r1 : ∀ c : Bool, Reads id (Go.opt c false BR.read1) id
      (fun l v => l.length = (if c then 1 else 0) ∧ v = (l == [true])) := by
    intro c
    refine reads_read1.opt.congr ?_
    intro l v
    cases c with
    | true =>
      constructor
      · intro h
        have h : l = [v] := by simpa using h
        subst h
        cases v <;> decide
      · rintro ⟨h, hv⟩
        match l, h with
        | [b], _ => subst hv; cases b <;> decide
    | false =>
      simp only [Bool.false_eq_true, ↓reduceIte, id, List.length_eq_zero_iff]
      constructor
      · rintro ⟨rfl, rfl⟩; exact ⟨rfl, rfl⟩
      · rintro ⟨rfl, rfl⟩; exact ⟨rfl, rfl⟩
  refine (Reads.bindId (w := id) (reads_mbType _) fun t _ => Reads.bindId (w := id) (r2 _) fun frm _ =>
    Reads.bindId (w := id) (r2 _) fun fld _ =>
    Reads.bindId (w := id) (r1 _) (K := fun d l b => l = [] ∧ b = (⟨t, frm, fld, d⟩ : Mode)) fun d _ => Reads.pure id _).congr ?_
  rintro l ⟨t, frm, fld, dt⟩
  unfold ModeAt motionCoded
  dsimp only
  by_cases h3 : e.pce.pictureStructure = 3
  · have b3 : (e.pce.pictureStructure == framePicture) = true := by rw [h3]; rfl
    have b3' : (e.pce.pictureStructure == 3) = true := by rw [h3]; rfl
    have b4 : (e.pce.pictureStructure != framePicture) = false := by rw [h3]; rfl
    have b4' : (e.pce.pictureStructure != 3) = false := by rw [h3]; rfl
    simp only [b3, b3', b4, b4', Bool.and_true, Bool.true_and, Bool.and_false, Bool.false_or, if_pos h3, Bool.false_eq_true,
      ↓reduceIte]
    constructor
    · rintro ⟨l1, l2, t', rfl, h1, l3, l4, frm', rfl, ⟨h2, h2'⟩, l5, l6, fld', rfl, ⟨h4, h4'⟩, l7, l8, u, rfl, ⟨h5, h5'⟩, rfl, h6⟩
      cases h6
      have : l5 = [] := List.length_eq_zero_iff.mp h4
      subst this
      exact ⟨l1, l3, l7, by simp, h1, h2, h5, h2', h4', h5'⟩
    · rintro ⟨l1, l3, l7, rfl, h1, h2, h5, h2', h4', h5'⟩
      exact ⟨l1, _, t, rfl, h1, l3, _, frm, rfl, ⟨h2, h2'⟩, [], l7, 0, rfl, ⟨rfl, rfl⟩, l7, [], dt, by simp, ⟨h5, h5'⟩, rfl,
        by rw [h4']⟩
  · have b3 : (e.pce.pictureStructure == framePicture) = false := by simpa using h3
    have b3' : (e.pce.pictureStructure == 3) = false := by simpa using h3
    have b4 : (e.pce.pictureStructure != framePicture) = true := by simpa using h3
    have b4' : (e.pce.pictureStructure != 3) = true := by simpa using h3
    simp only [b3, b3', b4, b4', Bool.and_true, Bool.true_and, Bool.and_false, Bool.false_and, Bool.true_or, if_neg h3,
      Bool.false_eq_true, ↓reduceIte]
    constructor
    · rintro ⟨l1, l2, t', rfl, h1, l3, l4, frm', rfl, ⟨h2, h2'⟩, l5, l6, fld', rfl, ⟨h4, h4'⟩, l7, l8, u, rfl, ⟨h5, h5'⟩, rfl, h6⟩
      cases h6
      have : l3 = [] := List.length_eq_zero_iff.mp h2
      subst this
      exact ⟨l1, l5, l7, by simp, h1, h4, h5, h2', h4', h5'⟩
    · rintro ⟨l1, l5, l7, rfl, h1, h4, h5, h2', h4', h5'⟩
      exact ⟨l1, _, t, rfl, h1, [], _, 0, rfl, ⟨rfl, rfl⟩, l5, _, fld, rfl, ⟨h4, h4'⟩, l7, [], dt, by simp, ⟨h5, h5'⟩, rfl,
        by rw [h2']⟩

theorem ModeAt.word {e : PicEnv} {l : List Bool} {m : Mode} (h : ModeAt e l m) : ModeWord e l m.key := by
  obtain ⟨type, motion, dct, h1, h2, h3, h4, h5, h6, -⟩ := h
  exact ⟨type, motion, dct, h1, h2, h3, h4, h5, h6⟩

/-- The quantiser scale of a macroblock. -/
def mbQuant (m : Mode) : Go MB Unit := Go.opt m.type.quant () do
  let q ← MB.lift (BR.read 5)
  Go.modify fun s => { s with qsc := q }

/-- A macroblock up to its vectors. -/
def mbStart (e : PicEnv) (row : Nat) (addr : Option Nat) : Go MB (Nat × Mode) := do
  let incr ← MB.lift mbIncrement
  copySkipped e row addr incr
  skipResets e incr
  let m ← MB.lift (macroblockMode e)
  modeResets e m.type
  mbQuant m
  pure (incr, m)

/-- The vectors of a macroblock. -/
def mbVecs (e : PicEnv) (m : Mode) : Go MB Unit := do
  Go.opt (m.type.forward || (m.type.intra && e.pce.concealmentMotionVectors)) () (motionVectors e 0 m)
  Go.opt m.type.backward () (motionVectors e 1 m)
  Go.modify fun s => { s with mvd := s.mvd.setFormed m.type e.ph.pictureCodingType }
  Go.opt (m.type.intra && e.pce.concealmentMotionVectors) () (MB.lift markerBit)

theorem mbHead_split (e : PicEnv) (row : Nat) (addr : Option Nat) :
    mbHead e row addr = mbStart e row addr >>= fun x => mbVecs e x.2 >>= fun _ => pure x := by
  unfold mbHead mbStart mbVecs mbVectors mbQuant
  simp only [bind_assoc, pure_bind]

/-- The bits of the start of a macroblock. -/
def StartAt (e : PicEnv) (l : List Bool) (x : Nat × Mode) : Prop :=
  ∃ motion, HeadStart e x.2.type x.1 x.2.dctType motion l ∧
    x.2.frameMotion = (if e.pce.pictureStructure = 3 then natOfBits motion else 0) ∧
    x.2.fieldMotion = (if e.pce.pictureStructure = 3 then 0 else natOfBits motion)

theorem reads_quant (m : Mode) : Reads MB.br (mbQuant m) (fun _ => ()) (fun l _ => l.length = if m.type.quant then 5 else 0) := by
  unfold mbQuant
  have h : Reads MB.br (do
    let q ← MB.lift (BR.read 5)
    Go.modify fun s => { s with qsc := q } : Go MB Unit) (fun _ => ()) (fun l _ => l.length = 5) := by
    refine (Reads.seq (reads_read 5).lift (K := fun l _ => l = []) fun _ _ => Reads.modify (by exact fun _ => rfl)).congr ?_
    intro l u
    constructor
    · rintro ⟨l1, l2, b, rfl, ⟨h, -⟩, rfl⟩; simpa using h
    · intro h; exact ⟨l, [], _, by simp, ⟨h, rfl⟩, rfl⟩
  refine h.opt.congr ?_
  intro l u
  cases m.type.quant with
  | true => exact Iff.rfl
  | false => simp [List.length_eq_zero_iff]

theorem reads_start (e : PicEnv) (row : Nat) (addr : Option Nat) : Reads MB.br (mbStart e row addr) id (StartAt e) := by
  unfold mbStart
  refine (Reads.bindId (w := id) (K := fun n l x => n = x.1 ∧ ∃ l1 q, l = l1 ++ q ∧ ModeAt e l1 x.2 ∧
      q.length = if x.2.type.quant then 5 else 0) reads_incr.lift fun n _ => ?_).congr ?_
  · refine (Reads.seq (Reads.silent (silent_copySkipped e row addr n)) fun _ _ =>
      Reads.seq (Reads.modify (by exact fun _ => rfl)) fun _ _ => Reads.bindId (w := id) (reads_modeAt e).lift
        (K := fun m l x => x = (n, m) ∧ l.length = if m.type.quant then 5 else 0) fun m _ => ?_).congr ?_
    · refine (Reads.seq (Reads.modify (by exact fun _ => rfl)) fun _ _ => Reads.seq (reads_quant m) fun _ _ =>
        Reads.pure id _).congr fun l x => ?_
      constructor
      · rintro ⟨l1, l2, -, rfl, rfl, l3, l4, -, rfl, h, rfl, hx⟩
        exact ⟨hx, by simpa using h⟩
      · rintro ⟨hx, h⟩
        exact ⟨[], l, (), rfl, rfl, l, [], (), by simp, h, rfl, hx⟩
    · intro l x
      constructor
      · rintro ⟨l1, l2, -, rfl, rfl, l3, l4, -, rfl, rfl, l5, l6, m, rfl, h1, rfl, h2⟩
        exact ⟨rfl, l5, l6, rfl, h1, h2⟩
      · obtain ⟨n', m⟩ := x
        rintro ⟨h, l5, l6, rfl, h1, h2⟩
        have h : n = n' := h
        subst h
        exact ⟨[], _, (), rfl, rfl, [], _, (), rfl, rfl, l5, l6, m, rfl, h1, rfl, h2⟩
  · rintro l ⟨n, m⟩
    constructor
    · rintro ⟨l1, l2, n', rfl, ⟨k, c, v, rfl, hc, rfl⟩, hn, l3, q, rfl, ⟨type, motion, dct, rfl, h1, h2, h3, h4, h5, h6⟩, hq⟩
      have hn : 33 * k + v = n := hn
      refine ⟨motion, ?_, h4, h5⟩
      have := HeadStart.mk (e := e) (motion := motion) k v c type dct q hn.symm hc h1 h2 h3 h6 hq
      simpa using this
    · rintro ⟨motion, h, h4, h5⟩
      cases h with
      | mk k v c type dct q hn hc h1 h2 h3 h6 hq =>
        exact ⟨escapes k ++ c, type ++ (motion ++ dct) ++ q, n, by simp, ⟨k, c, v, rfl, hc, hn⟩, rfl, _, q, rfl,
          ⟨type, motion, dct, rfl, h1, h2, h3, h4, h5, h6⟩, hq⟩

/-! ### vectors -/

theorem StartAt.mode {e : PicEnv} {l : List Bool} {x : Nat × Mode} (h : StartAt e l x) : ∃ l, ModeWord e l x.2.key := by
  obtain ⟨motion, h, h4, h5⟩ := h
  cases h with
  | mk k v c type dct q hn hc h1 h2 h3 h6 hq => exact ⟨_, type, motion, dct, rfl, h1, h2, h3, h4, h5⟩

theorem reads_rest {e : PicEnv} (he : Plain e) (m : Mode) (hm : ∃ l, ModeWord e l m.key) :
    Reads MB.br (mbVecs e m) (fun _ => ()) (fun l _ => ∃ f b mark, l = f ++ (b ++ mark) ∧
      (if m.type.forward || conceals e m.type then MotionWord e (keyMotion e m.key) 0 f else f = []) ∧
      (if m.type.backward then MotionWord e (keyMotion e m.key) 1 b else b = []) ∧
      mark = if conceals e m.type then [true] else []) := by
  obtain ⟨lm, hm⟩ := hm
  have vec : ∀ s < 2, Reads MB.br (motionVectors e s m) (fun _ => ()) (fun l _ => MotionWord e (keyMotion e m.key) s l) :=
    fun s hs => reads_vectors he.codes hs fun info h => mvInfo_format he hm h
  unfold mbVecs
  refine (Reads.seq (vec 0 (by decide)).opt fun _ _ => Reads.seq (vec 1 (by decide)).opt fun _ _ =>
    Reads.seq (Reads.modify (by exact fun _ => rfl)) fun _ _ => reads_marker.lift.opt).congr ?_
  intro l u
  have hx : ∀ (c : Bool) (P : Prop) (x : List Bool), (if c then P else x = [] ∧ u = ()) ↔ (if c then P else x = []) := by
    intro c P x; cases c <;> simp
  show (∃ l1 l2 b, l = l1 ++ l2 ∧ _ ∧ _) ↔ _
  unfold conceals
  constructor
  · rintro ⟨l3, l4, u2, rfl, h2, l5, l6, u3, rfl, h3, l7, l8, u4, rfl, rfl, h4⟩
    refine ⟨l3, l5, l8, by simp, (hx _ _ _).1 h2, (hx _ _ _).1 h3, ?_⟩
    have := (hx _ _ _).1 h4
    split at this
    · rename_i hc; rw [if_pos hc]; exact this
    · rename_i hc; rw [if_neg hc]; exact this
  · rintro ⟨l3, l5, l8, rfl, h2, h3, h4⟩
    refine ⟨l3, _, (), rfl, (hx _ _ _).2 h2, l5, _, (), rfl, (hx _ _ _).2 h3, [], l8, (), rfl, rfl,
      (hx _ _ _).2 ?_⟩
    split
    · rename_i hc; rw [if_pos hc] at h4; exact h4
    · rename_i hc; rw [if_neg hc] at h4; exact h4

theorem reads_headAt {e : PicEnv} (he : Plain e) (row : Nat) (addr : Option Nat) :
    Reads MB.br (mbHead e row addr) (fun x => (x.2.type, x.1, x.2.dctType)) (fun l b => HeadAt e b.1 b.2.1 b.2.2 l) := by
  rw [mbHead_split]
  refine (Reads.bindId (K := fun x l b => b = (x.2.type, x.1, x.2.dctType) ∧ ∃ f b mark, l = f ++ (b ++ mark) ∧
      (if x.2.type.forward || conceals e x.2.type then MotionWord e (keyMotion e x.2.key) 0 f else f = []) ∧
      (if x.2.type.backward then MotionWord e (keyMotion e x.2.key) 1 b else b = []) ∧
      mark = if conceals e x.2.type then [true] else []) (reads_start e row addr) fun x hx => ?_).congr ?_
  · obtain ⟨l0, h0⟩ := hx
    refine (Reads.seq (reads_rest he x.2 h0.mode) fun _ _ => Reads.pure (fun x : Nat × Mode => (x.2.type, x.1, x.2.dctType)) x).congr ?_
    intro l b
    constructor
    · rintro ⟨l1, l2, -, rfl, h, rfl, hb⟩
      exact ⟨hb, by simpa using h⟩
    · rintro ⟨hb, h⟩
      exact ⟨l, [], (), by simp, h, rfl, hb⟩
  · rintro l ⟨t, n, field⟩
    dsimp only
    constructor
    · rintro ⟨l1, l2, ⟨n', m⟩, rfl, ⟨motion, hs, h4, h5⟩, hb, f, b, mark, rfl, hF, hB, hM⟩
      cases hb
      have hk : keyMotion e m.key = motionType e motion := by
        cases hs with
        | mk k v c type dct q hn hc h1 h2 h3 h6 hq => exact keyMotion_eq h2 h4 h5
      rw [hk] at hF hB
      exact .mk l1 motion f b mark hs hF hB hM
    · intro h
      cases h with
      | mk start motion f b mark hs hF hB hM =>
        let m : Mode := ⟨t, if e.pce.pictureStructure = 3 then natOfBits motion else 0,
          if e.pce.pictureStructure = 3 then 0 else natOfBits motion, field⟩
        have hk : keyMotion e m.key = motionType e motion := by
          cases hs with
          | mk k v c type dct q hn hc h1 h2 h3 h6 hq => exact keyMotion_eq h2 rfl rfl
        refine ⟨start, f ++ (b ++ mark), (n, m), rfl, ⟨motion, hs, rfl, rfl⟩, rfl, f, b, mark, rfl, ?_, ?_, hM⟩
        · rw [hk]; exact hF
        · rw [hk]; exact hB

theorem headWord_iff {e : PicEnv} {t : MacroblockType} {l : List Bool} :
    HeadWord e t l ↔ ∃ n field, HeadAt e t n field l := by
  constructor
  · rintro ⟨k, v, t, addr, type, motion, dct, q, f, b, mark, hA, hT, hMo, hD, hQ, hF, hB, hM⟩
    refine ⟨33 * k + v, dct == [true], ?_⟩
    have := HeadAt.mk _ motion f b mark (HeadStart.mk (e := e) (t := t) (motion := motion) k v addr type dct q rfl hA hT hMo hD rfl hQ) hF hB hM
    simpa using this
  · rintro ⟨n, field, h⟩
    cases h with
    | mk start motion f b mark hs hF hB hM =>
      cases hs with
      | mk k v addr type dct q hn hA hT hMo hD _ hQ =>
        have := HeadWord.mk (e := e) k v t addr type motion dct q f b mark hA hT hMo hD hQ hF hB hM
        simpa using this

/-! ### panics of the start -/

theorem safe_motion {f : Nat} : Go.Safe (readMotion f) :=
  .bind (safe_huffDecode (PrefixFree.ne_nil pf_motion) (by decide)) fun _ => .bind (.opt (BR.safe_read _)) fun _ => .pure _

theorem mode_panic {e : PicEnv} {s : BR} (h : (macroblockMode e s).1 = .panic) :
    e.ph.pictureCodingType ≠ 1 ∧ e.ph.pictureCodingType ≠ 2 ∧ e.ph.pictureCodingType ≠ 3 := by
  unfold macroblockMode at h
  rcases Traps.bind_panic_inv h with h | ⟨t, s', -, h⟩
  · unfold mbType at h
    have no : ∀ (t : Table MacroblockType) (pf : PrefixFree t) (ne : t ≠ []), (huffDecode t s).1 ≠ .panic :=
      fun t pf ne => (safe_huffDecode (PrefixFree.ne_nil pf) ne s).1
    refine ⟨?_, ?_, ?_⟩ <;> intro hp <;> rw [hp] at h
    · exact no _ pf_iType (by decide) h
    · exact no _ pf_pType (by decide) h
    · exact no _ pf_bType (by decide) h
  · exfalso
    exact (Go.Safe.bind (.opt (BR.safe_read 2)) (fun _ => .bind (.opt (BR.safe_read 2)) fun _ =>
      .bind (.opt BR.safe_read1) fun _ => .pure _) s').1 h

theorem copySkipped_panic {e : PicEnv} {row n W H : Nat} {addr : Option Nat} {s : MB} (g : Geometry s.frame W H)
    (hp : PastOK e W H) (h : (copySkipped e row addr n s).1 = .panic) :
    ∃ a, addr = some a ∧ 1 < n ∧ (e.ph.pictureCodingType = 2 ∧ (e.past = none ∨ ¬ FitsCopy W H row (a + n)) ∨
      e.ph.pictureCodingType = 3) := by
  unfold copySkipped at h
  cases addr with
  | none => cases h
  | some a =>
    dsimp only at h
    split at h
    · rename_i hn
      refine ⟨a, rfl, hn, ?_⟩
      split at h
      · rename_i ht
        refine .inl ⟨ht, ?_⟩
        cases hq : e.past with
        | none => exact .inl rfl
        | some f =>
          right
          rw [hq] at h
          refine (pframeCopy_none g (hp ht f hq) hn).1 ?_
          cases hx : pframeCopy row (a + 1) (n - 1) s.frame (some f) with
          | none => rfl
          | some f' => rw [hx] at h; cases h
      · split at h
        · rename_i ht
          exact .inr ht
        · cases h
    · cases h

theorem copySkipped_sure {e : PicEnv} {row n a W H : Nat} {s : MB} (g : Geometry s.frame W H)
    (hp : PastOK e W H) (hn : 1 < n) (ht : e.ph.pictureCodingType = 2)
    (h : e.past = none ∨ ¬ FitsCopy W H row (a + n)) : (copySkipped e row (some a) n s).1 = .panic := by
  unfold copySkipped
  dsimp only
  rw [if_pos hn, if_pos ht]
  have : pframeCopy row (a + 1) (n - 1) s.frame e.past = none := by
    cases hq : e.past with
    | none => rfl
    | some f =>
      rw [hq] at h
      rcases h with h | h
      · cases h
      · exact (pframeCopy_none g (hp ht f hq) hn).2 h
  rw [this]
  rfl

theorem fr_start {e : PicEnv} (W H row : Nat) (addr : Option Nat) :
    Keeps (OnFrame fun f => Geometry f W H) (mbStart e row addr) := by
  have hk := keep_geometry e W H
  unfold mbStart mbQuant
  exact keeps_bind (fr_lift _) fun incr => keeps_bind (fr_copySkipped (hk.pcopy row) (hk.bcopy row)) fun _ =>
    keeps_bind (keeps_modify fun _ h => h) fun _ => keeps_bind (fr_lift _) fun m =>
    keeps_bind (keeps_modify fun _ h => h) fun _ =>
    keeps_bind (keeps_opt (keeps_bind (fr_lift _) fun _ => keeps_modify fun _ h => h)) fun _ => keeps_pure _

theorem keeps_ok {σ α : Type} {P : σ → Prop} {m : Go σ α} (h : Keeps P m) {s s' : σ} {a : α} (hs : P s) (hm : m s = (.ok a, s')) :
    P s' := by
  have := h s hs
  rw [hm] at this
  exact this

/-- What happens up to the vectors. -/
def StartFault (e : PicEnv) (W H row : Nat) (addr : Option Nat) (l : List Bool) : Prop :=
  ∃ k v c, l = escapes k ++ c ∧ (c, v) ∈ isoAddress ∧
    ((e.ph.pictureCodingType ≠ 1 ∧ e.ph.pictureCodingType ≠ 2 ∧ e.ph.pictureCodingType ≠ 3) ∨
      ∃ a, addr = some a ∧ 1 < 33 * k + v ∧ e.ph.pictureCodingType = 2 ∧
        (e.past = none ∨ ¬ FitsCopy W H row (a + (33 * k + v))))

def StartRisk (e : PicEnv) (addr : Option Nat) (l : List Bool) : Prop :=
  ∃ k v c, l = escapes k ++ c ∧ (c, v) ∈ isoAddress ∧ addr ≠ none ∧ 1 < 33 * k + v ∧ e.ph.pictureCodingType = 3

theorem traps_start {e : PicEnv} {W H row : Nat} {addr : Option Nat} (hp : PastOK e W H) :
    Traps MB.br (mbStart e row addr) (fun s => Geometry s.frame W H) (StartFault e W H row addr) (StartRisk e addr) := by
  unfold mbStart
  have tc : ∀ n, Traps MB.br (copySkipped e row addr n) (fun s => Geometry s.frame W H)
      (fun l => l = [] ∧ ∃ a, addr = some a ∧ 1 < n ∧ e.ph.pictureCodingType = 2 ∧ (e.past = none ∨ ¬ FitsCopy W H row (a + n)))
      (fun l => l = [] ∧ addr ≠ none ∧ 1 < n ∧ e.ph.pictureCodingType = 3) := by
    intro n
    constructor
    · intro s g h
      obtain ⟨a, ha, hn, h | h⟩ := copySkipped_panic g hp h
      · exact ⟨[], _, rfl, .inl ⟨rfl, a, ha, hn, h.1, h.2⟩⟩
      · exact ⟨[], _, rfl, .inr ⟨rfl, by rw [ha]; simp, hn, h⟩⟩
    · rintro l s r g ⟨rfl, a, rfl, hn, ht, h⟩ hb hr
      exact copySkipped_sure g hp hn ht h
  have hk := keep_geometry e W H
  have tail : ∀ n : Nat, Traps MB.br (do
      skipResets e n
      let m ← MB.lift (macroblockMode e)
      modeResets e m.type
      mbQuant m
      pure (n, m)) (fun s => Geometry s.frame W H)
      (fun l => l = [] ∧ e.ph.pictureCodingType ≠ 1 ∧ e.ph.pictureCodingType ≠ 2 ∧ e.ph.pictureCodingType ≠ 3) (fun _ => False) := by
    intro n
    have rest : ∀ m : Mode, Go.Safe (do
        modeResets e m.type
        mbQuant m
        pure (n, m) : Go MB (Nat × Mode)) := fun m =>
      .bind (.modify _) fun _ => .bind (.opt (.bind (safe_mlift (BR.safe_read 5)) fun _ => .modify _)) fun _ => .pure _
    constructor
    · intro s g h
      rcases Traps.bind_panic_inv h with h | ⟨u, s', -, h⟩
      · cases h
      · rcases Traps.bind_panic_inv h with h | ⟨m, s'', -, h⟩
        · exact ⟨[], _, rfl, .inl ⟨rfl, mode_panic h⟩⟩
        · exact absurd h (rest m _).1
    · rintro l s r g ⟨rfl, h1, h2, h3⟩ hb hr
      have : (skipResets e n s).1 = .ok () := rfl
      rw [Go.bind_ok (Prod.ext this rfl)]
      refine Reads.bind_panic' (Reads.bind_panic' (m := mbType e.ph.pictureCodingType) ?_)
      unfold mbType
      rw [if_neg h1, if_neg h2, if_neg h3]
      rfl
  refine (Traps.safeBind (J := fun _ (s : MB) => Geometry s.frame W H)
    (F2 := fun n l => (l = [] ∧ ∃ a, addr = some a ∧ 1 < n ∧ e.ph.pictureCodingType = 2 ∧
      (e.past = none ∨ ¬ FitsCopy W H row (a + n))) ∨
      (l = [] ∧ e.ph.pictureCodingType ≠ 1 ∧ e.ph.pictureCodingType ≠ 2 ∧ e.ph.pictureCodingType ≠ 3))
    (G2 := fun n l => l = [] ∧ addr ≠ none ∧ 1 < n ∧ e.ph.pictureCodingType = 3)
    reads_incr.lift (safe_mlift safe_mbIncrement) (fun s a s' g h => keeps_ok (fr_lift (P := fun f => Geometry f W H) _) g h)
    fun n _ => ?_).congr (fun l => ?_) (fun l => ?_)
  · refine (Traps.bind (J := fun _ (s : MB) => Geometry s.frame W H) (F2 := fun _ l => l = [] ∧ e.ph.pictureCodingType ≠ 1 ∧
      e.ph.pictureCodingType ≠ 2 ∧ e.ph.pictureCodingType ≠ 3) (G2 := fun _ _ => False)
      (Reads.silent (silent_copySkipped e row addr n)) (tc n)
      (fun s a s' g h => keeps_ok (fr_copySkipped (P := fun f => Geometry f W H) (hk.pcopy row) (hk.bcopy row)) g h)
      fun _ _ => tail n).congr (fun l => ?_) (fun l => ?_)
    · constructor
      · rintro (h | ⟨l1, l2, -, rfl, rfl, h1, h2⟩)
        · exact .inl h
        · exact .inr ⟨by rw [h1]; rfl, h2⟩
      · rintro (h | h)
        · exact .inl h
        · exact .inr ⟨[], l, (), rfl, rfl, h⟩
    · rintro (h | ⟨_, _, _, _, _, h⟩)
      · exact .inr h
      · exact h.elim
  · unfold StartFault
    constructor
    · rintro ⟨l1, l2, n, rfl, ⟨k, c, v, rfl, hc, rfl⟩, (⟨rfl, h⟩ | ⟨rfl, h⟩)⟩
      · exact ⟨k, v, c, by simp, hc, .inr h⟩
      · exact ⟨k, v, c, by simp, hc, .inl h⟩
    · rintro ⟨k, v, c, rfl, hc, h | h⟩
      · exact ⟨_, [], _, by simp, ⟨k, c, v, rfl, hc, rfl⟩, .inr ⟨rfl, h⟩⟩
      · exact ⟨_, [], _, by simp, ⟨k, c, v, rfl, hc, rfl⟩, .inl ⟨rfl, h⟩⟩
  · rintro ⟨l1, l2, n, rfl, ⟨k, c, v, rfl, hc, rfl⟩, rfl, h1, h2, h3⟩
    exact .inr ⟨k, v, c, by simp, hc, h1, h2, h3⟩

end Mpeg.Video
