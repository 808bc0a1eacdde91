/-
The decoder refines the reference decoder: modes, vectors, pattern and the whole macroblock.
-/
import Verif.Video.RefLemmas2
namespace Mpeg.Video
open Spec

variable {stop : Err} {later : List (List Bool × Err)}

theorem Covered.matrix {e : PicEnv} (h : Covered e) (intra : Bool) :
    ∀ x ∈ (if intra then e.qm.m0 else e.qm.m1 : Matrix), x < 256 := by
  cases intra
  · exact h.matrix1
  · exact h.matrix0

/-! ### modes -/

theorem mbType_run {pct : Nat} {c : List Bool} {t : MacroblockType} (h : (c, t) ∈ isoType pct) (r : List Bool)
    (pos : Nat) : mbType pct ⟨c ++ r, pos, stop, later⟩ = (.ok t, ⟨r, pos + c.length, stop, later⟩) := by
  unfold isoType at h
  unfold mbType
  by_cases h1 : pct = 1
  · rw [if_pos h1] at h; rw [if_pos h1]; exact huffDecode_code pf_iType ((same_iType _).2 h) r pos stop later
  rw [if_neg h1] at h; rw [if_neg h1]
  by_cases h2 : pct = 2
  · rw [if_pos h2] at h; rw [if_pos h2]; exact huffDecode_code pf_pType ((same_pType _).2 h) r pos stop later
  rw [if_neg h2] at h; rw [if_neg h2]
  by_cases h3 : pct = 3
  · rw [if_pos h3] at h; rw [if_pos h3]; exact huffDecode_code pf_bType ((same_bType _).2 h) r pos stop later
  rw [if_neg h3] at h; cases h

/-- The mode of a macroblock. -/
def modeOf (e : PicEnv) (m : MbData) : Mode :=
  ⟨m.type, if e.pce.framePredFrameDCT = 0 ∧ (m.type.forward || m.type.backward) = true then 2 else 0, 0, m.dct⟩

theorem opt_true {σ α : Type} (d : α) (m : Go σ α) : Go.opt true d m = m := rfl
theorem opt_false {σ α : Type} (d : α) (m : Go σ α) : Go.opt false d m = pure d := rfl

theorem macroblockMode_run {e : PicEnv} (hs : e.pce.pictureStructure = framePicture)
    (hfp : e.pce.framePredFrameDCT = 0 ∨ e.pce.framePredFrameDCT = 1) {m : MbData} {c : List Bool}
    (ht : (c, m.type) ∈ isoType e.ph.pictureCodingType)
    (hd : m.dct = true → e.pce.framePredFrameDCT = 0 ∧ (m.type.intra || m.type.pattern) = true) (r : List Bool)
    (pos : Nat) :
    macroblockMode e ⟨c ++ (modeBits e.pce.framePredFrameDCT m ++ r), pos, stop, later⟩ =
      (.ok (modeOf e m), ⟨r, pos + c.length + (modeBits e.pce.framePredFrameDCT m).length, stop, later⟩) := by
  unfold macroblockMode
  rw [Go.bind_ok (mbType_run ht _ _)]
  have e0 : (e.pce.pictureStructure == framePicture) = true := by rw [hs]; rfl
  have e1 : (e.pce.pictureStructure != framePicture) = false := by rw [hs]; rfl
  rw [e0, e1]
  simp only [Bool.and_true, Bool.and_false, Bool.true_and]
  unfold modeOf modeBits
  rcases hfp with h0 | h1
  · have e2 : (e.pce.framePredFrameDCT == 0) = true := by rw [h0]; rfl
    rw [e2, h0]
    simp only [Bool.and_true, Bool.true_and, true_and, ↓reduceIte]
    have hfb : ∀ {α : Type} (x : α) (s : BR), (pure x : Go BR α) s = (.ok x, s) := fun _ _ => rfl
    have r2 : ∀ (q : List Bool) (pos : Nat), BR.read 2 ⟨true :: false :: q, pos, stop, later⟩ =
        (.ok 2, ⟨q, pos + 2, stop, later⟩) := fun q pos => BR.read_bitsOf (r := q) 2 2
    cases hm : (m.type.forward || m.type.backward) with
    | true =>
      cases hp : (m.type.intra || m.type.pattern) with
      | true =>
        simp only [↓reduceIte, opt_true, opt_false, List.cons_append, List.nil_append]
        rw [Go.bind_ok (r2 _ _), Go.bind_ok (hfb _ _), Go.bind_ok (BR.read1_cons _)]
        rfl
      | false =>
        have hdct : m.dct = false := by
          cases h : m.dct
          · rfl
          · rw [hp] at hd; exact absurd (hd h).2 (by simp)
        simp only [↓reduceIte, opt_true, opt_false, List.cons_append, List.nil_append, Bool.false_eq_true]
        rw [Go.bind_ok (r2 _ _), Go.bind_ok (hfb _ _), Go.bind_ok (hfb _ _), hdct]
        rfl
    | false =>
      cases hp : (m.type.intra || m.type.pattern) with
      | true =>
        simp only [↓reduceIte, opt_true, opt_false, List.cons_append, List.nil_append, Bool.false_eq_true]
        rw [Go.bind_ok (hfb _ _), Go.bind_ok (hfb _ _), Go.bind_ok (BR.read1_cons _)]
        rfl
      | false =>
        have hdct : m.dct = false := by
          cases h : m.dct
          · rfl
          · rw [hp] at hd; exact absurd (hd h).2 (by simp)
        simp only [↓reduceIte, opt_false, List.nil_append, Bool.false_eq_true]
        rw [Go.bind_ok (hfb _ _), Go.bind_ok (hfb _ _), Go.bind_ok (hfb _ _), hdct]
        rfl
  · have e2 : (e.pce.framePredFrameDCT == 0) = false := by rw [h1]; rfl
    have hdct : m.dct = false := by
      cases h : m.dct
      · rfl
      · have := (hd h).1; omega
    rw [e2, h1, hdct]
    simp only [Bool.and_false, Bool.false_and, opt_false, Nat.one_ne_zero, false_and, ↓reduceIte, List.nil_append,
      List.length_nil, Nat.add_zero]
    rfl

/-! ### vectors -/

theorem mvInfo_frame {e : PicEnv} (hc : Covered e) {m : MbData}
    (hm : (m.type.forward || m.type.backward) = true ∨ e.pce.concealmentMotionVectors = true) :
    mvInfo e.pce.framePredFrameDCT (modeOf e m) = some ⟨1, false, false⟩ := by
  unfold mvInfo modeOf
  rcases hc.fpfd with h0 | h1
  · rcases hm with hm | hm
    · rw [h0, hm]; rfl
    · have := hc.conceal hm
      omega
  · rw [h1]; rfl

theorem motionVectorPart_run {e : PicEnv} (hc : Covered e) {a t : Nat} (ha : a < 2) (ht : t < 2) {v : Int}
    {bits : List Bool} {s : MB} (hv : mvLegal (e.pce.fCode a t) v)
    (hb : MvBits (e.pce.fCode a t) (mvDifference (e.pce.fCode a t) (s.mvd.pred 0 a t) v) bits) (r : List Bool)
    (pos : Nat) (hbr : s.br = ⟨bits ++ r, pos, stop, later⟩) :
    motionVectorPart e ⟨1, false, false⟩ 0 a t s = (.ok (), { s with
      br := ⟨r, pos + bits.length, stop, later⟩
      mvd := { s.mvd with pred := upd3 s.mvd.pred 0 a t v, act := upd3 s.mvd.act 0 a t v } }) := by
  obtain ⟨f1, f2⟩ := hc.fcodes a t ha ht
  unfold motionVectorPart
  have h1 := readMotion_run f1 f2 hb r pos stop later
  rw [← hbr] at h1
  rw [Go.bind_ok (mlift_run h1)]
  have hu : s.mvd.update 0 a t (e.pce.fCode a t) e.pce.pictureStructure false
      (mvCode (e.pce.fCode a t) (mvDifference (e.pce.fCode a t) (s.mvd.pred 0 a t) v))
      (mvResidual (e.pce.fCode a t) (mvDifference (e.pce.fCode a t) (s.mvd.pred 0 a t) v)) =
      { s.mvd with pred := upd3 s.mvd.pred 0 a t v, act := upd3 s.mvd.act 0 a t v } := by
    unfold MVD.update
    rw [fScale_eq f1 f2]
    dsimp only
    rw [mvDelta_code]
    simp only [Bool.false_and, Bool.false_eq_true, ↓reduceIte]
    rw [mvWrap_difference hv]
  show (Res.ok (), _) = _
  dsimp only
  rw [hu]

theorem motionVectors_run {e : PicEnv} (hc : Covered e) {m : MbData}
    (hm : (m.type.forward || m.type.backward) = true ∨ e.pce.concealmentMotionVectors = true) {a : Nat} (ha : a < 2)
    {v : Nat → Int} {bits : Nat → List Bool} {s : MB}
    (hv : ∀ t, t < 2 → mvLegal (e.pce.fCode a t) (v t) ∧
      MvBits (e.pce.fCode a t) (mvDifference (e.pce.fCode a t) (s.mvd.pred 0 a t) (v t)) (bits t)) (r : List Bool)
    (pos : Nat) (hbr : s.br = ⟨bits 0 ++ bits 1 ++ r, pos, stop, later⟩) :
    ∃ mvd', motionVectors e a (modeOf e m) s = (.ok (), { s with
        br := ⟨r, pos + (bits 0 ++ bits 1).length, stop, later⟩, mvd := mvd' }) ∧
      (∀ a' t', a' < 2 → t' < 2 → mvd'.pred 0 a' t' = if a' = a then v t' else s.mvd.pred 0 a' t') ∧
      (∀ a' t', a' < 2 → t' < 2 → mvd'.act 0 a' t' = if a' = a then v t' else s.mvd.act 0 a' t') ∧
      mvd'.fwd = s.mvd.fwd ∧ mvd'.bwd = s.mvd.bwd := by
  obtain ⟨l0, b0⟩ := hv 0 (by omega)
  obtain ⟨l1, b1⟩ := hv 1 (by omega)
  have p0 := motionVectorPart_run (stop := stop) (later := later) hc ha (by omega) (s := s) l0 b0 (bits 1 ++ r) pos
    (by rw [hbr, List.append_assoc])
  have p1 := motionVectorPart_run (stop := stop) (later := later) hc ha (t := 1) (by omega)
    (s := { s with
      br := ⟨bits 1 ++ r, pos + (bits 0).length, stop, later⟩
      mvd := { s.mvd with pred := upd3 s.mvd.pred 0 a 0 (v 0), act := upd3 s.mvd.act 0 a 0 (v 0) } })
    l1 (bits := bits 1) (by
      have : upd3 s.mvd.pred 0 a 0 (v 0) 0 a 1 = s.mvd.pred 0 a 1 := by simp [upd3]
      dsimp only
      rw [this]; exact b1) r (pos + (bits 0).length) rfl
  refine ⟨{ s.mvd with
      pred := upd3 (upd3 s.mvd.pred 0 a 0 (v 0)) 0 a 1 (v 1), act := upd3 (upd3 s.mvd.act 0 a 0 (v 0)) 0 a 1 (v 1) },
    ?_, ?_, ?_, rfl, rfl⟩
  · unfold motionVectors
    rw [mvInfo_frame hc hm]
    have e1 : (orPanic (some ⟨1, false, false⟩) : Go MB MvInfo) s = (.ok ⟨1, false, false⟩, s) := rfl
    rw [Go.bind_ok e1]
    simp only [↓reduceIte, Bool.false_and, opt_false]
    have e2 : (pure 0 : Go MB Nat) s = (.ok 0, s) := rfl
    rw [Go.bind_ok e2]
    unfold motionVector
    rw [Go.bind_ok p0, p1]
    simp only [List.length_append, Nat.add_assoc]
  · intro a' t' _ ht'
    dsimp only [upd3]
    by_cases h : a' = a
    · subst h
      rcases (show t' = 0 ∨ t' = 1 by omega) with rfl | rfl <;> simp
    · simp [h]
  · intro a' t' _ ht'
    dsimp only [upd3]
    by_cases h : a' = a
    · subst h
      rcases (show t' = 0 ∨ t' = 1 by omega) with rfl | rfl <;> simp
    · simp [h]

/-- Optional vectors. -/
theorem motionVectors_opt {e : PicEnv} (hc : Covered e) {m : MbData} {a : Nat} (ha : a < 2) {s : MB}
    {vecs : Nat → Nat → List Bool}
    (hv : ∀ t, t < 2 → hasVec e m.type a = true → mvLegal (e.pce.fCode a t) (m.vec a t) ∧
      MvBits (e.pce.fCode a t) (mvDifference (e.pce.fCode a t) (s.mvd.pred 0 a t) (m.vec a t)) (vecs a t))
    (r : List Bool) (pos : Nat)
    (hbr : s.br = ⟨(if hasVec e m.type a then vecs a 0 ++ vecs a 1 else []) ++ r, pos, stop, later⟩) :
    ∃ mvd', Go.opt (hasVec e m.type a) () (motionVectors e a (modeOf e m)) s = (.ok (), { s with
        br := ⟨r, pos + (if hasVec e m.type a then vecs a 0 ++ vecs a 1 else []).length, stop, later⟩, mvd := mvd' }) ∧
      (∀ a' t', a' < 2 → t' < 2 →
        mvd'.pred 0 a' t' = if a' = a ∧ hasVec e m.type a = true then m.vec a t' else s.mvd.pred 0 a' t') ∧
      (∀ a' t', a' < 2 → t' < 2 →
        mvd'.act 0 a' t' = if a' = a ∧ hasVec e m.type a = true then m.vec a t' else s.mvd.act 0 a' t') ∧
      mvd'.fwd = s.mvd.fwd ∧ mvd'.bwd = s.mvd.bwd := by
  cases h : hasVec e m.type a with
  | true =>
    rw [h] at hv hbr
    have hm : (m.type.forward || m.type.backward) = true ∨ e.pce.concealmentMotionVectors = true := by
      unfold hasVec conceals at h
      split at h
      · rw [Bool.or_eq_true, Bool.and_eq_true] at h
        rcases h with h | h
        · exact .inl (by simp [h])
        · exact .inr h.2
      · exact .inl (by simp [h])
    obtain ⟨mvd', h1, h2, h3, h4⟩ := motionVectors_run (stop := stop) (later := later) hc hm ha (v := m.vec a)
      (bits := vecs a) (s := s) (fun t ht => hv t ht rfl) r pos hbr
    exact ⟨mvd', h1, by simpa using h2, by simpa using h3, h4⟩
  | false =>
    rw [h] at hbr
    refine ⟨s.mvd, ?_, by simp, by simp, rfl, rfl⟩
    simp only [opt_false, Bool.false_eq_true, ↓reduceIte, List.nil_append, List.length_nil, Nat.add_zero] at hbr ⊢
    rw [← hbr]; rfl

/-! ### types -/

/-- What the tables of macroblock types allow. -/
theorem type_facts {pct : Nat} {c : List Bool} {t : MacroblockType} (h : (c, t) ∈ isoType pct) :
    (t.intra = true → t.forward = false ∧ t.backward = false) ∧ (pct = 2 → t.backward = false) ∧
    (pct ≠ 2 → t.intra = false → t.forward = true ∨ t.backward = true) ∧ (t.intra = true → t.pattern = false) := by
  unfold isoType at h
  have kI : isoTypeI.all (fun e => decide ((e.2.intra = true → e.2.forward = false ∧ e.2.backward = false) ∧
    (e.2.intra = false → e.2.forward = true ∨ e.2.backward = true) ∧ (e.2.intra = true → e.2.pattern = false))) = true := by
    decide +kernel
  have kP : isoTypeP.all (fun e => decide ((e.2.intra = true → e.2.forward = false ∧ e.2.backward = false) ∧
    e.2.backward = false ∧ (e.2.intra = true → e.2.pattern = false))) = true := by decide +kernel
  have kB : isoTypeB.all (fun e => decide ((e.2.intra = true → e.2.forward = false ∧ e.2.backward = false) ∧
    (e.2.intra = false → e.2.forward = true ∨ e.2.backward = true) ∧ (e.2.intra = true → e.2.pattern = false))) = true := by
    decide +kernel
  rw [List.all_eq_true] at kI kP kB
  by_cases h1 : pct = 1
  · rw [if_pos h1] at h
    have := kI _ h
    rw [decide_eq_true_eq] at this
    exact ⟨this.1, by omega, fun _ => this.2.1, this.2.2⟩
  rw [if_neg h1] at h
  by_cases h2 : pct = 2
  · rw [if_pos h2] at h
    have := kP _ h
    rw [decide_eq_true_eq] at this
    exact ⟨this.1, fun _ => this.2.1, fun h' => absurd h2 h', this.2.2⟩
  rw [if_neg h2] at h
  by_cases h3 : pct = 3
  · rw [if_pos h3] at h
    have := kB _ h
    rw [decide_eq_true_eq] at this
    exact ⟨this.1, by omega, fun _ => this.2.1, this.2.2⟩
  rw [if_neg h3] at h; cases h

theorem setFormed_eq {pct : Nat} {c : List Bool} {t : MacroblockType} (h : (c, t) ∈ isoType pct) (d : MVD) :
    (d.setFormed t pct).pred = d.pred ∧ (d.setFormed t pct).act = d.act ∧
    (d.setFormed t pct).fwd = (!t.intra && (pct == 2 || t.forward)) ∧
    (d.setFormed t pct).bwd = (!t.intra && t.backward) := by
  obtain ⟨h1, h2, h3, _⟩ := type_facts h
  obtain ⟨q, f, b, p, i⟩ := t
  dsimp only at *
  have hp : pct = pFrame ↔ pct = 2 := Iff.rfl
  unfold MVD.setFormed
  by_cases hpct : pct = 2
  · have := h2 hpct
    subst this
    have hb : (pct == 2) = true := by simp [hpct]
    simp only [hp, hpct]
    cases i <;> cases f <;> simp
  · have hb : (pct == 2) = false := by simp [hpct]
    have h3 := h3 hpct
    simp only [hp, hpct, hb]
    cases i <;> cases f <;> cases b <;> simp at h1 h3 ⊢

end Mpeg.Video
