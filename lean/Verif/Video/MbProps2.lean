/-
C55 (the two vectors of a field predicted macroblock in a frame picture), C56 (they are not used), C59 (4:2:2 and 4:4:4).
-/
import Verif.Video.MbProps
namespace Mpeg.Video
open Spec

variable {stop : Err} {later : List (List Bool × Err)}

/-! ### C55 -/

/-- The prediction of ISO 13818-2 7.6.3.1 for component `t` of a field vector in a frame picture. -/
def fieldPrediction (p : Int) (t : Nat) : Int := if t = 1 then p / 2 else p

/-- **C55** (two vectors): a macroblock of a frame picture with field prediction codes two vectors per direction, each
after its field selection bit.  Both are decoded, whatever the predictions are; each prediction becomes the vector, its
vertical component doubled.  Predictions and vectors of the other direction stay. -/
theorem C55_field {e : PicEnv} {m : Mode} {a pos : Nat} {s : MB} (hfp : e.pce.framePredFrameDCT ≠ 1)
    (hm : m.frameMotion = 1) (hps : e.pce.pictureStructure = framePicture)
    (hfc : ∀ t, t < 2 → 1 ≤ e.pce.fCode a t ∧ e.pce.fCode a t ≤ 15)
    (v : Nat → Nat → Int) (hv : ∀ r t, r < 2 → t < 2 → mvLegal (e.pce.fCode a t) (v r t))
    (bits : Nat → Nat → List Bool)
    (hbits : ∀ r t, r < 2 → t < 2 →
      MvBits (e.pce.fCode a t) (mvDifference (e.pce.fCode a t) (fieldPrediction (s.mvd.pred r a t) t) (v r t)) (bits r t))
    (sel0 sel1 : Bool) (rest : List Bool)
    (hbr : s.br = ⟨sel0 :: (bits 0 0 ++ (bits 0 1 ++ (sel1 :: (bits 1 0 ++ (bits 1 1 ++ rest))))), pos, stop, later⟩) :
    ∃ d, motionVectors e a m s = (.ok (), { s with
        br := ⟨rest, pos + 2 + (bits 0 0).length + (bits 0 1).length + (bits 1 0).length + (bits 1 1).length, stop, later⟩
        mvd := d }) ∧
      (∀ r, r < 2 → d.act r a 0 = v r 0 ∧ d.act r a 1 = v r 1 ∧ d.pred r a 0 = v r 0 ∧ d.pred r a 1 = 2 * v r 1) ∧
      (∀ r b t, b ≠ a → d.act r b t = s.mvd.act r b t ∧ d.pred r b t = s.mvd.pred r b t) ∧
      d.fwd = s.mvd.fwd ∧ d.bwd = s.mvd.bwd := by
  have hinfo : mvInfo e.pce.framePredFrameDCT m = some ⟨2, true, false⟩ := by
    unfold mvInfo
    rw [if_neg hfp, if_pos hm]
  have part : ∀ (s' : MB) (r t p : Nat) (x : List Bool), r < 2 → t < 2 → s'.mvd.pred r a t = s.mvd.pred r a t →
      s'.br = ⟨bits r t ++ x, p, stop, later⟩ →
      motionVectorPart e ⟨2, true, false⟩ r a t s' = (.ok (), { s' with
        br := ⟨x, p + (bits r t).length, stop, later⟩
        mvd := { s'.mvd with
          pred := upd3 s'.mvd.pred r a t (if t = 1 then v r t * 2 else v r t)
          act := upd3 s'.mvd.act r a t (v r t) } }) := by
    intro s' r t p x hr ht hp hb
    have h := C55 (e := e) (info := ⟨2, true, false⟩) (r := r) (a := a) (t := t) (v := v r t) (bits := bits r t) (s := s')
      rfl (hfc t ht).1 (hfc t ht).2 (decide (t = 1)) (by rw [hps]; simp [framePicture]; cases t <;> rfl) (hv r t hr ht)
      (by have := hbits r t hr ht; unfold fieldPrediction at this; rw [hp]; simpa using this) x p hb
    rw [h]
    simp
  unfold motionVectors
  have e0 : orPanic (mvInfo e.pce.framePredFrameDCT m) s = (.ok ⟨2, true, false⟩, s) := by rw [hinfo]; rfl
  rw [Go.bind_ok e0, if_neg (by decide)]
  have sel : ∀ (s' : MB) (b : Bool) (p : Nat) (x : List Bool), s'.br = ⟨b :: x, p, stop, later⟩ →
      MB.lift (BR.read 1) s' = (.ok (natOfBits [b]), { s' with br := ⟨x, p + 1, stop, later⟩ }) := by
    intro s' b p x hb
    refine mlift_run ?_
    rw [hb, BR.read_ok (by simp)]
    rfl
  rw [Go.bind_ok (sel s sel0 pos _ hbr)]
  obtain ⟨s1, hs1⟩ : ∃ s1 : MB, s1 = { s with br := ⟨bits 0 0 ++ (bits 0 1 ++ (sel1 :: (bits 1 0 ++ (bits 1 1 ++ rest)))), pos + 1, stop, later⟩ } := ⟨_, rfl⟩
  rw [← hs1]
  have p00 := part s1 0 0 (pos + 1) _ (by decide) (by decide) (by rw [hs1]) (by rw [hs1])
  obtain ⟨s2, hs2⟩ : ∃ s2 : MB, s2 = { s1 with
        br := ⟨bits 0 1 ++ (sel1 :: (bits 1 0 ++ (bits 1 1 ++ rest))), pos + 1 + (bits 0 0).length, stop, later⟩
        mvd := { s1.mvd with
          pred := upd3 s1.mvd.pred 0 a 0 (if (0 : Nat) = 1 then v 0 0 * 2 else v 0 0)
          act := upd3 s1.mvd.act 0 a 0 (v 0 0) } } := ⟨_, rfl⟩
  rw [← hs2] at p00
  have p01 := part s2 0 1 (pos + 1 + (bits 0 0).length) _ (by decide) (by decide) (by rw [hs2, hs1]; simp [upd3]) (by rw [hs2])
  obtain ⟨s3, hs3⟩ : ∃ s3 : MB, s3 = { s2 with
        br := ⟨sel1 :: (bits 1 0 ++ (bits 1 1 ++ rest)), pos + 1 + (bits 0 0).length + (bits 0 1).length, stop, later⟩
        mvd := { s2.mvd with
          pred := upd3 s2.mvd.pred 0 a 1 (if (1 : Nat) = 1 then v 0 1 * 2 else v 0 1)
          act := upd3 s2.mvd.act 0 a 1 (v 0 1) } } := ⟨_, rfl⟩
  rw [← hs3] at p01
  have mv0 : motionVector e ⟨2, true, false⟩ 0 a s1 = (.ok (), s3) := by
    unfold motionVector
    rw [Go.bind_ok p00, p01]
  rw [Go.bind_ok mv0, Go.bind_ok (sel s3 sel1 _ _ (by rw [hs3]))]
  obtain ⟨s4, hs4⟩ : ∃ s4 : MB, s4 = { s3 with br := ⟨bits 1 0 ++ (bits 1 1 ++ rest), pos + 1 + (bits 0 0).length + (bits 0 1).length + 1, stop, later⟩ } := ⟨_, rfl⟩
  rw [← hs4]
  have p10 := part s4 1 0 _ _ (by decide) (by decide) (by rw [hs4, hs3, hs2, hs1]; simp [upd3]) (by rw [hs4])
  unfold motionVector
  rw [Go.bind_ok p10]
  obtain ⟨s5, hs5⟩ : ∃ s5 : MB, s5 = { s4 with
        br := ⟨bits 1 1 ++ rest, pos + 1 + (bits 0 0).length + (bits 0 1).length + 1 + (bits 1 0).length, stop, later⟩
        mvd := { s4.mvd with
          pred := upd3 s4.mvd.pred 1 a 0 (if (0 : Nat) = 1 then v 1 0 * 2 else v 1 0)
          act := upd3 s4.mvd.act 1 a 0 (v 1 0) } } := ⟨_, rfl⟩
  rw [← hs5]
  have p11 := part s5 1 1 _ _ (by decide) (by decide) (by rw [hs5, hs4, hs3, hs2, hs1]; simp [upd3]) (by rw [hs5])
  rw [p11]
  refine ⟨{ s5.mvd with
      pred := upd3 s5.mvd.pred 1 a 1 (if (1 : Nat) = 1 then v 1 1 * 2 else v 1 1)
      act := upd3 s5.mvd.act 1 a 1 (v 1 1) }, ?_, ?_, ?_, ?_, ?_⟩
  rotate_left
  · intro r hr
    have : r = 0 ∨ r = 1 := by omega
    rcases this with rfl | rfl <;> simp [hs5, hs4, hs3, hs2, upd3] <;> omega
  · intro r b t hb
    simp [hs5, hs4, hs3, hs2, hs1, upd3, hb]
  · simp [hs5, hs4, hs3, hs2, hs1]
  · simp [hs5, hs4, hs3, hs2, hs1]
  · have hl : pos + 1 + (bits 0 0).length + (bits 0 1).length + 1 + (bits 1 0).length + (bits 1 1).length =
        pos + 2 + (bits 0 0).length + (bits 0 1).length + (bits 1 0).length + (bits 1 1).length := by omega
    rw [hl]
    simp only [hs5, hs4, hs3, hs2, hs1]

/-- **C55** (one vector): after the single vector of a frame predicted macroblock the standard sets both predictions of
the direction (7.6.3.3, Table 7-9: `PMV[1][s] = PMV[0][s]`).  The decoder sets only the first: the second keeps its
value, whatever was coded. -/
theorem C55_second_prediction {e : PicEnv} {m : Mode} {a : Nat} {s s' : MB}
    (hm : e.pce.framePredFrameDCT = 1 ∨ m.frameMotion = 2) (h : motionVectors e a m s = (.ok (), s')) :
    ∀ b t, s'.mvd.pred 1 b t = s.mvd.pred 1 b t := by
  have hinfo : mvInfo e.pce.framePredFrameDCT m = some ⟨1, false, false⟩ := by
    unfold mvInfo
    rcases hm with h1 | h1
    · rw [if_pos h1]
    · by_cases h0 : e.pce.framePredFrameDCT = 1
      · rw [if_pos h0]
      · rw [if_neg h0, if_neg (by omega), if_pos h1]
  have part : ∀ {t : Nat} {s s' : MB}, motionVectorPart e ⟨1, false, false⟩ 0 a t s = (.ok (), s') →
      ∀ b t, s'.mvd.pred 1 b t = s.mvd.pred 1 b t := by
    intro t s s' h b t'
    unfold motionVectorPart at h
    obtain ⟨c, s1, h1, h⟩ := Go.bind_eq_ok h
    have hs1 : s1.mvd = s.mvd := by
      exact (congrArg MB.mvd (congrArg Prod.snd h1)).symm.trans rfl
    cases h
    show (MVD.update _ _ _ _ _ _ _ _ _).pred 1 b t' = _
    rw [hs1]
    simp [MVD.update, upd3]
  unfold motionVectors at h
  obtain ⟨i, s1, h1, h⟩ := Go.bind_eq_ok h
  rw [hinfo] at h1
  cases h1
  rw [if_pos rfl] at h
  obtain ⟨_, s2, h2, h⟩ := Go.bind_eq_ok h
  cases h2
  unfold motionVector at h
  obtain ⟨_, s3, h3, h⟩ := Go.bind_eq_ok h
  intro b t
  rw [part h b t, part h3 b t]

/-- Vectors (3, -2) from the top field and (0, 5) from the bottom field, predictions 0. -/
example : ∃ bits : Nat → Nat → List Bool, ∀ r t, r < 2 → t < 2 →
    MvBits 2 (mvDifference 2 (fieldPrediction 0 t) ((fun r t => if r = 0 then (if t = 0 then 3 else -2) else if t = 0 then 0 else 5 : Nat → Nat → Int) r t)) (bits r t) := by
  have h : ∀ r t : Nat, ∃ b, r < 2 → t < 2 → MvBits 2 (mvDifference 2 (fieldPrediction 0 t) ((fun r t => if r = 0 then (if t = 0 then 3 else -2) else if t = 0 then 0 else 5 : Nat → Nat → Int) r t)) b := by
    intro r t
    by_cases hr : r < 2 ∧ t < 2
    · obtain ⟨b, hb⟩ := C55_codes (fc := 2) (p := fieldPrediction 0 t) (v := (fun r t => if r = 0 then (if t = 0 then 3 else -2) else if t = 0 then 0 else 5 : Nat → Nat → Int) r t)
        (by unfold fieldPrediction mvLegal mvScale; split <;> decide) (by unfold mvLegal mvScale; dsimp only; split <;> split <;> decide)
      exact ⟨b, fun _ _ => hb⟩
    · exact ⟨[], fun a b => absurd ⟨a, b⟩ hr⟩
  exact ⟨fun r t => (h r t).choose, fun r t => (h r t).choose_spec⟩

/-! ### C56 -/

/-- **C56** fails for field prediction: the prediction of every block uses only the first vector of a direction and
the whole reference frame; the second vector, the field selection and the motion type do not matter.  (ISO 13818-2
7.6.4, 7.6.7: each field of the macroblock is predicted with its own vector from the selected field.) -/
theorem C56_field_false (e : PicEnv) (b : Block) (i addr row : Nat) (interlaced : Bool) (f : Frame) (d d' : MVD)
    (hf : d.fwd = d'.fwd) (hb : d.bwd = d'.bwd) (h : ∀ a t, d.act 0 a t = d'.act 0 a t) :
    finishBlock e d b i addr row interlaced f = finishBlock e d' b i addr row interlaced f := by
  unfold finishBlock MVD.fwdRef MVD.bwdRef
  simp only [hf, hb, h]

/-- Two vectors that differ only in the second one. -/
example : ∃ d d' : MVD, d ≠ d' ∧ d.fwd = d'.fwd ∧ d.bwd = d'.bwd ∧ ∀ a t, d.act 0 a t = d'.act 0 a t :=
  ⟨⟨fun _ _ _ => 0, fun r _ _ => r, true, false⟩, ⟨fun _ _ _ => 0, fun _ _ _ => 0, true, false⟩,
    fun h => absurd (congrFun (congrFun (congrFun (congrArg MVD.act h) 1) 0) 0) (by decide), rfl, rfl, fun _ _ => rfl⟩

/-! ### C59 -/

/-- **C59** (4:2:2 and 4:4:4): every macroblock with a coded block pattern panics, whatever the bits. -/
theorem C59_422_panics {e : PicEnv} (hc : e.se.chromaFormat = 2 ∨ e.se.chromaFormat = 3) (row a : Nat) (m : Mode)
    (hp : m.type.pattern = true) (s : MB) : (mbPattern e row a m s).1 = .panic := by
  have hsafe := safe_huffDecode (t := cbpTable) (PrefixFree.ne_nil pf_cbp) (by decide) s.br
  have h1 : (codedBlockPattern e.se.chromaFormat s.br).1 = .panic := by
    unfold codedBlockPattern decodeCbp
    generalize huffDecode cbpTable s.br = r at hsafe ⊢
    obtain ⟨r, s'⟩ := r
    cases r with
    | ok _ => simp [hc]
    | err _ => simp [hc]
    | panic => rfl
    | hang => exact absurd rfl hsafe.2
  unfold mbPattern
  rw [if_pos hp]
  unfold mbCoded
  have h2 : (MB.lift (codedBlockPattern e.se.chromaFormat) s).1 = .panic := by
    unfold MB.lift
    generalize codedBlockPattern e.se.chromaFormat s.br = r at h1 ⊢
    obtain ⟨r, s'⟩ := r
    simp only at h1
    subst h1
    rfl
  generalize MB.lift (codedBlockPattern e.se.chromaFormat) s = r at h2 ⊢
  obtain ⟨r, s'⟩ := r
  simp only at h2
  subst h2
  rfl

end Mpeg.Video
