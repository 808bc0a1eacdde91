/-
Programs that read words and change the vectors.
-/
import Verif.Video.PanicLemmas5
import Verif.Video.PredPanicProps
import Verif.Video.RefLemmas3
set_option linter.all false
namespace Mpeg.Video
open Spec
open _root_.Mpeg.BR (Took)

/-- The vectors of the decoder. -/
def MVD.vecs (d : MVD) : Vecs := ⟨d.pred, d.act 0, d.fwd, d.bwd⟩

/-- `m` reads the words of `L`, which also says how the vectors change. -/
structure RG {α β : Type} (m : Go MB α) (v : α → β) (L : Vecs → List Bool → β → Vecs → Prop) : Prop where
  fwd : ∀ l b V' s r, L s.mvd.vecs l b V' → s.br.bits = l ++ r → 24 ≤ r.length →
    (m s).1 = .panic ∨ ∃ a s', m s = (.ok a, s') ∧ v a = b ∧ s'.mvd.vecs = V' ∧ Took s.br l s'.br
  bwd : ∀ s a s', m s = (.ok a, s') → ∃ l, L s.mvd.vecs l (v a) s'.mvd.vecs ∧ Took s.br l s'.br

namespace RG
variable {α β γ δ : Type}

theorem bind {m : Go MB α} {f : α → Go MB γ} {w : γ → δ} {L : Vecs → List Bool → α → Vecs → Prop}
    {K : α → Vecs → List Bool → δ → Vecs → Prop} (hm : RG m id L) (hf : ∀ a, (∃ V l V', L V l a V') → RG (f a) w (K a)) :
    RG (m >>= f) w (fun V l b V' => ∃ l1 l2 a V1, l = l1 ++ l2 ∧ L V l1 a V1 ∧ K a V1 l2 b V') := by
  constructor
  · rintro l b V' s r ⟨l1, l2, a, V1, rfl, h1, h2⟩ hb hr
    rcases hm.fwd l1 a V1 s (l2 ++ r) h1 (by rw [hb, List.append_assoc]) (by rw [List.length_append]; omega) with
      h | ⟨a', s', h, rfl, rfl, t⟩
    · exact .inl (Reads.bind_panic' h)
    · rw [Go.bind_ok h]
      rcases (hf a' ⟨_, _, _, h1⟩).fwd l2 b V' s' r h2 (Reads.took_split t hb) hr with h' | ⟨c, s'', h', hc, hV, t'⟩
      · exact .inl h'
      · exact .inr ⟨c, s'', h', hc, hV, t.trans t'⟩
  · intro s c s'' h
    obtain ⟨a, s', h1, h2⟩ := Go.bind_eq_ok h
    obtain ⟨l1, k1, t1⟩ := hm.bwd _ _ _ h1
    obtain ⟨l2, k2, t2⟩ := (hf a ⟨_, _, _, k1⟩).bwd _ _ _ h2
    exact ⟨l1 ++ l2, ⟨l1, l2, a, _, rfl, k1, k2⟩, t1.trans t2⟩

theorem congr {m : Go MB α} {v : α → β} {L L' : Vecs → List Bool → β → Vecs → Prop} (h : RG m v L)
    (hL : ∀ V l b V', L V l b V' ↔ L' V l b V') : RG m v L' :=
  ⟨fun l b V' s r hl => h.fwd l b V' s r ((hL _ _ _ _).2 hl), fun s a s' hm => by
    obtain ⟨l, hl, t⟩ := h.bwd s a s' hm
    exact ⟨l, (hL _ _ _ _).1 hl, t⟩⟩

/-- A program that reads words, with the change of the vectors. -/
theorem of {m : Go MB α} {v : α → β} {L : List Bool → β → Prop} {u : β → Vecs → Vecs} (h : Reads MB.br m v L)
    (hu : ∀ s a s', m s = (.ok a, s') → s'.mvd.vecs = u (v a) s.mvd.vecs) : RG m v (fun V l b V' => L l b ∧ V' = u b V) := by
  constructor
  · rintro l b V' s r ⟨hl, rfl⟩ hb hr
    rcases h.fwd l b s r hl hb hr with h | ⟨a, s', h, rfl, t⟩
    · exact .inl h
    · exact .inr ⟨a, s', h, rfl, hu _ _ _ h, t⟩
  · intro s a s' hm
    obtain ⟨l, hl, t⟩ := h.bwd s a s' hm
    exact ⟨l, ⟨hl, hu _ _ _ hm⟩, t⟩

theorem lift {m : Go BR α} {v : α → β} {L : List Bool → β → Prop} (h : Reads id m v L) :
    RG (MB.lift m) v (fun V l b V' => L l b ∧ V' = V) :=
  of (u := fun _ V => V) h.lift fun s a s' hm => by rw [lift_mvd hm]

theorem modify {f : MB → MB} {u : Vecs → Vecs} (h : ∀ s, (f s).br = s.br) (hu : ∀ s, (f s).mvd.vecs = u s.mvd.vecs) :
    RG (Go.modify f) id (fun V l _ V' => l = [] ∧ V' = u V) :=
  of (u := fun _ V => u V) (v := id) (Reads.modify h) fun s a s' hm => by cases hm; exact hu s

theorem pure (v : α → β) (a : α) : RG (pure a : Go MB α) v (fun V l b V' => l = [] ∧ b = v a ∧ V' = V) :=
  (of (u := fun _ V => V) (Reads.pure v a) fun s a s' hm => by cases hm; rfl).congr fun V l b V' => by rw [and_assoc]

theorem opt {c : Bool} {m : Go MB Unit} {L : Vecs → List Bool → Unit → Vecs → Prop} (h : RG m id L) :
    RG (Go.opt c () m) id (fun V l b V' => if c then L V l b V' else l = [] ∧ V' = V) := by
  cases c with
  | true => exact h.congr fun V l b V' => by simp
  | false =>
    refine (pure id ()).congr fun V l b V' => ?_
    simp

end RG

/-! ### one component -/

theorem reads_motionAt {f : Nat} (h1 : 1 ≤ f) (h2 : f ≤ 15) :
    Reads id (readMotion f) id (fun l x => ∃ c r, l = c ++ r ∧ (c, x.1) ∈ isoMotion ∧
      r.length = (if f ≠ 1 ∧ x.1 ≠ 0 then f - 1 else 0) ∧ x.2 = natOfBits r) := by
  unfold readMotion
  refine (Reads.bindId (w := id) (K := fun code l x => x.1 = code ∧ l.length = (if f ≠ 1 ∧ code ≠ 0 then f - 1 else 0) ∧
    x.2 = natOfBits l) (reads_huff pf_motion (by decide)) fun code _ => ?_).congr ?_
  · refine (Reads.bindId (w := id) (K := fun r l x => l = [] ∧ x = (code, r)) (reads_read (rSize f)).opt fun r _ =>
      Reads.pure id _).congr ?_
    rintro l ⟨x1, x2⟩
    rw [rSize_eq h1 h2]
    have hc : (f != 1 && code != 0) = decide (f ≠ 1 ∧ code ≠ 0) := by
      by_cases a : f = 1 <;> by_cases b : code = 0 <;> simp [a, b]
    rw [hc]
    dsimp only [id]
    by_cases h : f ≠ 1 ∧ code ≠ 0
    · rw [if_pos h, decide_eq_true h]
      constructor
      · rintro ⟨l1, l2, b, rfl, hx, rfl, hy⟩
        cases hy
        have hx : l1.length = f - 1 ∧ x2 = natOfBits l1 := hx
        rw [List.append_nil]
        exact ⟨rfl, hx⟩
      · rintro ⟨rfl, h3, rfl⟩
        exact ⟨l, [], _, by simp, ⟨h3, rfl⟩, rfl, rfl⟩
    · rw [if_neg h, decide_eq_false h]
      constructor
      · rintro ⟨l1, l2, b, rfl, hx, rfl, hy⟩
        cases hy
        obtain ⟨rfl, rfl⟩ : l1 = [] ∧ x2 = 0 := by simpa using hx
        exact ⟨rfl, rfl, rfl⟩
      · rintro ⟨rfl, h3, rfl⟩
        have := List.length_eq_zero_iff.mp h3
        subst this
        exact ⟨[], [], 0, by simp, by simp, rfl, rfl⟩
  · rintro l ⟨x1, x2⟩
    constructor
    · rintro ⟨c, r, code, rfl, hc, rfl, hr, hx⟩
      exact ⟨c, r, rfl, (same_motion _).1 hc, hr, hx⟩
    · rintro ⟨c, r, rfl, hc, hr, hx⟩
      exact ⟨c, r, x1, rfl, (same_motion _).2 hc, rfl, hr, hx⟩

theorem mvDelta_eq {f : Nat} (h1 : 1 ≤ f) (h2 : f ≤ 15) (code : Int) (r : Nat) :
    mvDelta (fScale f) code r = vecDelta f code r := by
  unfold mvDelta vecDelta
  rw [fScale_eq h1 h2]
  have : ((mvScale f : Nat) : Int) = 1 ↔ f = 1 := by rw [← mvScale_one_iff h1]; omega
  simp only [this]
  split
  · rfl
  · rename_i h
    have hc : code ≠ 0 := fun h' => h (.inr h')
    split
    · rename_i hn
      rw [Int.sign_eq_neg_one_of_neg hn]; ring
    · rw [Int.sign_eq_one_of_pos (by omega)]; ring

theorem mvWrap_eq {f : Nat} (h1 : 1 ≤ f) (h2 : f ≤ 15) (x : Int) : mvWrap (fScale f) x = vecReduce f x := by
  unfold mvWrap vecReduce
  rw [fScale_eq h1 h2]

/-- One component stored. -/
def Vecs.put (V : Vecs) (r s t : Nat) (v q : Int) : Vecs :=
  { V with
    pmv := fun r' s' t' => if r' = r ∧ s' = s ∧ t' = t then q else V.pmv r' s' t'
    vec := fun s' t' => if r = 0 ∧ s' = s ∧ t' = t then v else V.vec s' t' }

theorem put_store (V : Vecs) (r s : Nat) (h v q : Int) : Vecs.put (Vecs.put V r s 0 h h) r s 1 v q = V.store r s h v q := by
  unfold Vecs.put Vecs.store
  ext
  · dsimp only
    split
    · rename_i h; rw [if_neg (fun h' => by omega)]
    · rename_i h; split <;> simp_all
  · dsimp only
    split
    · rename_i h; rw [if_neg (fun h' => by omega)]
    · rename_i h; split <;> simp_all
  · rfl
  · rfl

/-- One component computed and stored. -/
def Vecs.upd (V : Vecs) (f r s t : Nat) (halved : Bool) (x : Int × Nat) : Vecs :=
  let v := vecReduce f ((if halved then V.pmv r s t / 2 else V.pmv r s t) + vecDelta f x.1 x.2)
  Vecs.put V r s t v (if halved then v * 2 else v)

theorem update_vecs {d : MVD} {r s t f ps : Nat} {field : Bool} {x : Int × Nat} (h1 : 1 ≤ f) (h2 : f ≤ 15) :
    (d.update r s t f ps field x.1 x.2).vecs = Vecs.upd d.vecs f r s t (field && t == 1 && ps == 3) x := by
  unfold Vecs.upd
  dsimp only
  rw [← mvDelta_eq h1 h2, ← mvWrap_eq h1 h2]
  unfold MVD.update MVD.vecs Vecs.put upd3
  ext
  · rfl
  · dsimp only
    have : ∀ a b, ((0 = r ∧ a = s ∧ b = t) ↔ (r = 0 ∧ a = s ∧ b = t)) := by intro a b; rw [eq_comm]
    simp only [this]
    try rfl
  · rfl
  · rfl

theorem rg_part {e : PicEnv} (hf : CodesOK e) {info : MvInfo} (hd : info.dmv = false) (r : Nat) {s t : Nat} (hs : s < 2) (ht : t < 2) :
    RG (motionVectorPart e info r s t) id (fun V l _ V' => ∃ v,
      PartTo (e.pce.fCode s t) (if info.field && t == 1 && e.pce.pictureStructure == 3 then V.pmv r s t / 2 else V.pmv r s t) v l ∧
      V' = Vecs.put V r s t v (if info.field && t == 1 && e.pce.pictureStructure == 3 then v * 2 else v)) := by
  obtain ⟨h1, h2⟩ := hf s hs t ht
  unfold motionVectorPart
  rw [hd]
  simp only [Bool.false_eq_true, ↓reduceIte]
  refine (RG.bind (w := id) (RG.lift (reads_motionAt h1 h2)) fun x _ => RG.modify
    (u := fun V => Vecs.upd V (e.pce.fCode s t) r s t (info.field && t == 1 && e.pce.pictureStructure == 3) x)
    (by exact fun _ => rfl) (by exact fun st => update_vecs h1 h2)).congr ?_
  intro V l u V'
  constructor
  · rintro ⟨l1, l2, ⟨code, res⟩, V1, rfl, ⟨⟨c, w, rfl, hc, hw, hx⟩, rfl⟩, rfl, rfl⟩
    have hx : res = natOfBits w := hx
    subst hx
    rw [List.append_nil]
    exact ⟨_, .mk c w code hc hw rfl, rfl⟩
  · rintro ⟨v, hp, rfl⟩
    cases hp with
    | mk c w code hc hw hv => exact ⟨c ++ w, [], (code, natOfBits w), V, by simp, ⟨⟨c, w, rfl, hc, hw, rfl⟩, rfl⟩, rfl, by rw [hv]; rfl⟩

theorem rg_vector {e : PicEnv} (hf : CodesOK e) {info : MvInfo} (hd : info.dmv = false) (r : Nat) {s : Nat} (hs : s < 2) :
    RG (motionVector e info r s) id (fun V l _ V' => VectorTo e r s (info.field && e.pce.pictureStructure == 3) V V' l) := by
  unfold motionVector
  refine (RG.bind (w := id) (rg_part hf hd r hs (by decide : 0 < 2)) fun _ _ => rg_part hf hd r hs (by decide : 1 < 2)).congr ?_
  intro V l u V'
  simp only [show ((0 : Nat) == 1) = false from rfl, show ((1 : Nat) == 1) = true from rfl, Bool.and_false, Bool.and_true, Bool.false_and,
    Bool.false_eq_true, if_false]
  constructor
  · rintro ⟨a, c, -, V1, rfl, ⟨h, ha, rfl⟩, v, hc, rfl⟩
    rw [put_store]
    have e1 : (Vecs.put V r s 0 h h).pmv r s 1 = V.pmv r s 1 := by unfold Vecs.put; simp
    rw [e1] at hc
    exact .mk h v a c ha hc
  · intro hx
    cases hx with
    | mk h v a c ha hc =>
      refine ⟨a, c, (), _, rfl, ⟨h, ha, rfl⟩, v, ?_, (put_store ..).symm⟩
      have e1 : (Vecs.put V r s 0 h h).pmv r s 1 = V.pmv r s 1 := by unfold Vecs.put; simp
      rw [e1]
      exact hc

/-! ### the vectors of a macroblock -/

theorem reads_select (c : Bool) : Reads MB.br (Go.opt c 0 (MB.lift (BR.read 1))) (fun _ => ())
    (fun l _ => l.length = if c then 1 else 0) := by
  refine ((reads_read 1).lift.opt.forget).congr ?_
  intro l u
  cases c with
  | true => exact ⟨fun ⟨b, h, _⟩ => h, fun h => ⟨_, h, rfl⟩⟩
  | false =>
    constructor
    · rintro ⟨b, h⟩
      obtain ⟨rfl, -⟩ : l = [] ∧ b = 0 := by simpa using h
      rfl
    · intro h
      exact ⟨0, by simpa using h⟩

theorem select_state {c : Bool} {s s' : MB} {a : Nat} (h : Go.opt c 0 (MB.lift (BR.read 1)) s = (.ok a, s')) : s'.mvd = s.mvd := by
  cases c with
  | true => exact lift_mvd h
  | false => cases h; rfl

theorem rg_select (c : Bool) {f : Nat → Go MB Unit} {L : Vecs → List Bool → Unit → Vecs → Prop} (h : ∀ n, RG (f n) id L) :
    RG (Go.opt c 0 (MB.lift (BR.read 1)) >>= f) id (fun V l b V' => ∃ l1 l2, l = l1 ++ l2 ∧ (l1.length = if c then 1 else 0) ∧ L V l2 b V') := by
  constructor
  · rintro l b V' s r ⟨l1, l2, rfl, h1, h2⟩ hb hr
    rcases (reads_select c).fwd l1 () s (l2 ++ r) h1 (by rw [hb, List.append_assoc]) (by rw [List.length_append]; omega) with
      h' | ⟨a, s', h', -, t⟩
    · exact .inl (Reads.bind_panic' h')
    · rw [Go.bind_ok h']
      have e1 := select_state h'
      rcases (h a).fwd l2 b V' s' r (by rw [e1]; exact h2) (Reads.took_split t hb) hr with h3 | ⟨c, s'', h3, hc, hV, t'⟩
      · exact .inl h3
      · exact .inr ⟨c, s'', h3, hc, hV, t.trans t'⟩
  · intro s u s'' hm
    obtain ⟨a, s', h1, h2⟩ := Go.bind_eq_ok hm
    obtain ⟨l1, k1, t1⟩ := (reads_select c).bwd _ _ _ h1
    obtain ⟨l2, k2, t2⟩ := (h a).bwd _ _ _ h2
    rw [select_state h1] at k2
    exact ⟨l1 ++ l2, ⟨l1, l2, rfl, k1, k2⟩, t1.trans t2⟩

theorem vectorsTo_one {e : PicEnv} {s r : Nat} {select : Bool} {V V' : Vecs} {l : List Bool} :
    VectorsTo e s select 1 r V V' l ↔ ∃ b m, l = b ++ m ∧ (b.length = if select then 1 else 0) ∧
      VectorTo e r s (select && e.pce.pictureStructure == 3) V V' m := by
  constructor
  · intro h
    cases h with
    | cons n r V V1 V2 b l m hb hl t => cases t; exact ⟨b, l, by simp, hb, hl⟩
  · rintro ⟨b, m, rfl, hb, hl⟩
    have := VectorsTo.cons 0 r V V' V' b m [] hb hl (.nil _ _)
    simpa using this

theorem rg_vectors {e : PicEnv} (hf : CodesOK e) {m : Mode} {motion s : Nat} (hs : s < 2)
    (h : ∀ info, mvInfo e.pce.framePredFrameDCT m = some info →
      motionFormat (e.pce.pictureStructure == 3) motion = some (info.count, info.field && !info.dmv, info.dmv)) :
    RG (motionVectors e s m) id (fun V l _ V' => MotionTo e motion s V V' l) := by
  cases hi : mvInfo e.pce.framePredFrameDCT m with
  | none =>
    have : motionVectors e s m = Go.panic := by unfold motionVectors; rw [hi]; rfl
    rw [this]
    exact ⟨fun _ _ _ _ _ _ _ _ => .inl rfl, fun _ _ _ h => by cases h⟩
  | some info =>
    have hfm := h info hi
    cases hd : info.dmv with
    | true =>
      rw [vectors_dmv hi hd]
      constructor
      · rintro l b V' st r ⟨n, sel, hx, -⟩
        rw [hx, hd] at hfm
        cases hfm
      · intro st a st' hx
        obtain ⟨_, _, _, hx⟩ := Go.bind_eq_ok hx
        cases hx
    | false =>
      rw [hd] at hfm
      simp only [Bool.not_false, Bool.and_true] at hfm
      have hcount : info.count = 1 ∨ info.count = 2 ∧ info.field = true := by
        unfold mvInfo at hi
        repeat' split at hi
        all_goals first | (cases hi; simp) | cases hi
      have hto : ∀ V l V', MotionTo e motion s V V' l ↔ VectorsTo e s info.field info.count 0 V V' l := by
        intro V l V'
        constructor
        · rintro ⟨n, sel, hx, hv⟩
          rw [hx] at hfm
          cases hfm
          exact hv
        · intro hv; exact ⟨_, _, hfm, hv⟩
      rw [vectors_eq hi, hd]
      simp only [Bool.not_false, Bool.and_true]
      rcases hcount with hc | ⟨hc, hfl⟩
      · rw [if_pos hc]
        refine (rg_select info.field fun _ => rg_vector hf hd 0 hs).congr fun V l u V' => ?_
        rw [hto, hc, vectorsTo_one]
      · rw [if_neg (by omega)]
        have two := rg_select true (f := fun _ => do
          motionVector e info 0 s
          let _ ← Go.opt true 0 (MB.lift (BR.read 1))
          motionVector e info 1 s) fun _ => RG.bind (rg_vector hf hd 0 hs) fun _ _ => rg_select true fun _ => rg_vector hf hd 1 hs
        refine RG.congr two fun V l u V' => ?_
        rw [hto, hc, hfl]
        constructor
        · rintro ⟨l1, l2, rfl, h1, l3, l4, -, V1, rfl, h2, l5, l6, rfl, h3, h4⟩
          exact .cons 1 0 V V1 V' l1 l3 _ h1 h2 (vectorsTo_one.2 ⟨l5, l6, rfl, h3, h4⟩)
        · intro hx
          cases hx with
          | cons n r V V1 V2 b l m hb hl t =>
            obtain ⟨l5, l6, rfl, h3, h4⟩ := vectorsTo_one.1 t
            exact ⟨b, _, rfl, hb, l, _, (), V1, rfl, hl, l5, l6, rfl, h3, h4⟩

theorem directions_eq {e : PicEnv} {c : List Bool} {t : MacroblockType} (h : (c, t) ∈ isoType e.ph.pictureCodingType) (d : MVD) :
    (d.setFormed t e.ph.pictureCodingType).vecs = d.vecs.directions e t := by
  obtain ⟨h1, h2, h3, h4⟩ := setFormed_eq h d
  unfold MVD.vecs Vecs.directions
  rw [h1, h2, h3, h4]

theorem rg_rest {e : PicEnv} (he : Plain e) (m : Mode) (hm : ∃ l, ModeWord e l m.key) :
    RG (mbVecs e m) id (fun V l _ V' => ∃ f b mark V1 V2, l = f ++ (b ++ mark) ∧
      (if m.type.forward || conceals e m.type then MotionTo e (keyMotion e m.key) 0 V V1 f else f = [] ∧ V1 = V) ∧
      (if m.type.backward then MotionTo e (keyMotion e m.key) 1 V1 V2 b else b = [] ∧ V2 = V1) ∧
      (mark = if conceals e m.type then [true] else []) ∧ V' = V2.directions e m.type) := by
  obtain ⟨lm, hm⟩ := hm
  have vec : ∀ s < 2, RG (motionVectors e s m) id (fun V l _ V' => MotionTo e (keyMotion e m.key) s V V' l) :=
    fun s hs => rg_vectors he.codes hs fun info h => mvInfo_format he hm h
  obtain ⟨ty, -, -, -, hty, -⟩ := hm
  have mark : RG (MB.lift markerBit) id (fun V l (_ : Unit) V' => l = [true] ∧ V' = V) := RG.lift reads_marker
  unfold mbVecs
  refine (RG.bind (vec 0 (by decide)).opt fun _ _ => RG.bind (vec 1 (by decide)).opt fun _ _ =>
    RG.bind (RG.modify (u := fun V => V.directions e m.type) (by exact fun _ => rfl) (by exact fun st => directions_eq hty st.mvd))
      fun _ _ => mark.opt).congr ?_
  intro V l u V'
  unfold conceals
  constructor
  · rintro ⟨l1, l2, -, V1, rfl, h1, l3, l4, -, V2, rfl, h2, l5, l6, -, V3, rfl, ⟨rfl, rfl⟩, h3⟩
    refine ⟨l1, l3, l6, V1, V2, rfl, h1, h2, ?_⟩
    split at h3
    · rename_i hc; rw [if_pos hc]; exact h3
    · rename_i hc; rw [if_neg hc]; exact h3
  · rintro ⟨f, b, mk, V1, V2, rfl, h1, h2, h3, rfl⟩
    refine ⟨f, _, (), V1, rfl, h1, b, _, (), V2, rfl, h2, [], mk, (), _, rfl, ⟨rfl, rfl⟩, ?_⟩
    split
    · rename_i hc; rw [if_pos hc] at h3; exact ⟨h3, rfl⟩
    · rename_i hc; rw [if_neg hc] at h3; exact ⟨h3, rfl⟩

/-! ### the head of a macroblock -/

theorem copySkipped_mvd {e : PicEnv} {row n : Nat} {addr : Option Nat} {s s' : MB} {u : Unit}
    (h : copySkipped e row addr n s = (.ok u, s')) : s'.mvd = s.mvd := by
  unfold copySkipped at h
  cases addr with
  | none => cases h; rfl
  | some a =>
    dsimp only at h
    split at h
    · split at h
      · cases hx : pframeCopy row (a + 1) (n - 1) s.frame e.past with
        | none => rw [hx] at h; cases h
        | some f => rw [hx] at h; cases h; rfl
      · split at h
        · obtain ⟨f, s1, h1, h2⟩ := Go.bind_eq_ok h
          have e1 : s1 = s := by
            generalize bframeCopy e s.mvd row (a + 1) (n - 1) s.frame = x at h1
            cases x with
            | none => cases h1
            | some f => cases h1; rfl
          cases h2; rw [e1]
        · cases h; rfl
    · cases h; rfl

theorem reset_vecs (d : MVD) : d.reset.vecs = d.vecs.clear := rfl

theorem start_vecs {e : PicEnv} {row : Nat} {addr : Option Nat} {s s' : MB} {x : Nat × Mode}
    (h : mbStart e row addr s = (.ok x, s')) : s'.mvd.vecs = (s.mvd.vecs.skip e x.1).begin e x.2.type := by
  unfold mbStart at h
  obtain ⟨incr, s1, h1, h⟩ := Go.bind_eq_ok h
  obtain ⟨u, s2, h2, h⟩ := Go.bind_eq_ok h
  obtain ⟨u, s3, h3, h⟩ := Go.bind_eq_ok h
  obtain ⟨m, s4, h4, h⟩ := Go.bind_eq_ok h
  obtain ⟨u, s5, h5, h⟩ := Go.bind_eq_ok h
  obtain ⟨u, s6, h6, h⟩ := Go.bind_eq_ok h
  have hx : (incr, m) = x ∧ s6 = s' := by cases h; exact ⟨rfl, rfl⟩
  obtain ⟨rfl, rfl⟩ := hx
  have e6 : s6.mvd = s5.mvd := by
    unfold mbQuant at h6
    cases hq : m.type.quant with
    | true =>
      rw [hq] at h6
      obtain ⟨q, s', h1, h2⟩ := Go.bind_eq_ok h6
      have := lift_mvd h1
      cases h2
      exact this
    | false => rw [hq] at h6; cases h6; rfl
  have e5 : s5.mvd.vecs = s4.mvd.vecs.begin e m.type := by
    have : s5 = _ := (congrArg Prod.snd h5).symm
    rw [this]
    show MVD.vecs (if _ then _ else _) = _
    unfold Vecs.begin
    split
    · rfl
    · rfl
  have e3 : s3.mvd.vecs = s2.mvd.vecs.skip e incr := by
    have : s3 = _ := (congrArg Prod.snd h3).symm
    rw [this]
    show MVD.vecs (if _ then _ else _) = _
    unfold Vecs.skip
    split
    · rfl
    · rfl
  rw [e6, e5, lift_mvd h4, e3, copySkipped_mvd h2, lift_mvd h1]

theorem rg_head {e : PicEnv} (he : Plain e) (row : Nat) (addr : Option Nat) :
    RG (mbHead e row addr) (fun x => (x.2.type, x.1, x.2.dctType)) (fun V l b V' => HeadTo e V b.1 b.2.1 b.2.2 V' l) := by
  rw [mbHead_split]
  have st : RG (mbStart e row addr) id (fun V l x V' => StartAt e l x ∧ V' = (V.skip e x.1).begin e x.2.type) :=
    RG.of (u := fun x V => (V.skip e x.1).begin e x.2.type) (reads_start e row addr) fun s a s' h => start_vecs h
  refine (RG.bind (w := fun x : Nat × Mode => (x.2.type, x.1, x.2.dctType)) st fun x hx =>
    RG.bind (w := fun x : Nat × Mode => (x.2.type, x.1, x.2.dctType)) (rg_rest he x.2 ?_) fun _ _ => RG.pure _ x).congr ?_
  · obtain ⟨_, l0, _, h0, -⟩ := hx
    exact h0.mode
  · rintro V l ⟨t, n, field⟩ V'
    dsimp only
    constructor
    · rintro ⟨l1, l2, ⟨n', m⟩, V0, rfl, ⟨⟨motion, hs, h4, h5⟩, rfl⟩, l3, l4, -, V3, rfl, ⟨f, b, mark, V1, V2, rfl, hF, hB, hM, rfl⟩,
        rfl, hb, rfl⟩
      cases hb
      have hk : keyMotion e m.key = motionType e motion := by
        cases hs with
        | mk k v c type dct q hn hc h1 h2 h3 h6 hq => exact keyMotion_eq h2 h4 h5
      rw [hk] at hF hB
      rw [List.append_nil]
      exact .mk l1 motion f b mark V1 V2 hs hF hB hM
    · intro h
      cases h with
      | mk start motion f b mark V1 V2 hs hF hB hM =>
        let m : Mode := ⟨t, if e.pce.pictureStructure = 3 then natOfBits motion else 0,
          if e.pce.pictureStructure = 3 then 0 else natOfBits motion, field⟩
        have hk : keyMotion e m.key = motionType e motion := by
          cases hs with
          | mk k v c type dct q hn hc h1 h2 h3 h6 hq => exact keyMotion_eq h2 rfl rfl
        refine ⟨start, f ++ (b ++ mark), (n, m), _, rfl, ⟨⟨motion, hs, rfl, rfl⟩, rfl⟩, f ++ (b ++ mark), [], (), _, by simp,
          ⟨f, b, mark, V1, V2, rfl, ?_, ?_, hM, rfl⟩, rfl, rfl, rfl⟩
        · rw [hk]; exact hF
        · rw [hk]; exact hB

end Mpeg.Video
