/-
Streams of which slices are lost.
-/
import Verif.Video.SliceLossLemmas
set_option linter.all false
namespace Mpeg.Video
open Spec

/-- What arrives of a picture. -/
def _root_.Mpeg.Video.Spec.LCoded.received (c : LCoded) : Coded := { c.sent with slices := c.got }

def _root_.Mpeg.Video.Spec.LGroup.received (g : LGroup) : CGroup := ⟨g.ref.received, g.bs.map (·.received)⟩

/-! ### segments -/

theorem keep_append : ∀ {ss tt : List Segment} {fs gs : List Bool}, (ss.filterMap (·.slice)).length = fs.length →
    keep (fs ++ gs) (ss ++ tt) = keep fs ss ++ keep gs tt
  | [], tt, fs, gs, h => by
    cases fs with
    | nil => simp [keep]
    | cons f fs => simp at h
  | ⟨none, b⟩ :: ss, tt, fs, gs, h => by
    simp only [List.cons_append, keep, List.append_assoc]
    rw [keep_append (by simpa using h)]
  | ⟨some sl, b⟩ :: ss, tt, fs, gs, h => by
    cases fs with
    | nil => simp at h
    | cons f fs =>
      simp only [List.cons_append, keep, List.append_assoc]
      rw [keep_append (by simpa using h)]

/-- The segments are those of a stream with the slices `sls`. -/
structure Segs (segs : List Segment) (sls : List SliceData) (bits : List Bool) : Prop where
  bits : bits = segs.flatMap (·.bits)
  slices : segs.filterMap (·.slice) = sls
  code : ∀ s ∈ segs, ∀ sl, s.slice = some sl → s.bits.length % 8 = 0 ∧ ∃ t, s.bits = bitsOf 32 (0x101 + sl.row) ++ t
  aligned : ∀ s ∈ segs, s.bits.length % 8 = 0

theorem Segs.append {a b : List Segment} {sa sb : List SliceData} {ba bb : List Bool} (h1 : Segs a sa ba) (h2 : Segs b sb bb) :
    Segs (a ++ b) (sa ++ sb) (ba ++ bb) := by
  refine ⟨by rw [h1.bits, h2.bits, List.flatMap_append], by rw [List.filterMap_append, h1.slices, h2.slices], ?_, ?_⟩
  · intro s hs
    rcases List.mem_append.1 hs with hs | hs
    · exact h1.code s hs
    · exact h2.code s hs
  · intro s hs
    rcases List.mem_append.1 hs with hs | hs
    · exact h1.aligned s hs
    · exact h2.aligned s hs

theorem Segs.header {b : List Bool} (hb : b.length % 8 = 0) : Segs [⟨none, b⟩] [] b := by
  refine ⟨by simp, rfl, ?_, ?_⟩
  · intro s hs sl h
    rw [List.mem_singleton] at hs
    subst hs
    cases h
  · intro s hs
    rw [List.mem_singleton] at hs
    subst hs
    exact hb

section
variable {e : PicEnv} {r r' : RefPics} {W H row : Nat}

def sliceSegs (sls : List SliceData) (bs : List (List Bool)) : List Segment := (sls.zip bs).map fun p => ⟨some p.1, p.2⟩

theorem segs_slices : ∀ {sls : List SliceData} {bs : List (List Bool)}, bs.length = sls.length →
    (∀ p ∈ sls.zip bs, SlicesCode e r W H 0 blank [p.1] p.2) → Segs (sliceSegs sls bs) sls bs.flatten
  | [], bs, hl, _ => by
    cases bs with
    | nil => exact ⟨rfl, rfl, fun s hs => (by cases hs), fun s hs => (by cases hs)⟩
    | cons b bs => simp at hl
  | sl :: sls, bs, hl, h => by
    cases bs with
    | nil => simp at hl
    | cons b bs =>
      have h1 := segs_slices (sls := sls) (bs := bs) (by simpa using hl) fun p hp => h p (by rw [List.zip_cons_cons]; exact List.mem_cons_of_mem _ hp)
      have h0 := h (sl, b) (by rw [List.zip_cons_cons]; exact List.mem_cons_self ..)
      have h2 : Segs [⟨some sl, b⟩] [sl] b := by
        refine ⟨by simp, rfl, ?_, fun s hs => by
          rw [List.mem_singleton] at hs
          subst hs
          exact slices_bytes (by decide) h0⟩
        intro s hs sl' h'
        rw [List.mem_singleton] at hs
        subst hs
        cases h'
        refine ⟨slices_bytes (by decide) h0, ?_⟩
        cases h0 with
        | @cons _ _ _ _ bits more k hs hm =>
          obtain ⟨b', hb', hbits⟩ := hs.body
          rw [hbits]
          unfold SliceData.head
          exact ⟨_, by simp only [List.append_assoc]; rfl⟩
      exact Segs.append h2 h1

theorem keep_slices : ∀ {sls : List SliceData} {bs : List (List Bool)} {fs : List Bool} {pos : Nat} {P : Image}, bs.length = sls.length →
    fs.length = sls.length → (∀ p ∈ sls.zip bs, SlicesCode e r W H 0 blank [p.1] p.2) → pos % 8 = 0 →
    SlicesCode e r W H pos P (((sls.zip fs).filter (·.2)).map (·.1)) (keep fs (sliceSegs sls bs))
  | [], bs, fs, pos, P, h1, h2, h, hp => by
    simp only [List.zip_nil_left, sliceSegs, List.map_nil, keep, List.filter_nil]
    exact .nil
  | sl :: sls, bs, fs, pos, P, h1, h2, h, hp => by
    cases bs with
    | nil => simp at h1
    | cons b bs =>
      cases fs with
      | nil => simp at h2
      | cons f fs =>
        have h0 := slices_move (fun h => h) (pos' := pos) (P' := P) (by omega)
          (h (sl, b) (by rw [List.zip_cons_cons]; exact List.mem_cons_self ..))
        have hb := slices_bytes hp h0
        have hh : ∀ p ∈ sls.zip bs, SlicesCode e r W H 0 blank [p.1] p.2 := fun p hp =>
          h p (by rw [List.zip_cons_cons]; exact List.mem_cons_of_mem _ hp)
        cases f with
        | true =>
          simp only [List.zip_cons_cons, sliceSegs, List.map_cons, keep, if_pos, List.filter_cons_of_pos]
          exact slices_append h0 (keep_slices (by simpa using h1) (by simpa using h2) hh (by omega))
        | false =>
          simp only [List.zip_cons_cons, sliceSegs, List.map_cons, keep, Bool.false_eq_true, if_false, List.nil_append]
          rw [List.filter_cons_of_neg (by simp)]
          exact keep_slices (by simpa using h1) (by simpa using h2) hh hp
end

/-! ### headers can be anywhere -/

def Movable (P : Part) : Prop := ∀ pos pos' b, pos % 8 = pos' % 8 → P pos b → P pos' b

theorem stuffed_move (h : List Bool) : Movable (Stuffed h) := by
  rintro pos pos' b hp ⟨pad, k, h1, h2⟩
  exact ⟨pad, k, h1.trans (padding_congr (by omega)), h2⟩

theorem items_move (i : Nat) (its : List Item) : Movable (ItemsPart i its) := by
  intro pos pos' b hp h
  have h : ItemsCode i pos its b := h
  show ItemsCode i pos' its b
  revert pos'
  have key : ∀ {pos : Nat} {its : List Item} {b : List Bool}, ItemsCode i pos its b → ∀ pos', pos % 8 = pos' % 8 → ItemsCode i pos' its b := by
    intro pos its b h
    induction h with
    | nil => intro pos' hp; exact .nil
    | @user pos d its more h1 h2 ih => intro pos' hp; exact .user h1 (ih (pos' + (encUser d).length) (by omega))
    | @ext pos it its pad more k h1 h2 h3 h4 ih =>
      intro pos' hp
      exact .ext k h1 h2 (h3.trans (padding_congr (by omega))) (ih (pos' + 32 + it.body.length + pad.length + 8 * k) (by omega))
  exact fun pos' hp => key h pos' hp

theorem parts_move {Ps : List Part} (hm : ∀ P ∈ Ps, Movable P) {pos pos' : Nat} {b : List Bool} (hp : pos % 8 = pos' % 8)
    (h : Parts pos Ps b) : Parts pos' Ps b := by
  induction h generalizing pos' with
  | nil => exact .nil
  | @cons pos P Ps b bs h1 h2 ih =>
    exact .cons (hm P List.mem_cons_self _ _ _ hp h1) (ih (fun P hP => hm P (List.mem_cons_of_mem _ hP)) (by omega))

theorem stuffed_end {h b : List Bool} {pos : Nat} (hs : Stuffed h pos b) : (pos + b.length) % 8 = 0 := by
  obtain ⟨pad, k, h1, h2⟩ := hs
  rw [h2]
  simp only [List.length_append, List.length_replicate, zeros, h1]
  unfold padding
  omega

/-- the headers before the slices -/
def headParts (c : Coded) : List Part :=
  seqParts c ++ gopParts c ++ [Stuffed (encPic c.hdr), Stuffed (encPicExt c.ext), ItemsPart 2 c.items]

theorem head_movable (c : Coded) : ∀ P ∈ headParts c, Movable P := by
  intro P hP
  unfold headParts at hP
  rw [List.mem_append, List.mem_append] at hP
  rcases hP with (hP | hP) | hP
  · unfold seqParts at hP
    cases hq : c.seq with
    | none => rw [hq] at hP; cases hP
    | some q =>
      rw [hq] at hP
      simp only [List.mem_cons, List.not_mem_nil, or_false] at hP
      rcases hP with rfl | rfl | rfl
      · exact stuffed_move _
      · exact stuffed_move _
      · exact items_move _ _
  · unfold gopParts at hP
    cases hq : c.gop with
    | none => rw [hq] at hP; cases hP
    | some q =>
      rw [hq] at hP
      simp only [List.mem_cons, List.not_mem_nil, or_false] at hP
      rcases hP with rfl | rfl
      · exact stuffed_move _
      · exact items_move _ _
  · simp only [List.mem_cons, List.not_mem_nil, or_false] at hP
    rcases hP with rfl | rfl | rfl
    · exact stuffed_move _
    · exact stuffed_move _
    · exact items_move _ _

theorem parts_head {c : Coded} {y : Ctx} {r : RefPics} {W H pos : Nat} {b : List Bool} :
    Parts pos (c.parts y r W H) b ↔
    ∃ b1 b2, b = b1 ++ b2 ∧ Parts pos (headParts c) b1 ∧ SlicesCode (y.env c) r W H (pos + b1.length) blank c.slices b2 := by
  have hc : c.parts y r W H = headParts c ++ [fun pos b => SlicesCode (y.env c) r W H pos blank c.slices b] := by
    show seqParts c ++ gopParts c ++ picParts c y r W H = _
    unfold headParts picParts
    simp only [List.append_assoc, List.cons_append, List.nil_append]
  rw [hc]
  constructor
  · intro h
    obtain ⟨b1, b2, rfl, p1, p2⟩ := parts_split h
    obtain ⟨c1, c2, rfl, q1, q2⟩ := parts_inv p2
    have := parts_nil q2
    subst this
    exact ⟨b1, c1, by rw [List.append_nil], p1, q1⟩
  · rintro ⟨b1, b2, rfl, p1, p2⟩
    have := parts_append p1 (.cons p2 .nil : Parts (pos + b1.length) [fun pos b => SlicesCode (y.env c) r W H pos blank c.slices b] _)
    rwa [List.append_nil] at this

theorem head_end {c : Coded} {pos : Nat} {b : List Bool} (h : Parts pos (headParts c) b) : (pos + b.length) % 8 = 0 := by
  unfold headParts at h
  obtain ⟨b1, b2, rfl, p1, p2⟩ := parts_split h
  obtain ⟨c1, d1, rfl, q1, p2⟩ := parts_inv p2
  obtain ⟨c2, d2, rfl, q2, p2⟩ := parts_inv p2
  obtain ⟨c3, d3, rfl, q3, p2⟩ := parts_inv p2
  have := parts_nil p2
  subst this
  have h2 := stuffed_end q2
  have h3 := items_aligned q3 h2
  simp only [List.length_append, List.length_nil]
  rw [show pos + (b1.length + (c1.length + (c2.length + (c3.length + 0)))) = pos + b1.length + c1.length + c2.length + c3.length by omega]
  exact h3

/-! ### one picture -/

theorem got_image {c : LCoded} {y : Ctx} {r r' : RefPics} {W H pos : Nat} {b : List Bool} (hs : SameIf True (y.env c.sent) r r')
    (h : SlicesCode (y.env c.sent) r W H pos blank c.got b) {a u v : Nat}
    (hl : ∀ sl ∈ c.lost, ¬ sl.Covers (y.env c.sent).ph.pictureCodingType a u v) (hlen : c.flags.length = c.sent.slices.length) :
    c.received.image y r' a u v = c.sent.image y r a u v := by
  have h1 : slicesImage (y.env c.sent) r' blank c.got = slicesImage (y.env c.sent) r blank c.got :=
    (slices_same (p := none) (f := none) hs (fun _ => trivial) (fun _ _ _ _ _ => trivial) h).2
  have h2 := slices_lost (e := y.env c.sent) (r := r) (c := a) (x := u) (y := v) (P := blank) (P' := blank)
    (ps := c.sent.slices.zip c.flags) (fun p hp hf => hl _ (List.mem_map.2 ⟨p, List.mem_filter.2 ⟨hp, by rw [hf]; rfl⟩, rfl⟩)) rfl
  rw [List.map_fst_zip (by omega)] at h2
  show slicesImage (y.env c.sent) r' blank c.got a u v = slicesImage (y.env c.sent) r blank c.sent.slices a u v
  rw [h1]
  exact h2

theorem got_ne {c : LCoded} (h : c.OK) : c.got ≠ [] := by
  obtain ⟨i, hi, he⟩ := List.getElem_of_mem h.2
  have hi' : i < c.sent.slices.length := by rw [← h.1]; exact hi
  refine List.ne_nil_of_mem (a := c.sent.slices[i]) ?_
  refine List.mem_map.2 ⟨(c.sent.slices[i], true), List.mem_filter.2 ⟨?_, rfl⟩, rfl⟩
  rw [← he]
  have : (c.sent.slices.zip c.flags)[i]'(by rw [List.length_zip]; omega) = (c.sent.slices[i], c.flags[i]) := List.getElem_zip
  rw [← this]
  exact List.getElem_mem _

theorem received_ok {c : LCoded} {W H : Nat} (h : c.OK) (ho : c.sent.OK W H) : c.received.OK W H :=
  { seq := ho.seq, gop := ho.gop, hdr := ho.hdr, ext := ho.ext, structure_ := ho.structure_, conceal := ho.conceal, f00 := ho.f00
    f01 := ho.f01, f10 := ho.f10, f11 := ho.f11, items := ho.items, slices := got_ne h }

theorem picture_lost {c : Coded} {y : Ctx} {r : RefPics} {W H pos : Nat} {b : List Bool} (h0 : pos % 8 = 0)
    (h : Parts pos (c.parts y r W H) b) : (pos + b.length) % 8 = 0 ∧ ∃ segs, Segs segs c.slices b ∧
      ∀ (l : LCoded) (pos' : Nat) (r' : RefPics), l.sent = c → l.OK → pos % 8 = pos' % 8 → (r.past ≠ none → r'.past ≠ none) →
        Parts pos' (l.received.parts y r' W H) (keep l.flags segs) ∧ (pos' + (keep l.flags segs).length) % 8 = 0 ∧
        (SameIf True (y.env c) r r' → ∀ a u v, (∀ sl ∈ l.lost, ¬ sl.Covers (y.env c).ph.pictureCodingType a u v) →
          l.received.image y r' a u v = c.image y r a u v) := by
  obtain ⟨b1, b2, rfl, p1, p2⟩ := parts_head.1 h
  have e1 := head_end p1
  have e2 := slices_bytes e1 p2
  obtain ⟨bs, s1, s2, s3⟩ := slices_split e1 p2
  refine ⟨by rw [List.length_append]; omega, ⟨none, b1⟩ :: sliceSegs c.slices bs, ?_, ?_⟩
  · have := (Segs.header (b := b1) (by omega)).append (segs_slices s1 s3)
    rw [← s2] at this
    exact this
  · rintro l pos' r' rfl hl hp hr
    have k1 := keep_slices (e := y.env l.sent) (r := r) (W := W) (H := H) (fs := l.flags) (pos := pos' + b1.length) (P := blank)
      s1 hl.1 s3 (by omega)
    have k2 := slices_bytes (show (pos' + b1.length) % 8 = 0 by omega) k1
    refine ⟨parts_head.2 ⟨b1, keep l.flags (sliceSegs l.sent.slices bs), rfl, parts_move (head_movable _) hp p1,
      slices_move hr rfl k1⟩, ?_, fun hs a u v hv => got_image hs k1 hv hl.1⟩
    show (pos' + (b1 ++ keep l.flags (sliceSegs l.sent.slices bs)).length) % 8 = 0
    rw [List.length_append]
    omega

/-! ### streams -/

/-- Three lists, element by element. -/
inductive Tri {α β γ : Type} (R : α → β → γ → Prop) : List α → List β → List γ → Prop
  | nil : Tri R [] [] []
  | cons {a : α} {b : β} {c : γ} {as : List α} {bs : List β} {cs : List γ} : R a b c → Tri R as bs cs → Tri R (a :: as) (b :: bs) (c :: cs)

theorem Tri.append {α β γ : Type} {R : α → β → γ → Prop} {a a' : List α} {b b' : List β} {c c' : List γ} (h : Tri R a b c)
    (h' : Tri R a' b' c') : Tri R (a ++ a') (b ++ b') (c ++ c') := by
  induction h with
  | nil => exact h'
  | cons h1 _ ih => exact .cons h1 ih

theorem Tri.get {α β γ : Type} {R : α → β → γ → Prop} {a : List α} {b : List β} {c : List γ} (h : Tri R a b c) :
    a.length = b.length ∧ c.length = b.length ∧ ∀ i (h1 : i < a.length) (h2 : i < b.length) (h3 : i < c.length), R a[i] b[i] c[i] := by
  induction h with
  | nil => exact ⟨rfl, rfl, fun i h => absurd h (Nat.not_lt_zero _)⟩
  | cons h1 _ ih =>
    refine ⟨by simp [ih.1], by simp [ih.2.1], fun i => ?_⟩
    cases i with
    | zero => intro _ _ _; exact h1
    | succ i => intro k1 k2 k3; exact ih.2.2 i (Nat.lt_of_succ_lt_succ k1) (Nat.lt_of_succ_lt_succ k2) (Nat.lt_of_succ_lt_succ k3)

/-- The picture `P` that was sent and the picture `Q` that is shown. -/
def Spared (t : Bool × LCoded) (P Q : Image) : Prop :=
  (t.1 = false → ∀ a u v, (∀ sl ∈ t.2.lost, ¬ sl.Covers t.2.sent.hdr.kind.code a u v) → Q a u v = P a u v) ∧
  ∀ a u v, (∀ sl ∈ t.2.got, ¬ sl.Covers t.2.sent.hdr.kind.code a u v) → Q a u v = 0

theorem spared_of {c : LCoded} {y : Ctx} {r r' : RefPics} {W H : Nat} (hok : c.sent.OK W H) {bad : Bool}
    (h : SameIf True (y.env c.sent) r r' → ∀ a u v, (∀ sl ∈ c.lost, ¬ sl.Covers (y.env c.sent).ph.pictureCodingType a u v) →
      c.received.image y r' a u v = c.sent.image y r a u v) (hb : bad = false → SameIf True (y.env c.sent) r r') :
    Spared (bad, c) (c.sent.image y r) (c.received.image y r') := by
  have hk : (y.env c.sent).ph.pictureCodingType = c.sent.hdr.kind.code := (viewPic_kind hok.hdr).1
  refine ⟨fun h1 a u v hv => h (hb h1) a u v (by rw [hk]; exact hv), fun a u v hv => ?_⟩
  refine slices_uncovered (e := y.env c.sent) fun sl hsl => ?_
  rw [hk]
  exact hv sl hsl

theorem bs_lost {W H : Nat} {prev : Option Image} {ref : Image} : ∀ {cs : List Coded} {tr : Nat} {x z : Ctx} {pos : Nat}
    {bits : List Bool} {imgs : List Image}, pos % 8 = 0 → BsCode W H prev ref tr x pos cs bits imgs z →
    (pos + bits.length) % 8 = 0 ∧ ∃ segs, Segs segs (cs.flatMap (·.slices)) bits ∧
      ∀ (ls : List LCoded) (pos' : Nat) (prev' : Option Image) (ref' : Image) (bad : Bool), ls.map (·.sent) = cs → (∀ l ∈ ls, l.OK) →
        pos' % 8 = 0 → (prev ≠ none → prev' ≠ none) → (bad = false → prev' = prev ∧ ref' = ref) →
        ∃ imgs', BsCode W H prev' ref' tr x pos' (ls.map (·.received)) (keep (ls.flatMap (·.flags)) segs) imgs' z ∧
          (pos' + (keep (ls.flatMap (·.flags)) segs).length) % 8 = 0 ∧
          Tri Spared (ls.map fun l => (bad, l)) imgs imgs'
  | [], _, _, _, pos, _, _, hp, h => by
    cases h
    refine ⟨by simpa using hp, [], ⟨rfl, rfl, fun s hs => (by cases hs), fun s hs => (by cases hs)⟩, ?_⟩
    intro ls pos' prev' ref' bad h1 h2 h3 h4 h5
    have : ls = [] := List.map_eq_nil_iff.1 h1
    subst this
    exact ⟨[], .nil, by simpa [keep] using h3, .nil⟩
  | c :: cs, _, _, _, pos, _, _, hp, h => by
    cases h with
    | @cons tr x y z _ _ _ b bs imgs hok hseq hgop hk htr hctx hparts hbs =>
      obtain ⟨a1, segs1, a2, a3⟩ := picture_lost hp hparts
      obtain ⟨b1, segs2, b2, b3⟩ := bs_lost a1 hbs
      refine ⟨by rw [List.length_append, ← Nat.add_assoc]; exact b1, segs1 ++ segs2, ?_, ?_⟩
      · rw [List.flatMap_cons]; exact a2.append b2
      · intro ls pos' prev' ref' bad h1 h2 h3 h4 h5
        cases ls with
        | nil => simp at h1
        | cons l ls =>
          rw [List.map_cons, List.cons.injEq] at h1
          obtain ⟨rfl, h1⟩ := h1
          have hl := h2 l List.mem_cons_self
          obtain ⟨c1, c2, c3⟩ := a3 l pos' ⟨prev', some ref'⟩ rfl hl (by omega) h4
          obtain ⟨imgs', d1, d2, d3⟩ := b3 ls _ prev' ref' bad h1 (fun q hq => h2 q (List.mem_cons_of_mem _ hq)) c2 h4 h5
          have hkp : keep ((l :: ls).flatMap (·.flags)) (segs1 ++ segs2) = keep l.flags segs1 ++ keep (ls.flatMap (·.flags)) segs2 := by
            rw [List.flatMap_cons, keep_append (by rw [a2.slices]; exact hl.1.symm)]
          rw [hkp]
          refine ⟨_, .cons (received_ok hl hok) hseq hgop hk htr hctx c1 d1, by rw [List.length_append, ← Nat.add_assoc]; exact d2, ?_⟩
          exact .cons (spared_of hok c3 fun hb => by
            obtain ⟨e1, e2⟩ := h5 hb
            subst e1 e2
            exact ⟨fun _ _ => rfl, fun _ => rfl⟩) d3

theorem groups_lost {W H : Nat} : ∀ {cgs : List CGroup} {base : Nat} {σ : Option Ctx} {prev : Option Image} {pos : Nat}
    {bits : List Bool} {imgs : List Image}, pos % 8 = 0 → GroupsCode W H base σ prev pos cgs bits imgs →
    ∃ segs, Segs segs (allSlices cgs) bits ∧
      ∀ (gs : List LGroup) (pos' : Nat) (prev' : Option Image) (bad : Bool), gs.map (·.sent) = cgs → (∀ g ∈ gs, g.OK) →
        pos' % 8 = 0 → (prev ≠ none → prev' ≠ none) → (bad = false → prev' = prev) →
        ∃ imgs', GroupsCode W H base σ prev' pos' (gs.map (·.received)) (keep (lossFlags gs) segs) imgs' ∧
          Tri Spared (exposed bad gs) imgs imgs'
  | [], _, _, _, pos, _, _, hp, h => by
    cases h
    refine ⟨[], ⟨rfl, rfl, fun s hs => (by cases hs), fun s hs => (by cases hs)⟩, ?_⟩
    intro gs pos' prev' bad h1 h2 h3 h4 h5
    have : gs = [] := List.map_eq_nil_iff.1 h1
    subst this
    exact ⟨[], .nil, .nil⟩
  | cg :: cgs, _, _, prev, pos, _, _, hp, h => by
    cases h with
    | @cons base base0 σ _ _ _ _ b bb more imgs rest y z hok hkind hbase0 htr hctx hparts hbs hgs =>
      obtain ⟨a1, segs1, a2, a3⟩ := picture_lost hp hparts
      obtain ⟨b1, segs2, b2, b3⟩ := bs_lost a1 hbs
      obtain ⟨segs3, g2, g3⟩ := groups_lost b1 hgs
      refine ⟨segs1 ++ (segs2 ++ segs3), ?_, ?_⟩
      · unfold allSlices
        rw [List.flatMap_cons, List.append_assoc]
        exact a2.append (b2.append g2)
      · intro gs pos' prev' bad h1 h2 h3 h4 h5
        cases gs with
        | nil => simp at h1
        | cons g gs =>
          rw [List.map_cons, List.cons.injEq] at h1
          obtain ⟨rfl, h1⟩ := h1
          obtain ⟨hl, hlb⟩ := h2 g List.mem_cons_self
          obtain ⟨c1, c2, c3⟩ := a3 g.ref pos' ⟨prev', none⟩ rfl hl (by omega) h4
          have hk : (y.env g.ref.sent).ph.pictureCodingType = g.ref.sent.hdr.kind.code := (viewPic_kind hok.hdr).1
          obtain ⟨via, hvia⟩ : ∃ via, via = (bad && g.ref.sent.hdr.kind.code != 1) := ⟨_, rfl⟩
          obtain ⟨now, hnow⟩ : ∃ now, now = (via || g.ref.flags.contains false) := ⟨_, rfl⟩
          have hs : via = false → SameIf True (y.env g.ref.sent) ⟨prev, none⟩ ⟨prev', none⟩ := by
            intro hv
            refine ⟨fun hne _ => h5 ?_, fun _ => rfl⟩
            rw [hvia] at hv
            rw [hk] at hne
            cases bad with
            | false => rfl
            | true =>
              exfalso
              simp only [Bool.true_and, bne_eq_false_iff_eq] at hv
              exact hne hv
          have hsp := spared_of (bad := via) hok c3 hs
          have hsame : now = false → g.ref.received.image y ⟨prev', none⟩ = g.ref.sent.image y ⟨prev, none⟩ := by
            intro hn
            rw [hnow, Bool.or_eq_false_iff] at hn
            funext a u v
            refine hsp.1 hn.1 a u v fun sl hsl => ?_
            exfalso
            obtain ⟨p, p1, p2⟩ := List.mem_map.1 hsl
            obtain ⟨p3, p4⟩ := List.mem_filter.1 p1
            have : p.2 = false := by simpa using p4
            have h6 := (List.of_mem_zip (show (p.1, p.2) ∈ _ from p3)).2
            rw [this] at h6
            have := hn.2
            simp at this
            exact this h6
          obtain ⟨imgs1, d1, d2, d3⟩ := b3 g.bs _ prev' (g.ref.received.image y ⟨prev', none⟩) (bad || now) rfl hlb c2 h4 (by
            intro hb
            rw [Bool.or_eq_false_iff] at hb
            exact ⟨h5 hb.1, hsame hb.2⟩)
          obtain ⟨imgs2, f1, f2⟩ := g3 gs _ (some (g.ref.received.image y ⟨prev', none⟩)) now h1
            (fun q hq => h2 q (List.mem_cons_of_mem _ hq)) d2 (fun _ h => by cases h) (fun hn => by rw [hsame hn]; rfl)
          have hkp : keep (lossFlags (g :: gs)) (segs1 ++ (segs2 ++ segs3)) =
              keep g.ref.flags segs1 ++ (keep (g.bs.flatMap (·.flags)) segs2 ++ keep (lossFlags gs) segs3) := by
            unfold lossFlags
            rw [List.flatMap_cons, List.append_assoc, keep_append (by rw [a2.slices]; exact hl.1.symm), keep_append]
            rw [b2.slices]
            have : ∀ ls : List LCoded, (∀ l ∈ ls, l.OK) → ((ls.map (·.sent)).flatMap (·.slices)).length = (ls.flatMap (·.flags)).length := by
              intro ls
              induction ls with
              | nil => intro _; rfl
              | cons l ls ih =>
                intro h
                simp only [List.map_cons, List.flatMap_cons, List.length_append]
                rw [ih fun q hq => h q (List.mem_cons_of_mem _ hq), (h l List.mem_cons_self).1]
            exact this _ hlb
          rw [hkp]
          refine ⟨imgs1 ++ (g.received.ref.image y ⟨prev', none⟩ :: imgs2), GroupsCode.cons (g := g.received) (received_ok hl hok) hkind hbase0 ?_ hctx c1 d1 ?_, ?_⟩
          · show g.ref.sent.hdr.temporal = base0 + (g.bs.map (·.received)).length
            refine Eq.trans (b := base0 + (g.bs.map (·.sent)).length) htr ?_
            rw [List.length_map, List.length_map]
          · have e3 : base0 + g.received.bs.length + 1 = base0 + g.sent.bs.length + 1 := by
              show base0 + (g.bs.map (·.received)).length + 1 = base0 + (g.bs.map (·.sent)).length + 1
              rw [List.length_map, List.length_map]
            rw [e3]
            exact f1
          · unfold exposed
            dsimp only
            rw [← hvia, ← hnow]
            exact d3.append (.cons hsp f2)

theorem keep_length : ∀ (fs : List Bool) (ss : List Segment), (keep fs ss).length ≤ (ss.flatMap (·.bits)).length
  | fs, [] => by simp [keep]
  | fs, ⟨none, b⟩ :: ss => by
    have := keep_length fs ss
    simp only [keep, List.flatMap_cons, List.length_append]; omega
  | [], ⟨some _, b⟩ :: ss => by
    have := keep_length [] ss
    simp only [keep, List.flatMap_cons, List.length_append]; omega
  | f :: fs, ⟨some _, b⟩ :: ss => by
    have := keep_length fs ss
    simp only [keep, List.flatMap_cons, List.length_append]
    cases f
    · rw [if_neg (by simp), List.length_nil]; omega
    · rw [if_pos rfl]; omega

end Mpeg.Video
