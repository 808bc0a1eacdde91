/-
The reference decoder does not look at the reference frames of `PicEnv`, nor at the future picture in I and P pictures;
its pictures have samples in 0..255.
-/
import Verif.Video.RefLemmas5
import Verif.Video.StreamSpec
set_option linter.all false
namespace Mpeg.Video
open Spec

/-- Other reference frames. -/
def PicEnv.refs (e : PicEnv) (p f : Option Frame) : PicEnv := { e with past := p, future := f }

section
variable {e : PicEnv} {p f : Option Frame} {r r' : RefPics} {W H row : Nat}

/-- The references agree as far as the coding type looks at them. -/
def SameRefs (e : PicEnv) (r r' : RefPics) : Prop :=
  (e.ph.pictureCodingType ≠ 1 → r'.past = r.past) ∧ (e.ph.pictureCodingType = 3 → r' = r)

/-- The same, where the past is only looked at if `F`. -/
def SameIf (F : Prop) (e : PicEnv) (r r' : RefPics) : Prop :=
  (e.ph.pictureCodingType ≠ 1 → F → r'.past = r.past) ∧ (e.ph.pictureCodingType = 3 → r'.future = r.future)

theorem SameRefs.always (h : SameRefs e r r') : SameIf True e r r' :=
  ⟨fun h1 _ => h.1 h1, fun h3 => by rw [h.2 h3]⟩

theorem predicted_same {F : Prop} (h : SameIf F e r r') (d : DState) (hd : Dirs e.ph.pictureCodingType d)
    (hF : d.fwd = true → F) (c x y : Nat) : d.predicted r' c x y = d.predicted r c x y := by
  unfold DState.predicted
  congr 1
  · cases hf : d.fwd with
    | false => rfl
    | true => rw [h.1 (hd.1 hf) (hF hf)]
  · cases hb : d.bwd with
    | false => rfl
    | true => rw [h.2 (hd.2 hb)]

theorem skip_same {F : Prop} (h : SameIf F e r r') (h2F : e.ph.pictureCodingType = 2 → F) (d : DState)
    (hF : d.fwd = true → F) (a : Option Nat) (n : Nat) :
    d.skip (e.refs p f) r' row a n = d.skip e r row a n := by
  unfold DState.skip
  by_cases hn : n ≤ 1
  · rw [if_pos hn, if_pos hn]
  · rw [if_neg hn, if_neg hn]
    cases a with
    | none => rfl
    | some a =>
      have : d.skipPic (e.refs p f).ph.pictureCodingType r' row a (n - 1) =
          d.skipPic e.ph.pictureCodingType r row a (n - 1) := by
        show d.skipPic e.ph.pictureCodingType r' row a (n - 1) = _
        funext c x y
        unfold DState.skipPic
        by_cases h3 : e.ph.pictureCodingType = 3
        · rw [predicted_same h d ⟨fun _ => by omega, fun _ => h3⟩ hF, h3]
          rfl
        · rw [if_neg h3, if_neg h3]
          by_cases h2 : e.ph.pictureCodingType = 2
          · rw [h.1 (by omega) (h2F h2)]
          · rw [if_neg h2, if_neg h2]
      dsimp only
      rw [this]
      rfl

theorem type_backward {pct : Nat} {c : List Bool} {t : MacroblockType} (h : (c, t) ∈ isoType pct) (h3 : pct ≠ 3) :
    t.backward = false := by
  by_cases h2 : pct = 2
  · exact (type_facts h).2.1 h2
  · unfold isoType at h
    have kI : isoTypeI.all (fun e => e.2.backward == false) = true := by decide
    split at h
    · exact eq_of_beq (List.all_eq_true.1 kI _ h)
    · cases h

theorem recon_same {F : Prop} (h : SameIf F e r r') (d : DState) (a : Nat) (m : MbData)
    (hd : Dirs e.ph.pictureCodingType d) (hF : d.fwd = true → F) :
    d.recon (e.refs p f) r' row a m = d.recon e r row a m := by
  have hp := predicted_same h d hd hF
  unfold DState.recon
  congr 1
  funext c x y
  rw [hp]
  rfl

theorem mb_same {F : Prop} (h : SameIf F e r r') (h2F : e.ph.pictureCodingType = 2 → F) (d : DState)
    (hF : d.fwd = true → F) (a : Option Nat) (m : MbData) (hmF : m.type.forward = true → F)
    {t : List Bool} (ht : (t, m.type) ∈ isoType e.ph.pictureCodingType) :
    d.mb (e.refs p f) r' row a m = d.mb e r row a m := by
  unfold DState.mb
  rw [skip_same h h2F d hF]
  exact recon_same h _ _ m (dirs_param ht) (fwd_param h2F hmF)

/-- The same coding in another environment. -/
def _root_.Mpeg.Video.Spec.MbCode.refs {d : DState} {m : MbData} (c : MbCode e d m) (p f : Option Frame) :
    MbCode (e.refs p f) d m :=
  { k := c.k, v := c.v, addr := c.addr, type := c.type, vecs := c.vecs, pattern := c.pattern, blocks := c.blocks
    hIncr := c.hIncr, hAddr := c.hAddr, hType := c.hType, hDct := c.hDct, hQ := c.hQ, hVec := c.hVec
    hPattern := c.hPattern, hCoded := c.hCoded, hUncoded := c.hUncoded, hDc := c.hDc }

theorem bits_cast {d d' : DState} {m : MbData} (h : d = d') (c : MbCode e d m) : (h ▸ c).bits = c.bits := by subst h; rfl

theorem legal_same {F : Prop} (h : SameIf F e r r') (h2F : e.ph.pictureCodingType = 2 → F) {a : Option Nat} {d : DState}
    (hF : d.fwd = true → F) {m : MbData} (hl : MbLegal e r W H row a d m) :
    MbLegal (e.refs p f) r' W H row a d m := by
  refine ⟨hl.inPicture, fun x hx hi hp => ?_, hl.skipB, ?_, hl.frameDct⟩
  · rw [h.1 (by rw [show e.ph.pictureCodingType = 2 from hp]; decide) (h2F hp)]; exact hl.skipP x hx hi hp
  · rw [skip_same h h2F d hF]; exact hl.vectors

theorem mbs_same {F : Prop} (h : SameIf F e r r') (h2F : e.ph.pictureCodingType = 2 → F) :
    ∀ {ms : List MbData} {a : Option Nat} {d : DState} {bits : List Bool}, (d.fwd = true → F) →
    (∀ m ∈ ms, m.type.forward = true → F) → MbsCode e r W H row a d ms bits → MbsCode (e.refs p f) r' W H row a d ms bits ∧
      DState.mbs (e.refs p f) r' row a d ms = DState.mbs e r row a d ms
  | [], a, d, _, _, _, hc => by cases hc; exact ⟨.nil, rfl⟩
  | m :: ms, a, d, _, hF, hmF, hc => by
    cases hc with
    | @cons _ _ _ _ bits hl code hm =>
      obtain ⟨k1, k2⟩ := mbs_same h h2F (fwd_mb h2F (hmF m List.mem_cons_self))
        (fun m hm => hmF m (List.mem_cons_of_mem _ hm)) hm
      have he := mb_same (p := p) (f := f) (row := row) h h2F d hF a m (hmF m List.mem_cons_self) code.hType
      have hs := skip_same (p := p) (f := f) (row := row) h h2F d hF a m.incr
      refine ⟨?_, ?_⟩
      · have hd : (d.skip e r row a m.incr).begin e m.type =
            (d.skip (e.refs p f) r' row a m.incr).begin (e.refs p f) m.type := by rw [hs]; rfl
        have : (hd ▸ code.refs p f : MbCode (e.refs p f) _ m).bits = code.bits := bits_cast hd (code.refs p f)
        rw [← this]
        refine .cons (legal_same h h2F hF hl) _ ?_
        rw [he]
        exact k1
      · show DState.mbs (e.refs p f) r' row (some (addrAfter a m.incr)) (d.mb (e.refs p f) r' row a m) ms = _
        rw [he]
        exact k2

theorem slice_same {F : Prop} (h : SameIf F e r r') (h2F : e.ph.pictureCodingType = 2 → F) {P : Image} {sl : SliceData}
    (hmF : ∀ m ∈ sl.mbs, m.type.forward = true → F) {bits : List Bool}
    (hc : SliceCode e r W H P sl bits) :
    SliceCode (e.refs p f) r' W H P sl bits ∧ sl.image (e.refs p f) r' P = sl.image e r P := by
  obtain ⟨b, hb, hbits⟩ := hc.body
  obtain ⟨k1, k2⟩ := mbs_same (p := p) (f := f) h h2F (fun h => (by cases h)) hmF hb
  refine ⟨⟨hc.row, hc.maxRow, hc.q, hc.info, hc.nonempty, b, k1, hbits⟩, ?_⟩
  exact congrArg DState.pic k2

theorem slices_same {F : Prop} (h : SameIf F e r r') (h2F : e.ph.pictureCodingType = 2 → F) :
    ∀ {sls : List SliceData} {pos : Nat} {P : Image} {bits : List Bool},
    (∀ sl ∈ sls, ∀ m ∈ sl.mbs, m.type.forward = true → F) → SlicesCode e r W H pos P sls bits → SlicesCode (e.refs p f) r' W H pos P sls bits ∧
      slicesImage (e.refs p f) r' P sls = slicesImage e r P sls
  | [], pos, P, _, _, hc => by cases hc; exact ⟨.nil, rfl⟩
  | sl :: sls, pos, P, _, hmF, hc => by
    cases hc with
    | cons k hs hm =>
      obtain ⟨a1, a2⟩ := slice_same (p := p) (f := f) h h2F (hmF sl List.mem_cons_self) hs
      obtain ⟨b1, b2⟩ := slices_same h h2F (fun sl hs => hmF sl (List.mem_cons_of_mem _ hs)) hm
      refine ⟨.cons k a1 (by rw [a2]; exact b1), ?_⟩
      show slicesImage (e.refs p f) r' (sl.image (e.refs p f) r' P) sls = slicesImage e r (sl.image e r P) sls
      rw [a2]
      exact b2

/-! ### samples -/

theorem clip_le (x : Int) : clip x ≤ 255 := by unfold clip; omega

theorem mb_samples (h1 : Samples r.past) (h2 : Samples r.future) {d : DState} (hd : ∀ c x y, d.pic c x y ≤ 255)
    (a : Option Nat) (m : MbData) : ∀ c x y, (d.mb e r row a m).pic c x y ≤ 255 := by
  intro c x y
  have hs : ∀ c x y, (d.skip e r row a m.incr).pic c x y ≤ 255 := by
    intro c x y
    unfold DState.skip
    split
    · exact hd c x y
    · cases a with
      | none => exact hd c x y
      | some a =>
        show d.skipPic e.ph.pictureCodingType r row a (m.incr - 1) c x y ≤ 255
        unfold DState.skipPic
        split
        · split
          · cases hp : r.past with
            | none => exact Nat.zero_le _
            | some P => exact h1 P hp c x y
          · split
            · exact predicted_le h1 h2 c x y
            · exact hd c x y
        · exact hd c x y
  show (if inMB (side c) row (addrAfter a m.incr) x y then _ else _) ≤ 255
  split
  · exact clip_le _
  · exact hs c x y

theorem mbs_samples (h1 : Samples r.past) (h2 : Samples r.future) : ∀ {ms : List MbData} {a : Option Nat} {d : DState},
    (∀ c x y, d.pic c x y ≤ 255) → ∀ c x y, (DState.mbs e r row a d ms).pic c x y ≤ 255
  | [], _, _, hd => hd
  | m :: ms, a, d, hd => mbs_samples (ms := ms) (a := some (addrAfter a m.incr)) (d := d.mb e r row a m) h1 h2
    (mb_samples h1 h2 hd a m)

theorem slices_samples (h1 : Samples r.past) (h2 : Samples r.future) : ∀ {sls : List SliceData} {P : Image},
    (∀ c x y, P c x y ≤ 255) → ∀ c x y, slicesImage e r P sls c x y ≤ 255
  | [], _, hP => hP
  | sl :: sls, P, hP => slices_samples (sls := sls) h1 h2 (P := sl.image e r P) (mbs_samples h1 h2 hP)

end
end Mpeg.Video
