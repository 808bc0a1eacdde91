/-
Streams that code the same data in different ways: the pictures of the reference decoder.
-/
import Verif.Video.EquivSpec
import Verif.Video.SliceLossLemmas
import Verif.Video.StreamLemmas3
namespace Mpeg.Video
open Spec

/-- what the reference decoder uses of the environment -/
structure EnvSame (e e' : PicEnv) : Prop where
  pct : e.ph.pictureCodingType = e'.ph.pictureCodingType
  precision : e.pce.intraDCPrecision = e'.pce.intraDCPrecision
  qScale : e.pce.qScaleType = e'.pce.qScaleType
  scan : e.pce.alternateScan = e'.pce.alternateScan
  conceal : e.pce.concealmentMotionVectors = e'.pce.concealmentMotionVectors
  m0 : e.qm.m0 = e'.qm.m0
  m1 : e.qm.m1 = e'.qm.m1

section
variable {e e' : PicEnv} (h : EnvSame e e') (r : RefPics)
include h

theorem same_coefficients (qsc : Nat) (i : Bool) (qf : List Int) : coefficients e qsc i qf = coefficients e' qsc i qf := by
  unfold coefficients
  rw [h.precision, h.qScale, h.scan, h.m0, h.m1]
theorem same_residual (m : MbData) (q i k : Nat) : m.residual e q i k = m.residual e' q i k := by
  unfold MbData.residual
  rw [same_coefficients h]
theorem same_skip (d : DState) (row : Nat) (a : Option Nat) (n : Nat) : d.skip e r row a n = d.skip e' r row a n := by
  unfold DState.skip
  rw [h.pct, h.precision]
theorem same_begin (d : DState) (t : MacroblockType) : d.begin e t = d.begin e' t := by
  unfold DState.begin
  rw [h.pct, h.precision, h.conceal]
theorem same_hasVec (t : MacroblockType) (s : Nat) : hasVec e t s = hasVec e' t s := by
  unfold hasVec conceals
  rw [h.conceal]
theorem same_param (d : DState) (m : MbData) : d.param e m = d.param e' m := by
  unfold DState.param
  rw [h.pct]
  have : hasVec e m.type = hasVec e' m.type := funext (same_hasVec h m.type)
  rw [this]
theorem same_recon (d : DState) (row a : Nat) (m : MbData) : d.recon e r row a m = d.recon e' r row a m := by
  have : m.residual e = m.residual e' := by funext q i k; exact same_residual h m q i k
  unfold DState.recon
  rw [this]
theorem same_mb (d : DState) (row : Nat) (a : Option Nat) (m : MbData) : d.mb e r row a m = d.mb e' r row a m := by
  unfold DState.mb
  rw [same_skip h, same_begin h, same_param h, same_recon h]
theorem same_mbs (row : Nat) : ∀ (a : Option Nat) (d : DState) (ms : List MbData),
    DState.mbs e r row a d ms = DState.mbs e' r row a d ms
  | _, _, [] => rfl
  | a, d, m :: ms => by
    unfold DState.mbs
    rw [same_mb h, same_mbs row]
theorem same_image (P : Image) {sl sl' : SliceData} (hs : sl.content = sl'.content) : sl.image e r P = sl'.image e' r P := by
  obtain ⟨row, q, i, ms⟩ := sl
  obtain ⟨row', q', i', ms'⟩ := sl'
  cases hs
  unfold SliceData.image SliceData.start
  rw [same_mbs h, h.precision]
end

/-- a sample that is covered has the value that any slice covering it gives to it -/
theorem slices_value {e : PicEnv} {r : RefPics} {c x y : Nat} {sl : SliceData} (hc : sl.Covers e.ph.pictureCodingType c x y) :
    ∀ {sls : List SliceData} {P : Image}, sl ∈ sls →
    (∀ sl' ∈ sls, sl'.Covers e.ph.pictureCodingType c x y → sl'.content = sl.content) →
    slicesImage e r P sls c x y = sl.image e r blank c x y
  | s :: sls, P, hm, hu => by
    show slicesImage e r (s.image e r P) sls c x y = _
    by_cases hx : ∃ s' ∈ sls, s'.Covers e.ph.pictureCodingType c x y
    · obtain ⟨s', hs', hc'⟩ := hx
      have e1 := hu s' (List.mem_cons_of_mem _ hs') hc'
      have e2 := slices_value (r := r) hc' (sls := sls) (P := s.image e r P) hs' fun s'' h1 h2 =>
        (hu s'' (List.mem_cons_of_mem _ h1) h2).trans e1.symm
      rw [e2, same_image (e := e) (e' := e) ⟨rfl, rfl, rfl, rfl, rfl, rfl, rfl⟩ r blank e1]
    · have hn : ∀ s' ∈ sls, ¬ s'.Covers e.ph.pictureCodingType c x y := fun s' h1 h2 => hx ⟨s', h1, h2⟩
      rw [slices_uncovered hn]
      rcases List.mem_cons.1 hm with rfl | h1
      · exact image_cover hc
      · exact absurd hc (hn sl h1)

theorem same_slices {e e' : PicEnv} (h : EnvSame e e') (r : RefPics) {a b : List SliceData}
    (hs : SameSlices e.ph.pictureCodingType a b) (P : Image) : slicesImage e r P a = slicesImage e' r P b := by
  have covers : ∀ {s t : SliceData}, s.content = t.content → ∀ {c x y}, s.Covers e.ph.pictureCodingType c x y →
      t.Covers e'.ph.pictureCodingType c x y := by
    intro s t hst c x y hc
    obtain ⟨row, q, i, ms⟩ := s
    obtain ⟨row', q', i', ms'⟩ := t
    cases hst
    rw [← h.pct]
    exact hc
  have covers' : ∀ {s t : SliceData}, s.content = t.content → ∀ {c x y}, t.Covers e'.ph.pictureCodingType c x y →
      s.Covers e.ph.pictureCodingType c x y := by
    intro s t hst c x y hc
    obtain ⟨row, q, i, ms⟩ := s
    obtain ⟨row', q', i', ms'⟩ := t
    cases hst
    rw [h.pct]
    exact hc
  funext c x y
  by_cases hx : ∃ s ∈ a, s.Covers e.ph.pictureCodingType c x y
  · obtain ⟨s, h1, h2⟩ := hx
    obtain ⟨t, h3, h4⟩ := List.mem_map.1 ((hs.same s.content).1 (List.mem_map.2 ⟨s, h1, rfl⟩))
    rw [slices_value h2 h1 fun s' h5 h6 => hs.apart s' h5 s h1 c x y h6 h2]
    rw [slices_value (covers h4.symm h2) h3 fun t' h5 h6 => ?_]
    · exact congrFun (congrFun (congrFun (same_image h r blank h4.symm) c) x) y
    · obtain ⟨s', h7, h8⟩ := List.mem_map.1 ((hs.same t'.content).2 (List.mem_map.2 ⟨t', h5, rfl⟩))
      rw [← h8, h4]
      exact hs.apart s' h7 s h1 c x y (covers' h8 h6) h2
  · rw [slices_uncovered fun s h1 h2 => hx ⟨s, h1, h2⟩, slices_uncovered]
    intro t h1 h2
    obtain ⟨s, h3, h4⟩ := List.mem_map.1 ((hs.same t.content).2 (List.mem_map.2 ⟨t, h1, rfl⟩))
    exact hx ⟨s, h3, covers' h4 h2⟩

theorem same_coded {c d : Coded} {y z : Ctx} (h0 : y.mats.m0 = z.mats.m0) (h1 : y.mats.m1 = z.mats.m1) (hs : SameContent c d)
    (wc : c.hdr.WF) (wd : d.hdr.WF) (r : RefPics) : c.image y r = d.image z r := by
  have k1 := (viewPic_kind wc).1
  have k2 := (viewPic_kind wd).1
  refine same_slices (e := y.env c) (e' := z.env d) ⟨?_, hs.precision, hs.qScale, hs.scan, hs.conceal, h0, h1⟩ r ?_ blank
  · show (viewPic c.hdr).pictureCodingType = (viewPic d.hdr).pictureCodingType
    rw [k1, k2, hs.kind]
  · show SameSlices (viewPic c.hdr).pictureCodingType _ _
    rw [k1]
    exact hs.slices

/-- no B picture comes first -/
def RefFirst : List Coded → Prop
  | [] => True
  | c :: _ => c.hdr.kind.code ≠ 3

theorem bs_same {W H : Nat} {prev : Option Image} {ref : Image} : ∀ {cs : List Coded} {tr : Nat} {x z : Ctx} {pos : Nat}
    {bits : List Bool} {imgs : List Image}, BsCode W H prev ref tr x pos cs bits imgs z →
    ∀ {cs' : List Coded} {tr' : Nat} {x' z' : Ctx} {pos' : Nat} {bits' : List Bool} {imgs' : List Image},
    BsCode W H prev ref tr' x' pos' cs' bits' imgs' z' → ∀ {rest rest' : List Coded}, RefFirst rest → RefFirst rest' →
    SamePictures (some x) (some x') (cs ++ rest) (cs' ++ rest') →
    imgs = imgs' ∧ SamePictures (some z) (some z') rest rest' := by
  intro cs tr x z pos bits imgs h
  induction h with
  | nil =>
    intro cs' tr' x' z' pos' bits' imgs' h' rest rest' hr hr' hs
    cases h' with
    | nil => exact ⟨rfl, hs⟩
    | @cons _ _ _ _ _ c cs b bs imgs _ _ _ hk _ _ _ _ =>
      rw [List.nil_append] at hs
      cases hs with
      | cons _ _ _ _ hc _ => exact absurd (hc.kind.trans hk) hr
  | @cons tr x y z pos c cs b bs imgs hok h1 h2 hk h3 hy hp hrec ih =>
    intro cs' tr' x' z' pos' bits' imgs' h' rest rest' hr hr' hs
    cases h' with
    | nil =>
      rw [List.nil_append] at hs
      cases hs with
      | cons _ _ _ _ hc _ => exact absurd (hc.kind.symm.trans hk) hr'
    | @cons _ _ y' _ _ c' cs' b' bs' imgs' hok' h1' h2' hk' h3' hy' hp' hrec' =>
      cases hs with
      | cons e1 e2 m0 m1 hc hs =>
        rw [hy] at e1
        rw [hy'] at e2
        cases e1
        cases e2
        obtain ⟨i1, i2⟩ := ih hrec' hr hr' hs
        exact ⟨by rw [same_coded m0 m1 hc hok.hdr hok'.hdr, i1], i2⟩

theorem refFirst_groups {W H : Nat} {base : Nat} {σ : Option Ctx} {prev : Option Image} {pos : Nat} {gs : List CGroup}
    {bits : List Bool} {imgs : List Image} (h : GroupsCode W H base σ prev pos gs bits imgs) : RefFirst (codingOrder gs) := by
  cases h with
  | nil => trivial
  | cons _ hk _ _ _ _ _ _ =>
    show _ ≠ 3
    omega

theorem groups_same {W H : Nat} : ∀ {gs : List CGroup} {base : Nat} {σ : Option Ctx} {prev : Option Image} {pos : Nat}
    {bits : List Bool} {imgs : List Image}, GroupsCode W H base σ prev pos gs bits imgs →
    ∀ {gs' : List CGroup} {base' : Nat} {τ : Option Ctx} {pos' : Nat} {bits' : List Bool} {imgs' : List Image},
    GroupsCode W H base' τ prev pos' gs' bits' imgs' → SamePictures σ τ (codingOrder gs) (codingOrder gs') → imgs = imgs' := by
  intro gs base σ prev pos bits imgs h
  induction h with
  | nil =>
    intro gs' base' τ pos' bits' imgs' h' hs
    cases h' with
    | nil => rfl
    | cons => cases hs
  | @cons base base0 σ prev pos g gs b bb more imgs rest y z hok hk hb ht hy hp hbs hgs ih =>
    intro gs' base' τ pos' bits' imgs' h' hs
    cases h' with
    | nil => cases hs
    | @cons _ base0' _ _ _ g' gs' b' bb' more' imgs' rest' y' z' hok' hk' hb' ht' hy' hp' hbs' hgs' =>
      cases hs with
      | cons e1 e2 m0 m1 hc hs =>
        rw [hy] at e1
        rw [hy'] at e2
        cases e1
        cases e2
        have himg := same_coded m0 m1 hc hok.hdr hok'.hdr ⟨prev, none⟩
        rw [← himg] at hbs' hgs' ⊢
        obtain ⟨i1, i2⟩ := bs_same hbs hbs' (refFirst_groups hgs) (refFirst_groups hgs') hs
        rw [i1, ih hgs' i2]

end Mpeg.Video
