/-
The reference decoder of RefSpec.lean stays close to the exact decoder of IsoSpec.lean: slices, pictures, streams.
-/
import Verif.Video.IsoLemmas
set_option linter.all false
namespace Mpeg.Video
open Spec

theorem qsc_param (e : PicEnv) (r : RefPics) (row : Nat) (a : Option Nat) (d : DState) (m : MbData) :
    (((d.skip e r row a m.incr).begin e m.type).param e m).qsc = if m.type.quant then m.q else d.qsc := by
  unfold DState.param DState.begin DState.skip
  dsimp only
  split
  · rfl
  · split <;> rfl

theorem twin_mbs {e : PicEnv} {r r' : RefPics} {W H row c b k : Nat} (hc : c < 3) (hp : NearRef c k r.past r'.past)
    (hf : NearRef c k r.future r'.future) (hb : Budget e.ph.pictureCodingType k b) :
    ∀ {a : Option Nat} {d d' : DState} {ms : List MbData} {bits : List Bool}, MbsCode e r W H row a d ms bits →
      Twin c b d d' → (∀ F ∈ mbBlocksOf e d.qsc ms, Mild F) → (c ≠ 0 → ∀ m ∈ ms, ∀ s t, Halves (m.vec s t)) →
      Twin c b (DState.mbs e r row a d ms) (DState.isoMbs e r' row a d' ms) := by
  intro a d d' ms bits h
  induction h generalizing d' with
  | nil => intro ht _ _; exact ht
  | @cons a d m ms bits _ code _ ih =>
    intro ht hF hv
    unfold DState.mbs DState.isoMbs
    have t1 := twin_param (m := m) (e := e) (twin_begin (e := e) m.type (twin_skip (a := a) (row := row) (incr := m.incr) ht hp hf hb))
      (fun hc => hv hc m (List.mem_cons_self ..))
    have hq := qsc_param e r row a d m
    unfold mbBlocksOf at hF
    refine ih (twin_recon hc t1 hp hf hb (dirs_param code.hType) ?_) ?_ fun hc m' hm' => hv hc m' (List.mem_cons_of_mem _ hm')
    · intro i hi hcd
      rw [hq]
      exact hF _ (List.mem_append_left _ (List.mem_map.mpr ⟨i, List.mem_filter.mpr ⟨List.mem_range.mpr hi, hcd⟩, rfl⟩))
    · intro F hx
      refine hF F (List.mem_append_right _ ?_)
      have : (d.mb e r row a m).qsc = if m.type.quant then m.q else d.qsc := hq
      rw [← this]
      exact hx

theorem near_slices {e : PicEnv} {r r' : RefPics} {W H c b k : Nat} (hc : c < 3) (hp : NearRef c k r.past r'.past)
    (hf : NearRef c k r.future r'.future) (hb : Budget e.ph.pictureCodingType k b) :
    ∀ {pos : Nat} {P P' : Image} {sls : List SliceData} {bits : List Bool}, SlicesCode e r W H pos P sls bits →
      (∀ x y, near b (P c x y) (P' c x y)) → (∀ F ∈ sls.flatMap (fun sl => mbBlocksOf e sl.q sl.mbs), Mild F) →
      (c ≠ 0 → ∀ m ∈ sls.flatMap (fun sl => sl.mbs), ∀ s t, Halves (m.vec s t)) →
      ∀ x y, near b (slicesImage e r P sls c x y) (sls.foldl (fun P sl => sl.isoImage e r' P) P' c x y) := by
  intro pos P P' sls bits h
  induction h generalizing P' with
  | nil => intro hP _ _; exact hP
  | @cons pos P sl sls bits more n hs _ ih =>
    intro hP hF hv
    obtain ⟨bb, hm, _⟩ := hs.body
    refine ih (P' := sl.isoImage e r' P') ?_ ?_ ?_
    · have ht : Twin c b (sl.start e P) (sl.start e P') :=
        ⟨rfl, rfl, rfl, rfl, rfl, hP, fun _ _ _ => .inl (Int.le_refl _)⟩
      exact (twin_mbs hc hp hf hb hm ht (fun F hx => hF F (by
        rw [List.flatMap_cons]; exact List.mem_append_left _ hx)) (fun hc m hm => hv hc m (by
        rw [List.flatMap_cons]; exact List.mem_append_left _ hm))).pic
    · intro F hx
      exact hF F (by rw [List.flatMap_cons]; exact List.mem_append_right _ hx)
    · intro hc m hm
      exact hv hc m (by rw [List.flatMap_cons]; exact List.mem_append_right _ hm)

/-- the last of the parts -/
theorem parts_drop : ∀ {Ps Qs : List Part} {pos : Nat} {b : List Bool}, Parts pos (Ps ++ Qs) b → ∃ pos' b', Parts pos' Qs b'
  | [], Qs, pos, b, h => ⟨pos, b, h⟩
  | P :: Ps, Qs, pos, b, h => by
    cases h with
    | cons _ h => exact parts_drop h

theorem parts_slices {c : Coded} {x : Ctx} {r : RefPics} {W H pos : Nat} {b : List Bool} (h : Parts pos (c.parts x r W H) b) :
    ∃ pos' b', SlicesCode (x.env c) r W H pos' blank c.slices b' := by
  unfold Coded.parts at h
  obtain ⟨p1, b1, h1⟩ := parts_drop h
  cases h1 with
  | cons _ h1 =>
    cases h1 with
    | cons _ h1 =>
      cases h1 with
      | cons _ h1 =>
        cases h1 with
        | cons hs _ => exact ⟨_, _, hs⟩

theorem near_image {c : Coded} {x : Ctx} {r r' : RefPics} {W H pos comp b k : Nat} {bits : List Bool} (hc : comp < 3)
    (hp : NearRef comp k r.past r'.past) (hf : NearRef comp k r.future r'.future) (hb : Budget c.hdr.kind.code k b)
    (h : Parts pos (c.parts x r W H) bits) (hF : ∀ F ∈ c.blocks x, Mild F)
    (hv : comp ≠ 0 → ∀ m ∈ c.slices.flatMap (fun sl => sl.mbs), ∀ s t, Halves (m.vec s t)) :
    ∀ u v, near b (c.image x r comp u v) (c.isoImage x r' comp u v) := by
  obtain ⟨_, _, hs⟩ := parts_slices h
  have hpct : (x.env c).ph.pictureCodingType = c.hdr.kind.code := by
    show (viewPic c.hdr).pictureCodingType = _
    generalize c.hdr = h
    obtain ⟨tr, k, v, x⟩ := h
    cases k <;> rfl
  exact near_slices hc hp hf (hpct ▸ hb) hs (fun u v => near_refl _ _) hF hv

/-- the macroblocks of pictures -/
def mbsOf (cs : List Coded) : List MbData := cs.flatMap fun c => c.slices.flatMap fun sl => sl.mbs

theorem near_bs {W H comp k : Nat} (hc : comp < 3) {prev prev' : Option Image} {ref ref' : Image} (hp : NearRef comp k prev prev')
    (hr : ∀ u v, near k (ref comp u v) (ref' comp u v)) :
    ∀ {tr : Nat} {x z : Ctx} {pos : Nat} {cs : List Coded} {bits : List Bool} {imgs : List Image},
      BsCode W H prev ref tr x pos cs bits imgs z → (∀ F ∈ blocksFrom (some x) cs, Mild F) →
      (comp ≠ 0 → ∀ m ∈ mbsOf cs, ∀ s t, Halves (m.vec s t)) →
      imgs.length = cs.length ∧ ctxAfter (some x) cs = some z ∧
      List.Forall₂ (fun P Q => ∀ u v, near (k + 3) (P comp u v) (Q comp u v)) imgs (isoBs prev' ref' (some x) cs) := by
  intro tr x z pos cs bits imgs h
  induction h with
  | nil => intro _ _; exact ⟨rfl, rfl, .nil⟩
  | @cons tr x y z pos c cs b bs imgs _ _ _ h3 _ hctx hparts _ ih =>
    intro hF hv
    unfold blocksFrom at hF
    unfold ctxAfter isoBs
    rw [hctx] at hF ⊢
    obtain ⟨i1, i2, i3⟩ := ih (fun F hx => hF F (List.mem_append_right _ hx)) (fun hc m hm => hv hc m (by
      unfold mbsOf; rw [List.flatMap_cons]; exact List.mem_append_right _ hm))
    refine ⟨by simp [i1], i2, .cons ?_ i3⟩
    refine near_image hc hp ⟨fun h => (by cases h), fun p hp => ⟨ref', rfl, ?_⟩⟩ ?_ hparts
      (fun F hx => hF F (List.mem_append_left _ hx)) (fun hc m hm => hv hc m (by
        unfold mbsOf; rw [List.flatMap_cons]; exact List.mem_append_left _ hm))
    · cases hp; exact hr
    · exact ⟨by omega, fun _ => by omega, fun _ => by omega⟩

theorem NearRef.mono {c k k' : Nat} {P Q : Option Image} (h : NearRef c k P Q) (hk : k ≤ k') : NearRef c k' P Q :=
  ⟨h.1, fun p hp => by
    obtain ⟨q, hq, hn⟩ := h.2 p hp
    exact ⟨q, hq, fun x y => near_mono (hn x y) hk⟩⟩

theorem blocksFrom_append : ∀ (cs ds : List Coded) (σ : Option Ctx),
    blocksFrom σ (cs ++ ds) = blocksFrom σ cs ++ blocksFrom (ctxAfter σ cs) ds
  | [], ds, σ => rfl
  | c :: cs, ds, σ => by
    rw [List.cons_append, blocksFrom, blocksFrom, ctxAfter, blocksFrom_append cs ds, List.append_assoc]

/-- pictures with their bounds -/
inductive AllNear (comp : Nat) : List Nat → List Image → List Image → Prop
  | nil : AllNear comp [] [] []
  | cons {b : Nat} {P Q : Image} {bs : List Nat} {Ps Qs : List Image} : (∀ u v, near b (P comp u v) (Q comp u v)) →
      AllNear comp bs Ps Qs → AllNear comp (b :: bs) (P :: Ps) (Q :: Qs)

theorem AllNear.append {comp : Nat} {bs cs : List Nat} {Ps Qs Rs Ss : List Image} (h : AllNear comp bs Ps Qs)
    (g : AllNear comp cs Rs Ss) : AllNear comp (bs ++ cs) (Ps ++ Rs) (Qs ++ Ss) := by
  induction h with
  | nil => exact g
  | cons h _ ih => exact .cons h ih

theorem allNear_replicate {comp b : Nat} {Ps Qs : List Image}
    (h : List.Forall₂ (fun P Q => ∀ u v, near b (P comp u v) (Q comp u v)) Ps Qs) :
    AllNear comp (List.replicate Ps.length b) Ps Qs := by
  induction h with
  | nil => exact .nil
  | cons h _ ih => exact .cons h ih

theorem near_groups {W H comp : Nat} (hc : comp < 3) :
    ∀ {base : Nat} {σ : Option Ctx} {prev prev' : Option Image} {pos k : Nat} {gs : List CGroup} {bits : List Bool} {imgs : List Image},
      GroupsCode W H base σ prev pos gs bits imgs → NearRef comp k prev prev' →
      (∀ F ∈ blocksFrom σ (gs.flatMap CGroup.pics), Mild F) →
      (comp ≠ 0 → ∀ m ∈ mbsOf (gs.flatMap CGroup.pics), ∀ s t, Halves (m.vec s t)) →
      AllNear comp (bounds k gs) imgs (isoGroups σ prev' gs) := by
  intro base σ prev prev' pos k gs bits imgs h
  induction h generalizing prev' k with
  | nil => intro _ _ _; exact .nil
  | @cons base base0 σ prev pos g gs b bb more imgs rest y z _ hkind _ _ hctx hparts hbs _ ih =>
    intro hp hF hv
    unfold bounds isoGroups
    rw [hctx]
    have hF : ∀ F ∈ blocksFrom σ (g.ref :: (g.bs ++ gs.flatMap CGroup.pics)), Mild F := hF
    unfold blocksFrom at hF
    rw [hctx] at hF
    have hv : comp ≠ 0 → ∀ m ∈ g.ref.slices.flatMap (fun sl => sl.mbs) ++ mbsOf (g.bs ++ gs.flatMap CGroup.pics),
        ∀ s t, Halves (m.vec s t) := hv
    have hmb : mbsOf (g.bs ++ gs.flatMap CGroup.pics) = mbsOf g.bs ++ mbsOf (gs.flatMap CGroup.pics) := by
      unfold mbsOf; rw [List.flatMap_append]
    rw [hmb] at hv
    rw [blocksFrom_append] at hF
    have hR : ∀ u v, near (refBound k g.ref) (g.ref.image y ⟨prev, none⟩ comp u v) (g.ref.isoImage y ⟨prev', none⟩ comp u v) := by
      refine near_image (k := k) hc hp ⟨fun _ => rfl, fun p hp => by cases hp⟩ ?_ hparts
        (fun F hx => hF F (List.mem_append_left _ hx)) (fun hc m hm => hv hc m (List.mem_append_left _ hm))
      unfold refBound
      rcases hkind with h1 | h2
      · rw [if_pos h1, h1]; exact ⟨by omega, fun h => absurd rfl h, fun h => by omega⟩
      · rw [if_neg (by omega), h2]; exact ⟨by omega, fun _ => by omega, fun h => by omega⟩
    obtain ⟨i1, i2, i3⟩ := near_bs (k := max k (refBound k g.ref)) hc (hp.mono (by omega))
      (fun u v => near_mono (hR u v) (by omega)) hbs
      (fun F hx => hF F (List.mem_append_right _ (List.mem_append_left _ hx)))
      (fun hc m hm => hv hc m (List.mem_append_right _ (List.mem_append_left _ hm)))
    dsimp only
    refine AllNear.append ?_ (.cons hR ?_)
    · rw [← i1]; exact allNear_replicate i3
    · rw [i2]
      refine ih ⟨fun h => (by cases h), fun p hp => ⟨_, rfl, ?_⟩⟩ ?_ fun hc m hm =>
        hv hc m (List.mem_append_right _ (List.mem_append_right _ hm))
      · cases hp; exact hR
      · intro F hx
        refine hF F (List.mem_append_right _ (List.mem_append_right _ ?_))
        rw [i2]
        exact hx

theorem AllNear.get {comp : Nat} {bs : List Nat} {Ps Qs : List Image} (h : AllNear comp bs Ps Qs) :
    Ps.length = Qs.length ∧ bs.length = Qs.length ∧ ∀ i (h0 : i < bs.length) (h1 : i < Ps.length) (h2 : i < Qs.length),
      ∀ u v, near bs[i] (Ps[i] comp u v) (Qs[i] comp u v) := by
  induction h with
  | nil => exact ⟨rfl, rfl, fun i h => absurd h (Nat.not_lt_zero _)⟩
  | cons h _ ih =>
    refine ⟨by simp [ih.1], by simp [ih.2.1], fun i h0 h1 h2 => ?_⟩
    cases i with
    | zero => exact h
    | succ i =>
      simp only [List.getElem_cons_succ]
      exact ih.2.2 i (by simpa using h0) (by simpa using h1) (by simpa using h2)

end Mpeg.Video
