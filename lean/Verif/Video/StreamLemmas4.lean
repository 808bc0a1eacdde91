/-
Whole streams: the frames returned by `Next` show the pictures of the reference decoder in display order.
-/
import Verif.Video.StreamLemmas3
set_option linter.all false
namespace Mpeg.Video
open Spec

variable {stop : Err} {later : List (List Bool × Err)}

/-! ### frames -/

/-- The frames show the pictures, one by one. -/
inductive AllShow (W H : Nat) : List Frame → List Image → Prop
  | nil : AllShow W H [] []
  | cons {f : Frame} {P : Image} {fs : List Frame} {Ps : List Image} : Shows W H f P → AllShow W H fs Ps →
      AllShow W H (f :: fs) (P :: Ps)

theorem AllShow.append {W H : Nat} {a : List Frame} {b : List Image} (h : AllShow W H a b) {c : List Frame}
    {d : List Image} (h' : AllShow W H c d) : AllShow W H (a ++ c) (b ++ d) := by
  induction h with
  | nil => exact h'
  | cons h1 _ ih => exact .cons h1 ih

theorem AllShow.length {W H : Nat} {a : List Frame} {b : List Image} (h : AllShow W H a b) : a.length = b.length := by
  induction h with
  | nil => rfl
  | cons _ _ ih => simp only [List.length_cons, ih]

theorem AllShow.get {W H : Nat} {a : List Frame} {b : List Image} (h : AllShow W H a b) :
    ∀ i (h1 : i < a.length) (h2 : i < b.length), Shows W H a[i] b[i] := by
  induction h with
  | nil => intro i h; exact absurd h (Nat.not_lt_zero _)
  | cons hs _ ih =>
    intro i h1 h2
    cases i with
    | zero => exact hs
    | succ i => exact ih i (by simpa using h1) (by simpa using h2)

/-! ### one picture -/

theorem coded_starts {c : Coded} {y : Ctx} {r : RefPics} {W H pos : Nat} {b : List Bool}
    (h : Parts pos (c.parts y r W H) b) : ∃ n u, (n = 0 ∨ n = 0xB3 ∨ n = 0xB8) ∧ b = prefix1 ++ (bitsOf 8 n ++ u) := by
  have h' : Parts pos (seqParts c ++ gopParts c ++ picParts c y r W H) b := h
  unfold seqParts gopParts at h'
  cases hq : c.seq with
  | some q =>
    rw [hq] at h'
    obtain ⟨a, as, rfl, q1, _⟩ := parts_inv h'
    obtain ⟨r1, hr1⟩ := starts_seq q.hdr
    obtain ⟨u, hu⟩ := stuffed_starts (by decide) hr1 q1
    exact ⟨0xB3, u ++ as, .inr (.inl rfl), by rw [hu]; simp only [List.append_assoc]⟩
  | none =>
    rw [hq] at h'
    cases hg : c.gop with
    | some g =>
      rw [hg] at h'
      obtain ⟨a, as, rfl, q1, _⟩ := parts_inv h'
      obtain ⟨r1, hr1⟩ := starts_gop g.hdr
      obtain ⟨u, hu⟩ := stuffed_starts (by decide) hr1 q1
      exact ⟨0xB8, u ++ as, .inr (.inr rfl), by rw [hu]; simp only [List.append_assoc]⟩
    | none =>
      rw [hg] at h'
      obtain ⟨a, as, rfl, q1, _⟩ := parts_inv h'
      obtain ⟨r1, hr1⟩ := starts_pic c.hdr
      obtain ⟨u, hu⟩ := stuffed_starts (by decide) hr1 q1
      exact ⟨0, u ++ as, .inl rfl, by rw [hu]; simp only [List.append_assoc]⟩

/-- The bits begin with a start code that is not the start code of a slice. -/
def NoSlice (b : List Bool) : Prop :=
  ∃ n u, n < 256 ∧ ¬ (1 ≤ n ∧ n ≤ 0xAF) ∧ b = prefix1 ++ (bitsOf 8 n ++ u)

theorem coded_noSlice {c : Coded} {y : Ctx} {r : RefPics} {W H pos : Nat} {b : List Bool}
    (h : Parts pos (c.parts y r W H) b) (t : List Bool) : NoSlice (b ++ t) := by
  obtain ⟨n, u, h1, rfl⟩ := coded_starts h
  exact ⟨n, u ++ t, by omega, by omega, by simp only [List.append_assoc]⟩

theorem bs_noSlice {W H : Nat} {prev : Option Image} {ref : Image} {tr : Nat} {x z : Ctx} {pos : Nat} {cs : List Coded}
    {bits : List Bool} {imgs : List Image} (h : BsCode W H prev ref tr x pos cs bits imgs z) {t : List Bool}
    (ht : NoSlice t) : NoSlice (bits ++ t) := by
  cases h with
  | nil => exact ht
  | cons _ _ _ _ _ _ hp _ => rw [List.append_assoc]; exact coded_noSlice hp _

theorem groups_noSlice {W H base : Nat} {σ : Option Ctx} {prev : Option Image} {pos : Nat} {gs : List CGroup}
    {bits : List Bool} {imgs : List Image} (h : GroupsCode W H base σ prev pos gs bits imgs) {t : List Bool}
    (ht : NoSlice t) : NoSlice (bits ++ t) := by
  cases h with
  | nil => exact ht
  | cons _ _ _ _ _ hp _ _ => rw [List.append_assoc]; exact coded_noSlice hp _

/-- A decoded picture as an element of `Run`. -/
theorem pict_run {W H : Nat} {σ : Option Ctx} {y : Ctx} {c : Coded} (hok : c.OK W H) {s : VS}
    (hat : c.seq = none → AtO W H σ s) (hy : c.ctx σ = some y) {r : RefPics} {pos k n fuel : Nat} {bits rest : List Bool}
    (hk : s.sh ≠ none → k = 0)
    (hp : Parts pos (c.parts y r W H) bits) (ha : pos % 8 = 0) (hpos : 8 * k ≤ pos) (hf : bits.length + 1 ≤ fuel)
    (hn : n < 256) (hns : ¬ (1 ≤ n ∧ n ≤ 0xAF))
    (hr : RefsOK c.Forward W H c.hdr.kind.code ((s.fs.entered c.gop.isSome).set c.hdr.temporal) r)
    (hb : s.br = ⟨zeros (8 * k) ++ (bits ++ (prefix1 ++ (bitsOf 8 n ++ rest))), pos - 8 * k, stop, later⟩) :
    ∃ p s', Eff fuel p s s' ∧ (∀ ps t, Run fuel s' ps t → Run fuel s (p :: ps) t) ∧ p.newGop = c.gop.isSome ∧
      p.kind = c.hdr.kind.code ∧ p.tr = c.hdr.temporal ∧ At W H y s' ∧
      s'.br = ⟨prefix1 ++ (bitsOf 8 n ++ rest), pos + bits.length, stop, later⟩ ∧ (pos + bits.length) % 8 = 0 ∧
      Shows W H p.frame (c.image y r) := by
  obtain ⟨f, s1, s', e1, e2, e3, e4, e5, e6, e7, e8⟩ := picture_run hok hat hy hk hp ha hpos hf hn hns hr hb
  obtain ⟨k1, k2⟩ := viewPic_kind hok.hdr
  obtain ⟨p, hpp⟩ : ∃ p : Pict, p = ⟨c.gop.isSome, c.hdr.kind.code, c.hdr.temporal, f, s'.fs.past, s'.fs.future⟩ := ⟨_, rfl⟩
  have hrun : ∀ ps t, Run fuel s' ps t → Run fuel s (p :: ps) t := by
    intro ps t ht
    rw [hpp]
    exact .cons e1 e2 e3.symm e5 k1.symm k2.symm rfl rfl ht
  obtain ⟨s2, he, hr2⟩ := (hrun [] s' (.nil s')).inv
  have h2 : s2 = s' := by cases hr2; rfl
  subst h2
  exact ⟨p, s2, he, hrun, by rw [hpp], by rw [hpp], by rw [hpp], e4, e6, e7, by rw [hpp]; exact e8⟩

/-! ### B pictures -/

theorem RefsOK.mono {U V : Prop} {W H kind : Nat} {fs : FrameStore} {r : RefPics} (h : RefsOK U W H kind fs r)
    (hV : V → U) : RefsOK V W H kind fs r := ⟨fun h1 h2 => h.past h1 (hV h2), h.pastS, h.future⟩

/-- The reference pictures while B pictures are decoded; `U`: the past is used. -/
structure MidOK (U : Prop) (W H base top : Nat) (pf : Option Frame) (f : Frame) (prev : Option Image) (ref : Image)
    (fs : FrameStore) : Prop where
  mid : Mid fs base top pf f
  pic : U → ShowsOpt W H pf prev
  picS : Samples prev
  top : Shows W H f ref
  topS : Samples (some ref)
  first : U → pf = none → fs.past = none

theorem MidOK.refs {U : Prop} {W H base top tr : Nat} {pf : Option Frame} {f : Frame} {prev : Option Image} {ref : Image}
    {fs : FrameStore} (h : MidOK U W H base top pf f prev ref fs) (h1 : base ≤ tr) (h2 : tr < top) (kind : Nat) :
    RefsOK U W H kind (fs.set tr) ⟨prev, some ref⟩ ∧ MidOK U W H base top pf f prev ref (fs.set tr) := by
  obtain ⟨r1, r2⟩ := h.mid.refs h1 h2
  have hpast : U → (fs.set tr).past = pf := by
    intro hU
    cases hpf : pf with
    | some g => rw [← hpf]; exact r1 (by rw [hpf]; simp)
    | none =>
      have hf0 : fs.f0 = none := by
        have := h.mid.prev
        rw [hpf] at this
        exact Option.map_eq_none_iff.1 this
      have hn : ¬((false : Bool) = true ∨ top < tr) := by rintro (k | k); cases k; omega
      unfold FrameStore.set
      rw [hf0, h.mid.f1]
      show (fs.setOne (some ⟨f, top, false⟩) tr).past = none
      unfold FrameStore.setOne
      dsimp only
      rw [if_neg hn]
      exact h.first hU hpf
  refine ⟨⟨fun _ hU => by rw [hpast hU]; exact h.pic hU, h.picS, fun _ => ⟨?_, h.topS⟩⟩, ?_⟩
  · rw [r2]; exact .inr ⟨f, ref, rfl, rfl, h.top⟩
  · exact ⟨h.mid.set, h.pic, h.picS, h.top, h.topS, fun hU hp => by rw [hpast hU, hp]⟩

theorem bs_run {U : Prop} {W H base top : Nat} {pf : Option Frame} {f : Frame} {prev : Option Image} {ref : Image} {n fuel : Nat}
    {rest : List Bool} (hn : n < 256) (hns : ¬ (1 ≤ n ∧ n ≤ 0xAF)) {tr : Nat} {x z : Ctx} {pos : Nat} {cs : List Coded}
    {bits : List Bool} {imgs : List Image} (h : BsCode W H prev ref tr x pos cs bits imgs z) :
    (∀ c ∈ cs, c.Forward → U) → ∀ {s : VS}, At W H x s → MidOK U W H base top pf f prev ref s.fs → base ≤ tr → tr + cs.length ≤ top → pos % 8 = 0 →
      bits.length + 1 ≤ fuel → s.br = ⟨bits ++ (prefix1 ++ (bitsOf 8 n ++ rest)), pos, stop, later⟩ →
      ∃ ps s', Run fuel s ps s' ∧ ps.length = cs.length ∧ (∀ p ∈ ps, p.kind = 3 ∧ p.newGop = false) ∧
        (∀ i (hi : i < ps.length), ps[i].tr = tr + i) ∧ AllShow W H (ps.map (·.frame)) imgs ∧ At W H z s' ∧
        MidOK U W H base top pf f prev ref s'.fs ∧
        s'.br = ⟨prefix1 ++ (bitsOf 8 n ++ rest), pos + bits.length, stop, later⟩ ∧ (pos + bits.length) % 8 = 0 := by
  induction h with
  | nil =>
    intro _ s hat hm _ _ ha _ hb
    exact ⟨[], s, .nil s, rfl, fun p hp => (by cases hp), fun i hi => absurd hi (Nat.not_lt_zero _), .nil, hat, hm, hb,
      by simpa using ha⟩
  | @cons tr x y z pos c cs b bs imgs hok hseq hgop hkind htr hctx hparts hmore ih =>
    intro hU s hat hm hbase hl ha hf hb
    simp only [List.length_cons] at hl
    simp only [List.length_append] at hf
    obtain ⟨n', u, hn', hns', hu⟩ := bs_noSlice hmore (t := prefix1 ++ (bitsOf 8 n ++ rest)) ⟨n, rest, hn, hns, rfl⟩
    obtain ⟨r1, r2⟩ := hm.refs hbase (show tr < top by omega) c.hdr.kind.code
    have hfs0 : (s.fs.entered c.gop.isSome).set c.hdr.temporal = s.fs.set tr := by rw [hgop, htr]; rfl
    obtain ⟨p, s', he, hrun, p1, p2, p3, hat', hbr', hal', hsh⟩ := pict_run (stop := stop) (later := later) (σ := some x)
      (k := 0) hok (fun _ => hat) hctx (fun _ => rfl) hparts ha (by omega) (fuel := fuel) (by omega) hn' hns' (by rw [hfs0]; exact r1.mono (hU c List.mem_cons_self))
      (rest := u) (by rw [hb, ← hu]; simp only [List.append_assoc]; rfl)
    have hfs : s'.fs = s.fs.set tr := by
      have := he.fs
      rw [p1, p2, p3, hkind, if_neg (by omega), hfs0] at this
      exact this
    obtain ⟨ps, t, q1, q2, q3, q4, q5, q6, q7, q8, q9⟩ := ih (fun c hc => hU c (List.mem_cons_of_mem _ hc)) (s := s') hat' (by rw [hfs]; exact r2) (by omega) (by omega)
      hal' (by omega) (by rw [hbr', ← hu])
    refine ⟨p :: ps, t, hrun _ _ q1, by simp only [List.length_cons, q2], ?_, ?_, .cons hsh q5, q6, q7, ?_, ?_⟩
    · intro p' hp'
      rcases List.mem_cons.1 hp' with rfl | hp'
      · exact ⟨p2.trans hkind, by rw [p1, hgop]; rfl⟩
      · exact q3 p' hp'
    · intro i hi
      cases i with
      | zero => exact p3.trans htr
      | succ i =>
        have hi' : i < ps.length := by simpa using hi
        have := q4 i hi'
        show ps[i].tr = _
        omega
    · rw [q8, List.length_append, Nat.add_assoc]
    · rw [List.length_append, ← Nat.add_assoc]; exact q9

/-! ### groups -/

/-- The decoder between groups. -/
structure Between (W H : Nat) (base : Nat) (σ : Option Ctx) (prev : Option Image) (pf : Option Frame) (s : VS) : Prop where
  ctx : AtO W H σ s
  ready : Ready s.fs base pf
  counter : s.frameCounter = base
  pic : ShowsOpt W H pf prev
  picS : Samples prev
  first : pf = none → s.fs.past = none ∧ s.fs.f0 = none

theorem ready_refs {U : Prop} {W H base : Nat} {fs : FrameStore} {prev : Option Image} {pf : Option Frame}
    (hd : Ready fs base pf) (hp : U → ShowsOpt W H pf prev) (hs : Samples prev)
    (h0 : U → pf = none → fs.past = none ∧ fs.f0 = none) {tr kind : Nat} (hb : base ≤ tr) (hk : kind ≠ 3)
    (hU : kind ≠ 1 → U) (V : Prop) :
    RefsOK V W H kind (fs.set tr) ⟨prev, none⟩ ∧ (U → pf = none → (fs.set tr).past = none) := by
  have hpast : U → (fs.set tr).past = pf := by
    intro hU
    cases hpf : pf with
    | some g => rw [← hpf]; exact hd.past hb (by rw [hpf]; simp)
    | none =>
      obtain ⟨a, b⟩ := h0 hU hpf
      have hf1 : fs.f1 = none := by
        have := hd.prev
        rw [hpf] at this
        exact Option.map_eq_none_iff.1 this
      unfold FrameStore.set
      rw [b, hf1]
      exact a
  exact ⟨⟨fun h _ => by rw [hpast (hU h)]; exact hp (hU h), hs, fun h => absurd h hk⟩, fun hU h => by rw [hpast hU, h]⟩

/-- A reference picture and the B pictures displayed before it.  `U`: the picture `prev` before is used. -/
theorem group_at {U : Prop} {W H fuel k base0 pos n lead : Nat} {σ : Option Ctx} {prev : Option Image} {g : CGroup}
    {b bb rest : List Bool} {imgs : List Image} {y z : Ctx} {s : VS} {pf : Option Frame} (hk2 : 2 ≤ k)
    (hn : n < 256) (hns : ¬ (1 ≤ n ∧ n ≤ 0xAF)) (hok : g.ref.OK W H)
    (hkind : g.ref.hdr.kind.code = 1 ∨ g.ref.hdr.kind.code = 2) (htr : g.ref.hdr.temporal = base0 + g.bs.length)
    (hctx : g.ref.ctx σ = some y) (hparts : Parts pos (g.ref.parts y ⟨prev, none⟩ W H) b)
    (hbs : BsCode W H prev (g.ref.image y ⟨prev, none⟩) base0 y (pos + b.length) g.bs bb imgs z)
    (hat : g.ref.seq = none → AtO W H σ s) (hw : s.fs.tryGet s.frameCounter = none)
    (hd : Ready (s.fs.entered g.ref.gop.isSome) base0 pf)
    (hc : if g.ref.gop.isSome then base0 = 0 else s.frameCounter = base0)
    (hpic : U → ShowsOpt W H pf prev) (hpS : Samples prev)
    (h0 : U → pf = none → (s.fs.entered g.ref.gop.isSome).past = none ∧ (s.fs.entered g.ref.gop.isSome).f0 = none)
    (hU : g.ref.hdr.kind.code ≠ 1 → U) (hbU : ∀ c ∈ g.bs, c.Forward → U)
    (hlead : s.sh ≠ none → lead = 0) (ha : pos % 8 = 0) (hlp : 8 * lead ≤ pos) (hf : b.length + bb.length + 1 ≤ fuel)
    (hb : s.br = ⟨zeros (8 * lead) ++ (b ++ (bb ++ (prefix1 ++ (bitsOf 8 n ++ rest)))), pos - 8 * lead, stop, later⟩) :
    ∃ frames f t, nexts fuel k (imgs.length + 1) s = (.ok frames, t) ∧
      AllShow W H frames (imgs ++ [g.ref.image y ⟨prev, none⟩]) ∧
      Between W H (base0 + g.bs.length + 1) (some z) (some (g.ref.image y ⟨prev, none⟩)) (some f) t ∧
      t.br = ⟨prefix1 ++ (bitsOf 8 n ++ rest), pos + b.length + bb.length, stop, later⟩ ∧
      (pos + b.length + bb.length) % 8 = 0 := by
  obtain ⟨m2, u2, hm2, hms2, hu2⟩ := bs_noSlice hbs (t := prefix1 ++ (bitsOf 8 n ++ rest)) ⟨n, rest, hn, hns, rfl⟩
  have hlt : base0 + g.bs.length < 1024 := by rw [← htr]; exact hok.hdr.1
  obtain ⟨r1, r2⟩ := ready_refs hd hpic hpS h0 (tr := g.ref.hdr.temporal)
    (kind := g.ref.hdr.kind.code) (by omega) (by omega) hU g.ref.Forward
  obtain ⟨p, s1, he, hrun, p1, p2, p3, hat1, hbr1, hal1, hsh1⟩ := pict_run (stop := stop) (later := later) hok hat hctx
    hlead hparts ha hlp (fuel := fuel) (by omega) hm2 hms2 r1 (rest := u2) (by rw [hb, ← hu2])
  have hS : Samples (some (g.ref.image y ⟨prev, none⟩)) := by
    intro Q hQ
    cases hQ
    exact slices_samples hpS (fun Q hQ => by cases hQ) (fun _ _ _ => Nat.zero_le _)
  have hfs1 : s1.fs = ((s.fs.entered g.ref.gop.isSome).set g.ref.hdr.temporal).add p.frame g.ref.hdr.temporal := by
    have := he.fs
    rw [p1, p2, p3, if_pos hkind] at this
    exact this
  have hmid : MidOK U W H base0 (base0 + g.bs.length) pf p.frame prev (g.ref.image y ⟨prev, none⟩) s1.fs := by
    rw [hfs1, ← htr]
    exact ⟨hd.set.mid _ _, hpic, hpS, hsh1, hS, r2⟩
  obtain ⟨ps, s2, q1, q2, q3, q4, q5, q6, q7, q8, q9⟩ := bs_run (stop := stop) (later := later) hn hns (rest := rest)
    (fuel := fuel) hbs hbU hat1 hmid (Nat.le_refl _) (Nat.le_refl _) hal1 (by omega) (by rw [hbr1, ← hu2])
  -- calls of `Next`
  have hrunG : Run fuel s (Group.coded ⟨p, ps⟩) s2 := hrun _ _ q1
  have hlegal : Group.Legal ⟨p, ps⟩ base0 := by
    refine ⟨by rw [p2]; exact hkind, ?_, q3, fun i hi => ?_⟩
    · show p.tr = (base0 + ps.length) % 1024
      rw [q2, Nat.mod_eq_of_lt hlt, p3, htr]
    · have hi' : i < ps.length := hi
      show ps[i].tr = _
      rw [q4 i hi', Nat.mod_eq_of_lt (by omega)]
  obtain ⟨t, n1, n2, n3, n4⟩ := group_next_at (k := k) hk2 hrunG hlegal (by show base0 + ps.length < 1024; omega)
    hw (by rw [p1]; exact hd) (by rw [p1]; exact hc)
  have n3' : t.frameCounter = base0 + g.bs.length + 1 := by rw [← q2]; exact n3
  have n4' : Ready t.fs (base0 + g.bs.length + 1) (some p.frame) := by rw [← q2]; exact n4
  have ht : t.br = s2.br ∧ t.fs = s2.fs ∧ At W H z t := by
    obtain ⟨cc, rfl⟩ := n2
    exact ⟨rfl, rfl, at_lift q6 rfl rfl rfl⟩
  have hdl : (Group.display ⟨p, ps⟩).length = imgs.length + 1 := by
    have := q5.length
    rw [List.length_map] at this
    simp [Group.display, this]
  have hdm : (Group.display ⟨p, ps⟩).map (·.frame) = ps.map (·.frame) ++ [p.frame] := by simp [Group.display]
  rw [hdl, hdm] at n1
  exact ⟨_, p.frame, t, n1, q5.append (.cons hsh1 .nil),
    ⟨ht.2.2, n4', n3', .inr ⟨_, _, rfl, rfl, hsh1⟩, hS, fun h => (by cases h)⟩, by rw [ht.1, q8], q9⟩

theorem groups_next {W H n fuel k : Nat} {rest : List Bool} (hk2 : 2 ≤ k) (hn : n < 256) (hns : ¬ (1 ≤ n ∧ n ≤ 0xAF))
    {base : Nat} {σ : Option Ctx} {prev : Option Image} {pos : Nat} {gs : List CGroup} {bits : List Bool}
    {imgs : List Image} (h : GroupsCode W H base σ prev pos gs bits imgs) :
    ∀ {s : VS} {pf : Option Frame} {lead : Nat}, Between W H base σ prev pf s → (σ ≠ none → lead = 0) → pos % 8 = 0 →
      8 * lead ≤ pos → bits.length + 1 ≤ fuel →
      s.br = ⟨zeros (8 * lead) ++ (bits ++ (prefix1 ++ (bitsOf 8 n ++ rest))), pos - 8 * lead, stop, later⟩ →
      ∃ frames t, nexts fuel k imgs.length s = (.ok frames, t) ∧ AllShow W H frames imgs ∧
        (gs ≠ [] → ∃ base' z pf' P, Between W H base' (some z) P pf' t ∧
          t.br = ⟨prefix1 ++ (bitsOf 8 n ++ rest), pos + bits.length, stop, later⟩ ∧ (pos + bits.length) % 8 = 0) := by
  induction h with
  | nil =>
    intro s pf lead hB _ _ _ _ hb
    exact ⟨[], s, rfl, .nil, fun h => absurd rfl h⟩
  | @cons base base0 σ prev pos g gs b bb more imgs rest' y z hok hkind hbase0 htr hctx hparts hbs hgs ih =>
    intro s pf lead hB hlead ha hlp hf hb
    simp only [List.length_append] at hf
    have hno := groups_noSlice hgs (t := prefix1 ++ (bitsOf 8 n ++ rest)) ⟨n, rest, hn, hns, rfl⟩
    obtain ⟨m1, u1, hm1, hms1, hu1⟩ := hno
    have hd : Ready (s.fs.entered g.ref.gop.isSome) base0 pf := by
      rw [hbase0]
      cases hg : g.ref.gop.isSome with
      | true => exact hB.ready.enter
      | false => exact hB.ready
    have h0 : pf = none → (s.fs.entered g.ref.gop.isSome).past = none ∧ (s.fs.entered g.ref.gop.isSome).f0 = none := by
      intro hp
      obtain ⟨a, b⟩ := hB.first hp
      unfold FrameStore.entered
      split
      · exact ⟨a, by unfold FrameStore.markGOP; rw [b]; rfl⟩
      · exact ⟨a, b⟩
    obtain ⟨fr, f, t, n1, q5, hB', n3, q9⟩ := group_at (U := True) (stop := stop) (later := later) (fuel := fuel) (k := k)
      (rest := u1) hk2 hm1 hms1 hok hkind htr hctx hparts hbs
      (fun _ => hB.ctx) (by rw [hB.counter]; exact hB.ready.tryGet) hd (by
        rw [hbase0, hB.counter]
        cases g.ref.gop.isSome <;> simp) (fun _ => hB.pic) hB.picS (fun _ => h0) (fun _ => trivial) (fun _ _ _ => trivial)
      (fun h => hlead fun hσ => h (by have := hB.ctx; rw [hσ] at this; exact this)) ha hlp (by omega)
      (by rw [hb, ← hu1]; simp only [List.append_assoc])
    have hbrt : t.br = ⟨more ++ (prefix1 ++ (bitsOf 8 n ++ rest)), pos + b.length + bb.length, stop, later⟩ := by
      rw [n3, hu1]
    obtain ⟨frames, t', k1, k2, k3⟩ := ih (lead := 0) hB' (fun _ => rfl) q9 (by omega) (by omega) (by rw [hbrt]; rfl)
    refine ⟨fr ++ frames, t', ?_, ?_, fun _ => ?_⟩
    · have := nexts_append n1 k1
      rw [show (imgs ++ g.ref.image y ⟨prev, none⟩ :: rest').length = imgs.length + 1 + rest'.length by
        simp only [List.length_append, List.length_cons]; omega]
      exact this
    · have := q5.append k2
      rw [List.append_assoc] at this
      exact this
    · have hlen : pos + (b ++ (bb ++ more)).length = pos + b.length + bb.length + more.length := by
        simp only [List.length_append]; omega
      rw [hlen]
      by_cases hg : gs = []
      · subst hg
        cases hgs
        cases k1
        exact ⟨_, _, _, _, hB', by rw [hbrt]; rfl, by simpa using q9⟩
      · exact k3 hg

end Mpeg.Video
