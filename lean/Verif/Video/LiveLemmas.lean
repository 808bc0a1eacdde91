/-
Streams that have come in part.
-/
import Verif.Video.LiveSpec
import Verif.Video.StreamLemmas4
set_option linter.all false
namespace Mpeg.Video
open Spec
variable {stop : Err} {later : List (List Bool × Err)}

/-- B pictures before the reference picture `f`, which is not displayed yet. -/
theorem bs_next_part {fuel k base top : Nat} {prev : Option Frame} {f : Frame} (hk : 1 ≤ k) (htop : top < 1024) :
    ∀ {bs : List Pict} {i : Nat} {s s' : VS}, Run fuel s bs s' → Mid s.fs base top prev f → s.frameCounter = base + i →
    base + i + bs.length ≤ top → (∀ b ∈ bs, b.kind = 3 ∧ b.newGop = false) →
    (∀ j (h : j < bs.length), bs[j].tr = base + i + j) →
    ∃ t, nexts fuel k bs.length s = (.ok (bs.map (·.frame)), t) ∧ Eqv s' t ∧ t.frameCounter = base + i + bs.length
  | [], i, s, s', h, hm, hc, hl, _, _ => by
    cases h
    exact ⟨s, rfl, .refl s, hc⟩
  | b :: bs, i, s, s', h, hm, hc, hl, hb, ht => by
    obtain ⟨m, he, hr⟩ := h.inv
    obtain ⟨b1, b2⟩ := hb b (List.mem_cons_self ..)
    have hlen : (b :: bs).length = bs.length + 1 := rfl
    rw [hlen] at hl
    have htr : b.tr = base + i := ht 0 (by simp)
    have hfs : m.fs = s.fs.set b.tr := by
      have := he.fs
      rw [b1, b2, if_neg (by omega)] at this
      exact this
    have hmc : m.frameCounter = base + i := by
      have := he.counter
      rw [b2] at this
      exact this.trans hc
    have h1 : VS.next fuel k s = (.ok b.frame, m.count) := by
      rw [next_loop (by rw [hc]; exact hm.tryGet_none (by omega) (by omega))]
      exact loop_hit he (by rw [htr, hmc]) hk
    obtain ⟨u, r1, r2⟩ := eqv_run hr
    have hm' : Mid m.count.fs base top prev f := by
      show Mid m.fs base top prev f
      rw [hfs]; exact hm.set
    obtain ⟨t, n1, n2, n3⟩ := bs_next_part hk htop (i := i + 1) r1 hm' (by rw [count_small (by omega)]; omega) (by omega)
      (fun b' h' => hb b' (List.mem_cons_of_mem _ h')) (fun j hj => by
        have := ht (j + 1) (by rw [hlen]; omega)
        have e : (b :: bs)[j + 1]'(by rw [hlen]; omega) = bs[j] := rfl
        rw [e] at this
        omega)
    refine ⟨t, ?_, r2.trans n2, by rw [n3, hlen]; omega⟩
    rw [hlen, Nat.add_comm bs.length 1]
    exact nexts_append (l := [b.frame]) (nexts_one h1) n1

/-- A reference picture and the first of the B pictures that are displayed before it. -/
theorem part_next_at {fuel k base top : Nat} {prev : Option Frame} {p : Pict} {ps : List Pict} {s s' : VS} (hk : 2 ≤ k)
    (hr : Run fuel s (p :: ps) s') (hkind : p.kind = 1 ∨ p.kind = 2) (htop : p.tr = top) (hlt : top < 1024)
    (hle : base + ps.length ≤ top) (hps : ∀ b ∈ ps, b.kind = 3 ∧ b.newGop = false)
    (htr : ∀ j (h : j < ps.length), ps[j].tr = base + j)
    (hw : s.fs.tryGet s.frameCounter = none) (hd' : Ready (s.fs.entered p.newGop) base prev)
    (hc : if p.newGop then base = 0 else s.frameCounter = base) :
    ∃ t, nexts fuel k ps.length s = (.ok (ps.map (·.frame)), t) ∧
      (ps ≠ [] → Eqv s' t ∧ t.frameCounter = base + ps.length) := by
  cases ps with
  | nil => exact ⟨s, rfl, fun h => absurd rfl h⟩
  | cons b bs =>
    obtain ⟨m, he, hr⟩ := Run.inv hr
    have hmc : m.frameCounter = base := by
      have := he.counter
      cases hn : p.newGop with
      | true => rw [hn] at hc this; exact this.trans (show base = 0 from hc).symm
      | false => rw [hn] at hc this; exact this.trans hc
    have hfs : m.fs = ((s.fs.entered p.newGop).set p.tr).add p.frame p.tr := by
      have := he.fs
      rw [if_pos hkind] at this
      exact this
    have hm : Mid m.fs base top prev p.frame := by
      rw [hfs, htop]; exact hd'.set.mid _ _
    have hn0 : VS.next fuel k s = nextLoop fuel k s := next_loop hw
    have hlen : (b :: bs).length = bs.length + 1 := rfl
    rw [hlen] at hle
    obtain ⟨m2, he2, hr2⟩ := hr.inv
    obtain ⟨b1, b2⟩ := hps b (List.mem_cons_self ..)
    have htr0 : b.tr = base := htr 0 (by simp)
    have hfs2 : m2.fs = m.fs.set b.tr := by
      have := he2.fs
      rw [b1, b2, if_neg (by omega)] at this
      exact this
    have hmc2 : m2.frameCounter = base := by
      have := he2.counter
      rw [b2] at this
      exact this.trans hmc
    obtain ⟨j, rfl⟩ : ∃ j, k = j + 1 := ⟨k - 1, by omega⟩
    have h1 : VS.next fuel (j + 1) s = (.ok b.frame, m2.count) := by
      rw [hn0, loop_miss he (by rw [htop, hmc]; omega)]
      exact loop_hit he2 (by rw [htr0, hmc2]) (by omega)
    obtain ⟨u, r1, r2⟩ := eqv_run hr2
    have hm2 : Mid m2.count.fs base top prev p.frame := by
      show Mid m2.fs _ _ _ _
      rw [hfs2]; exact hm.set
    obtain ⟨t, n1, n2, n3⟩ := bs_next_part (k := j + 1) (by omega) hlt (i := 1) r1 hm2
      (by rw [count_small (by omega)]; omega) (by omega)
      (fun b' h' => hps b' (List.mem_cons_of_mem _ h')) (fun j hj => by
        have := htr (j + 1) (by rw [hlen]; omega)
        have e : (b :: bs)[j + 1]'(by rw [hlen]; omega) = bs[j] := rfl
        rw [e] at this
        omega)
    refine ⟨t, ?_, fun _ => ⟨r2.trans n2, by rw [n3, hlen]; omega⟩⟩
    rw [hlen, Nat.add_comm bs.length 1]
    exact nexts_append (l := [b.frame]) (nexts_one h1) n1

theorem part_at {W H fuel k base0 pos n lead : Nat} {σ : Option Ctx} {prev : Option Image} {g : CGroup}
    {b bb rest : List Bool} {imgs : List Image} {y z : Ctx} {s : VS} {pf : Option Frame} (hk2 : 2 ≤ k)
    (hn : n < 256) (hns : ¬ (1 ≤ n ∧ n ≤ 0xAF)) (hok : g.ref.OK W H)
    (hkind : g.ref.hdr.kind.code = 1 ∨ g.ref.hdr.kind.code = 2) (htr : base0 + g.bs.length ≤ g.ref.hdr.temporal)
    (hctx : g.ref.ctx σ = some y) (hparts : Parts pos (g.ref.parts y ⟨prev, none⟩ W H) b)
    (hbs : BsCode W H prev (g.ref.image y ⟨prev, none⟩) base0 y (pos + b.length) g.bs bb imgs z)
    (hat : g.ref.seq = none → AtO W H σ s) (hw : s.fs.tryGet s.frameCounter = none)
    (hd : Ready (s.fs.entered g.ref.gop.isSome) base0 pf)
    (hc : if g.ref.gop.isSome then base0 = 0 else s.frameCounter = base0)
    (hpic : ShowsOpt W H pf prev) (hpS : Samples prev)
    (h0 : pf = none → (s.fs.entered g.ref.gop.isSome).past = none ∧ (s.fs.entered g.ref.gop.isSome).f0 = none)
    (hlead : s.sh ≠ none → lead = 0) (ha : pos % 8 = 0) (hlp : 8 * lead ≤ pos) (hf : b.length + bb.length + 1 ≤ fuel)
    (hb : s.br = ⟨zeros (8 * lead) ++ (b ++ (bb ++ (prefix1 ++ (bitsOf 8 n ++ rest)))), pos - 8 * lead, stop, later⟩) :
    ∃ frames t, nexts fuel k imgs.length s = (.ok frames, t) ∧ AllShow W H frames imgs ∧
      (g.bs ≠ [] → t.br = ⟨prefix1 ++ (bitsOf 8 n ++ rest), pos + b.length + bb.length, stop, later⟩) := by
  obtain ⟨m2, u2, hm2, hms2, hu2⟩ := bs_noSlice hbs (t := prefix1 ++ (bitsOf 8 n ++ rest)) ⟨n, rest, hn, hns, rfl⟩
  have hlt : g.ref.hdr.temporal < 1024 := hok.hdr.1
  obtain ⟨r1, r2⟩ := ready_refs (U := True) hd (fun _ => hpic) hpS (fun _ => h0) (tr := g.ref.hdr.temporal)
    (kind := g.ref.hdr.kind.code) (by omega) (by omega) (fun _ => trivial) g.ref.Forward
  obtain ⟨p, s1, he, hrun, p1, p2, p3, hat1, hbr1, hal1, hsh1⟩ := pict_run (stop := stop) (later := later) hok hat hctx
    hlead hparts ha hlp (fuel := fuel) (by omega) hm2 hms2 r1 (rest := u2) (by rw [hb, ← hu2])
  have hS : Samples (some (g.ref.image y ⟨prev, none⟩)) := by
    intro Q hQ
    cases hQ
    exact slices_samples hpS (fun Q hQ => by cases hQ) (fun _ _ _ => Nat.zero_le _)
  have hfs1 : s1.fs = ((s.fs.entered g.ref.gop.isSome).set g.ref.hdr.temporal).add p.frame g.ref.hdr.temporal := by
    have := he.fs
    rw [p1, p2, p3, if_pos hkind] at this
    exact this
  have hmid : MidOK True W H base0 g.ref.hdr.temporal pf p.frame prev (g.ref.image y ⟨prev, none⟩) s1.fs := by
    rw [hfs1]
    exact ⟨hd.set.mid _ _, fun _ => hpic, hpS, hsh1, hS, r2⟩
  obtain ⟨ps, s2, q1, q2, q3, q4, q5, q6, q7, q8, q9⟩ := bs_run (stop := stop) (later := later) hn hns (rest := rest)
    (fuel := fuel) hbs (fun _ _ _ => trivial) hat1 hmid (Nat.le_refl _) htr hal1 (by omega) (by rw [hbr1, ← hu2])
  have hrunG : Run fuel s (p :: ps) s2 := hrun _ _ q1
  obtain ⟨t, n1, n2⟩ := part_next_at (k := k) (base := base0) (top := g.ref.hdr.temporal) (prev := pf) hk2 hrunG
    (by rw [p2]; exact hkind) p3 hlt (by rw [q2]; exact htr) q3 q4 hw (by rw [p1]; exact hd) (by rw [p1]; exact hc)
  have hl : ps.length = imgs.length := by
    have := q5.length
    rw [List.length_map] at this
    exact this
  rw [hl] at n1
  refine ⟨_, t, n1, q5, fun hne => ?_⟩
  obtain ⟨⟨cc, rfl⟩, _⟩ := n2 (by rintro rfl; exact hne (List.length_eq_zero_iff.mp q2.symm))
  exact q8

theorem begun_noSlice {W H base : Nat} {σ : Option Ctx} {prev : Option Image} {pos c : Nat}
    {bits : List Bool} {imgs : List Image} (h : Begun W H base σ prev pos c bits imgs) {t : List Bool}
    (ht : NoSlice t) : NoSlice (bits ++ t) := by
  cases h with
  | nil => exact ht
  | part _ _ _ _ _ hp _ => rw [List.append_assoc]; exact coded_noSlice hp _
  | cons _ _ _ _ _ hp _ _ => rw [List.append_assoc]; exact coded_noSlice hp _

theorem begun_next {W H n fuel k : Nat} {rest : List Bool} (hk2 : 2 ≤ k) (hn : n < 256) (hns : ¬ (1 ≤ n ∧ n ≤ 0xAF))
    {base : Nat} {σ : Option Ctx} {prev : Option Image} {pos c : Nat} {bits : List Bool}
    {imgs : List Image} (h : Begun W H base σ prev pos c bits imgs) :
    ∀ {s : VS} {pf : Option Frame} {lead : Nat}, Between W H base σ prev pf s → (σ ≠ none → lead = 0) → pos % 8 = 0 →
      8 * lead ≤ pos → bits.length + 1 ≤ fuel →
      s.br = ⟨zeros (8 * lead) ++ (bits ++ (prefix1 ++ (bitsOf 8 n ++ rest))), pos - 8 * lead, stop, later⟩ →
      ∃ frames t, nexts fuel k imgs.length s = (.ok frames, t) ∧ AllShow W H frames imgs := by
  induction h with
  | nil =>
    intro s pf lead hB _ _ _ _ hb
    exact ⟨[], s, rfl, .nil⟩
  | @part base base0 σ prev pos g b bb imgs y z hok hkind hbase0 htr hctx hparts hbs =>
    intro s pf lead hB hlead ha hlp hf hb
    simp only [List.length_append] at hf
    have hd : Ready (s.fs.entered g.ref.gop.isSome) base0 pf := by
      rw [hbase0]
      cases hg : g.ref.gop.isSome with
      | true => exact hB.ready.enter
      | false => exact hB.ready
    have h0 : pf = none → (s.fs.entered g.ref.gop.isSome).past = none ∧ (s.fs.entered g.ref.gop.isSome).f0 = none := by
      intro hp
      obtain ⟨a, b⟩ := hB.first hp
      unfold FrameStore.entered
      split
      · exact ⟨a, by unfold FrameStore.markGOP; rw [b]; rfl⟩
      · exact ⟨a, b⟩
    obtain ⟨fr, t, n1, q5, _⟩ := part_at (stop := stop) (later := later) (fuel := fuel) (k := k)
      (rest := rest) hk2 hn hns hok hkind (Nat.le_of_lt htr) hctx hparts hbs
      (fun _ => hB.ctx) (by rw [hB.counter]; exact hB.ready.tryGet) hd (by
        rw [hbase0, hB.counter]
        cases g.ref.gop.isSome <;> simp) hB.pic hB.picS h0
      (fun h => hlead fun hσ => h (by have := hB.ctx; rw [hσ] at this; exact this)) ha hlp (by omega)
      (by rw [hb]; simp only [List.append_assoc])
    exact ⟨fr, t, n1, q5⟩
  | @cons base base0 σ prev pos c g b bb more imgs rest' y z hok hkind hbase0 htr hctx hparts hbs hgs ih =>
    intro s pf lead hB hlead ha hlp hf hb
    simp only [List.length_append] at hf
    have hno := begun_noSlice hgs (t := prefix1 ++ (bitsOf 8 n ++ rest)) ⟨n, rest, hn, hns, rfl⟩
    obtain ⟨m1, u1, hm1, hms1, hu1⟩ := hno
    have hd : Ready (s.fs.entered g.ref.gop.isSome) base0 pf := by
      rw [hbase0]
      cases hg : g.ref.gop.isSome with
      | true => exact hB.ready.enter
      | false => exact hB.ready
    have h0 : pf = none → (s.fs.entered g.ref.gop.isSome).past = none ∧ (s.fs.entered g.ref.gop.isSome).f0 = none := by
      intro hp
      obtain ⟨a, b⟩ := hB.first hp
      unfold FrameStore.entered
      split
      · exact ⟨a, by unfold FrameStore.markGOP; rw [b]; rfl⟩
      · exact ⟨a, b⟩
    obtain ⟨fr, f, t, n1, q5, hB', n3, q9⟩ := group_at (U := True) (stop := stop) (later := later) (fuel := fuel) (k := k)
      (rest := u1) hk2 hm1 hms1 hok hkind htr hctx hparts hbs
      (fun _ => hB.ctx) (by rw [hB.counter]; exact hB.ready.tryGet) hd (by
        rw [hbase0, hB.counter]
        cases g.ref.gop.isSome <;> simp) (fun _ => hB.pic) hB.picS (fun _ => h0) (fun _ => trivial) (fun _ _ _ => trivial)
      (fun h => hlead fun hσ => h (by have := hB.ctx; rw [hσ] at this; exact this)) ha hlp (by omega)
      (by rw [hb, ← hu1]; simp only [List.append_assoc])
    have hbrt : t.br = ⟨more ++ (prefix1 ++ (bitsOf 8 n ++ rest)), pos + b.length + bb.length, stop, later⟩ := by
      rw [n3, hu1]
    obtain ⟨frames, t', k1, k2⟩ := ih (lead := 0) hB' (fun _ => rfl) q9 (by omega) (by omega) (by rw [hbrt]; rfl)
    refine ⟨fr ++ frames, t', ?_, ?_⟩
    · have := nexts_append n1 k1
      rw [show (imgs ++ g.ref.image y ⟨prev, none⟩ :: rest').length = imgs.length + 1 + rest'.length by
        simp only [List.length_append, List.length_cons]; omega]
      exact this
    · have := q5.append k2
      rw [List.append_assoc] at this
      exact this

/-! ### the beginnings of a stream -/

theorem bs_cut {W H : Nat} {prev : Option Image} {ref : Image} {tr : Nat} {x z : Ctx} {pos : Nat} {cs : List Coded}
    {bits : List Bool} {imgs : List Image} (h : BsCode W H prev ref tr x pos cs bits imgs z) : ∀ j, j ≤ cs.length →
    ∃ b b' imgs' z', bits = b ++ b' ∧ imgs' <+: imgs ∧ imgs'.length = j ∧
      BsCode W H prev ref tr x pos (cs.take j) b imgs' z' := by
  induction h with
  | @nil tr x pos => intro j hj; exact ⟨[], [], [], x, rfl, List.nil_prefix, (Nat.le_zero.mp hj).symm, by rw [List.take_nil]; exact .nil⟩
  | @cons tr x y z pos c cs b bs imgs hok hseq hgop hkind htr hctx hparts hmore ih =>
    intro j hj
    cases j with
    | zero => exact ⟨[], _, [], x, rfl, List.nil_prefix, rfl, .nil⟩
    | succ j =>
      obtain ⟨b1, b2, im, z', h1, h2, h3, h4⟩ := ih j (by simpa using hj)
      refine ⟨b ++ b1, b2, c.image y ⟨prev, some ref⟩ :: im, z', by rw [h1, List.append_assoc], ?_, by simp [h3],
        .cons hok hseq hgop hkind htr hctx hparts h4⟩
      exact List.cons_prefix_cons.mpr ⟨rfl, h2⟩

theorem bs_images {W H : Nat} {prev : Option Image} {ref : Image} {tr : Nat} {x z : Ctx} {pos : Nat} {cs : List Coded}
    {bits : List Bool} {imgs : List Image} (h : BsCode W H prev ref tr x pos cs bits imgs z) : imgs.length = cs.length := by
  induction h with
  | nil => rfl
  | cons _ _ _ _ _ _ _ _ ih => simp only [List.length_cons, ih]

theorem groups_cut {W H base : Nat} {σ : Option Ctx} {prev : Option Image} {pos : Nat} {gs : List CGroup}
    {bits : List Bool} {imgs : List Image} (h : GroupsCode W H base σ prev pos gs bits imgs) :
    ∀ c, c ≤ codedPictures gs → ∃ X Y shown, bits = X ++ Y ∧ shown <+: imgs ∧ Begun W H base σ prev pos c X shown := by
  induction h with
  | nil =>
    intro c hc
    cases Nat.le_zero.mp hc
    exact ⟨[], [], [], rfl, List.nil_prefix, .nil⟩
  | @cons base base0 σ prev pos g gs b bb more imgs rest' y z hok hkind hbase0 htr hctx hparts hbs hgs ih =>
    intro c hc
    have hc : c ≤ 1 + g.bs.length + codedPictures gs := hc
    rcases Nat.lt_or_ge c (1 + g.bs.length) with hlt | hge
    · cases c with
      | zero => exact ⟨[], _, [], rfl, List.nil_prefix, .nil⟩
      | succ j =>
        obtain ⟨b1, b2, im, z', h1, h2, h3, h4⟩ := bs_cut hbs j (by omega)
        have hj : (g.bs.take j).length = j := by rw [List.length_take]; omega
        refine ⟨b ++ b1, b2 ++ more, im, by rw [h1]; simp only [List.append_assoc], h2.trans (List.prefix_append _ _), ?_⟩
        have h5 := Begun.part (W := W) (H := H) (base := base) (σ := σ) (prev := prev) (pos := pos) (g := ⟨g.ref, g.bs.take j⟩) hok hkind hbase0 (by
          show base0 + (g.bs.take j).length < g.ref.hdr.temporal
          rw [hj, htr]; omega) hctx hparts h4
        have h6 : 1 + (g.bs.take j).length = j + 1 := by omega
        rw [← h6]
        exact h5
    · obtain ⟨X, Y, sh, h1, h2, h3⟩ := ih (c - (1 + g.bs.length)) (by omega)
      refine ⟨b ++ (bb ++ X), Y, imgs ++ (g.ref.image y ⟨prev, none⟩ :: sh), by rw [h1]; simp only [List.append_assoc], ?_, ?_⟩
      · obtain ⟨u, rfl⟩ := h2
        exact ⟨u, by simp only [List.append_assoc, List.cons_append]⟩
      · have h4 := Begun.cons hok hkind hbase0 htr hctx hparts hbs h3
        rw [show 1 + g.bs.length + (c - (1 + g.bs.length)) = c by omega] at h4
        exact h4

theorem begun_delay {W H base : Nat} {σ : Option Ctx} {prev : Option Image} {pos c : Nat}
    {bits : List Bool} {imgs : List Image} (h : Begun W H base σ prev pos c bits imgs) :
    imgs.length ≤ c ∧ c ≤ imgs.length + 1 := by
  induction h with
  | nil => exact ⟨Nat.le_refl _, by omega⟩
  | part _ _ _ _ _ _ hbs => have := bs_images hbs; omega
  | cons _ _ _ _ _ _ hbs _ ih =>
    have := bs_images hbs
    simp only [List.length_append, List.length_cons]; omega

end Mpeg.Video
