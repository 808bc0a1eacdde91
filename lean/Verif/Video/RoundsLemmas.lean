/-
Streams with any number of damaged pictures: one round.
-/
import Verif.Video.RoundsSpec
import Verif.Video.ResyncProps
import Verif.Video.LiveLemmas
import Verif.Video.ErrLemmas
set_option linter.all false
namespace Mpeg.Video
open Spec

variable {stop : Err} {later : List (List Bool × Err)}

theorem tryGet_set (fs : FrameStore) (tr n : Nat) : (fs.set tr).tryGet n = fs.tryGet n := by
  obtain ⟨a, b⟩ := set_slots fs tr
  unfold FrameStore.tryGet
  rw [a, b]

theorem entered_ready (fs : FrameStore) (base : Nat) : Ready (fs.entered true) base (fs.f1.map (·.frame)) := by
  refine ⟨?_, ?_, ?_⟩
  · show (fs.f1.map _).map _ = _
    cases fs.f1 <;> rfl
  · intro r hr
    obtain ⟨a, _, rfl⟩ := Option.map_eq_some_iff.1 (show (fs.f0.map _) = some r from hr)
    exact .inl rfl
  · intro r hr
    obtain ⟨a, _, rfl⟩ := Option.map_eq_some_iff.1 (show (fs.f1.map _) = some r from hr)
    exact .inl rfl

/-- The calls of `Next` return pictures that show `imgs`; the next call goes on with a decoder with the headers `σ`, which has
nothing to display, and the reader `br`. -/
def Reach (W H fuel k : Nat) (s : VS) (imgs : List Image) (σ : Option Ctx) (br : BR) : Prop :=
  ∃ frames t t' k', nexts fuel k imgs.length s = (.ok frames, t) ∧ AllShow W H frames imgs ∧
    VS.next fuel k t = nextLoop fuel k' t' ∧ 1 ≤ k' ∧ AtO W H σ t' ∧ t'.fs.tryGet t'.frameCounter = none ∧ t'.br = br

theorem Reach.after {W H fuel k : Nat} {s t : VS} {imgs imgs' : List Image} {σ : Option Ctx} {br : BR} {fr : List Frame}
    (h1 : nexts fuel k imgs.length s = (.ok fr, t)) (h2 : AllShow W H fr imgs) (h : Reach W H fuel k t imgs' σ br) :
    Reach W H fuel k s (imgs ++ imgs') σ br := by
  obtain ⟨frames, u, t', k', a1, a2, a3⟩ := h
  exact ⟨fr ++ frames, u, t', k', by rw [List.length_append]; exact nexts_append h1 a1, h2.append a2, a3⟩

/-- A reference picture and some of the B pictures displayed before it.  `U`: the picture `prev` before is used. -/
theorem cut_at {U : Prop} {W H fuel k base0 pos n lead : Nat} {σ : Option Ctx} {prev : Option Image} {g : CGroup}
    {b bb rest : List Bool} {imgs : List Image} {y z : Ctx} {s : VS} {pf : Option Frame} (hk2 : 2 ≤ k)
    (hn : n < 256) (hns : ¬ (1 ≤ n ∧ n ≤ 0xAF)) (hok : g.ref.OK W H)
    (hkind : g.ref.hdr.kind.code = 1 ∨ g.ref.hdr.kind.code = 2) (htr : base0 + g.bs.length < g.ref.hdr.temporal)
    (hctx : g.ref.ctx σ = some y) (hparts : Parts pos (g.ref.parts y ⟨prev, none⟩ W H) b)
    (hbs : BsCode W H prev (g.ref.image y ⟨prev, none⟩) base0 y (pos + b.length) g.bs bb imgs z)
    (hat : g.ref.seq = none → AtO W H σ s) (hw : s.fs.tryGet s.frameCounter = none)
    (hd : Ready (s.fs.entered g.ref.gop.isSome) base0 pf)
    (hc : if g.ref.gop.isSome then base0 = 0 else s.frameCounter = base0)
    (hpic : U → ShowsOpt W H pf prev) (hpS : Samples prev)
    (h0 : U → pf = none → (s.fs.entered g.ref.gop.isSome).past = none ∧ (s.fs.entered g.ref.gop.isSome).f0 = none)
    (hU : g.ref.hdr.kind.code ≠ 1 → U) (hbU : ∀ c ∈ g.bs, c.Forward → U)
    (hlead : s.sh ≠ none → lead = 0) (ha : pos % 8 = 0) (hlp : 8 * lead ≤ pos) (hf : b.length + bb.length + 1 ≤ fuel)
    (hb : s.br = ⟨zeros (8 * lead) ++ (b ++ (bb ++ (prefix1 ++ (bitsOf 8 n ++ rest)))), pos - 8 * lead, stop, later⟩) :
    Reach W H fuel k s imgs (some z) ⟨prefix1 ++ (bitsOf 8 n ++ rest), pos + b.length + bb.length, stop, later⟩ ∧
      (pos + b.length + bb.length) % 8 = 0 := by
  obtain ⟨m2, u2, hm2, hms2, hu2⟩ := bs_noSlice hbs (t := prefix1 ++ (bitsOf 8 n ++ rest)) ⟨n, rest, hn, hns, rfl⟩
  have hlt : g.ref.hdr.temporal < 1024 := hok.hdr.1
  obtain ⟨r1, r2⟩ := ready_refs hd hpic hpS h0 (tr := g.ref.hdr.temporal)
    (kind := g.ref.hdr.kind.code) (by omega) (by omega) hU g.ref.Forward
  obtain ⟨p, s1, he, hrun, p1, p2, p3, hat1, hbr1, hal1, hsh1⟩ := pict_run (stop := stop) (later := later) hok hat hctx
    hlead hparts ha hlp (fuel := fuel) (by omega) hm2 hms2 r1 (rest := u2) (by rw [hb, ← hu2])
  have hS : Samples (some (g.ref.image y ⟨prev, none⟩)) := by
    intro Q hQ
    cases hQ
    exact slices_samples hpS (fun Q hQ => by cases hQ) (fun _ _ _ => Nat.zero_le _)
  have hfs1 : s1.fs = ((s.fs.entered g.ref.gop.isSome).set g.ref.hdr.temporal).add p.frame g.ref.hdr.temporal := by
    have := he.fs
    rw [p1, p2, p3, if_pos hkind] at this
    exact this
  have hc1 : s1.frameCounter = base0 := by
    have := he.counter
    rw [p1] at this
    cases hn : g.ref.gop.isSome with
    | true => rw [hn] at hc this; exact this.trans (show base0 = 0 from hc).symm
    | false => rw [hn] at hc this; exact this.trans hc
  have hmid : MidOK U W H base0 g.ref.hdr.temporal pf p.frame prev (g.ref.image y ⟨prev, none⟩) s1.fs := by
    rw [hfs1]
    exact ⟨hd.set.mid _ _, hpic, hpS, hsh1, hS, r2⟩
  obtain ⟨ps, s2, q1, q2, q3, q4, q5, q6, q7, q8, q9⟩ := bs_run (stop := stop) (later := later) hn hns (rest := rest)
    (fuel := fuel) hbs hbU hat1 hmid (Nat.le_refl _) (Nat.le_of_lt htr) hal1 (by omega) (by rw [hbr1, ← hu2])
  have hrunG : Run fuel s (p :: ps) s2 := hrun _ _ q1
  have hl : ps.length = imgs.length := by
    have := q5.length
    rw [List.length_map] at this
    exact this
  refine ⟨?_, q9⟩
  cases hps : ps with
  | nil =>
    rw [hps] at q1 hl q5
    have hms : s1 = s2 := by cases q1; rfl
    subst hms
    have hi : imgs = [] := List.length_eq_zero_iff.mp hl.symm
    subst hi
    obtain ⟨j, rfl⟩ : ∃ j, k = j + 1 := ⟨k - 1, by omega⟩
    refine ⟨[], s, s1, j, rfl, .nil, ?_, by omega, q6, ?_, q8⟩
    · rw [next_loop hw, loop_miss he (by rw [p3, hc1]; omega)]
    · rw [hc1]
      exact hmid.mid.tryGet_none (Nat.le_refl _) (by omega)
  | cons p0 ps0 =>
    obtain ⟨t, n1, n2⟩ := part_next_at (k := k) (base := base0) (top := g.ref.hdr.temporal) (prev := pf) hk2 hrunG
      (by rw [p2]; exact hkind) p3 hlt (by rw [q2]; omega) q3 q4 hw (by rw [p1]; exact hd) (by rw [p1]; exact hc)
    rw [hl] at n1
    obtain ⟨⟨cc, ht⟩, n3⟩ := n2 (by rw [hps]; simp)
    have hw' : t.fs.tryGet t.frameCounter = none := by
      rw [n3, ht]
      exact q7.mid.tryGet_none (by omega) (by rw [q2]; exact htr)
    refine ⟨_, t, t, k, n1, q5, next_loop hw', by omega, ?_, hw', ?_⟩
    · rw [ht]; exact at_lift q6 rfl rfl rfl
    · rw [ht]; exact q8

theorem upTo_noSlice {W H base : Nat} {σ : Option Ctx} {prev : Option Image} {pos : Nat} {gs : List CGroup}
    {bits : List Bool} {imgs : List Image} (h : UpTo W H base σ prev pos gs bits imgs) {t : List Bool}
    (ht : NoSlice t) : NoSlice (bits ++ t) := by
  cases h with
  | nil => exact ht
  | part _ _ _ _ _ hp _ => rw [List.append_assoc]; exact coded_noSlice hp _
  | cons _ _ _ _ _ hp _ _ => rw [List.append_assoc]; exact coded_noSlice hp _

theorem inForce_cons {W H tr : Nat} {prev : Option Image} {ref : Image} {g : CGroup} {gs : List CGroup} {σ : Option Ctx} {y z : Ctx}
    {pos : Nat} {bb : List Bool} {imgs : List Image} (hctx : g.ref.ctx σ = some y)
    (hbs : BsCode W H prev ref tr y pos g.bs bb imgs z) : inForce σ (g :: gs) = inForce (some z) gs := by
  unfold inForce
  rw [List.foldl_cons, group_inForce hctx hbs]

theorem upTo_next {W H n fuel k : Nat} {rest : List Bool} (hk2 : 2 ≤ k) (hn : n < 256) (hns : ¬ (1 ≤ n ∧ n ≤ 0xAF))
    {base : Nat} {σ : Option Ctx} {prev : Option Image} {pos : Nat} {gs : List CGroup} {bits : List Bool}
    {imgs : List Image} (h : UpTo W H base σ prev pos gs bits imgs) :
    ∀ {s : VS} {pf : Option Frame} {lead : Nat}, Between W H base σ prev pf s → (σ ≠ none → lead = 0) → (gs = [] → lead = 0) →
      pos % 8 = 0 → 8 * lead ≤ pos → bits.length + 1 ≤ fuel →
      s.br = ⟨zeros (8 * lead) ++ (bits ++ (prefix1 ++ (bitsOf 8 n ++ rest))), pos - 8 * lead, stop, later⟩ →
      Reach W H fuel k s imgs (inForce σ gs) ⟨prefix1 ++ (bitsOf 8 n ++ rest), pos + bits.length, stop, later⟩ ∧
      (pos + bits.length) % 8 = 0 := by
  induction h with
  | nil =>
    intro s pf lead hB _ hl ha _ _ hb
    have := hl rfl
    subst this
    have hw : s.fs.tryGet s.frameCounter = none := by rw [hB.counter]; exact hB.ready.tryGet
    exact ⟨⟨[], s, s, k, rfl, .nil, next_loop hw, by omega, hB.ctx, hw, hb⟩, ha⟩
  | @part base base0 σ prev pos g b bb imgs y z hok hkind hbase0 htr hctx hparts hbs =>
    intro s pf lead hB hlead _ ha hlp hf hb
    simp only [List.length_append] at hf
    have hd : Ready (s.fs.entered g.ref.gop.isSome) base0 pf := by
      rw [hbase0]
      cases hg : g.ref.gop.isSome with
      | true => exact hB.ready.enter
      | false => exact hB.ready
    have h0 : pf = none → (s.fs.entered g.ref.gop.isSome).past = none ∧ (s.fs.entered g.ref.gop.isSome).f0 = none := by
      intro hp
      obtain ⟨a, b⟩ := hB.first hp
      unfold FrameStore.entered
      split
      · exact ⟨a, by unfold FrameStore.markGOP; rw [b]; rfl⟩
      · exact ⟨a, b⟩
    have := cut_at (U := True) (stop := stop) (later := later) (fuel := fuel) (k := k)
      (rest := rest) hk2 hn hns hok hkind htr hctx hparts hbs
      (fun _ => hB.ctx) (by rw [hB.counter]; exact hB.ready.tryGet) hd (by
        rw [hbase0, hB.counter]
        cases g.ref.gop.isSome <;> simp) (fun _ => hB.pic) hB.picS (fun _ => h0) (fun _ => trivial) (fun _ _ _ => trivial)
      (fun h => hlead fun hσ => h (by have := hB.ctx; rw [hσ] at this; exact this)) ha hlp (by omega)
      (by rw [hb]; simp only [List.append_assoc])
    rw [inForce_cons hctx hbs, List.length_append, ← Nat.add_assoc]
    exact this
  | @cons base base0 σ prev pos g gs b bb more imgs rest' y z hok hkind hbase0 htr hctx hparts hbs hgs ih =>
    intro s pf lead hB hlead _ ha hlp hf hb
    simp only [List.length_append] at hf
    have hno := upTo_noSlice hgs (t := prefix1 ++ (bitsOf 8 n ++ rest)) ⟨n, rest, hn, hns, rfl⟩
    obtain ⟨m1, u1, hm1, hms1, hu1⟩ := hno
    have hd : Ready (s.fs.entered g.ref.gop.isSome) base0 pf := by
      rw [hbase0]
      cases hg : g.ref.gop.isSome with
      | true => exact hB.ready.enter
      | false => exact hB.ready
    have h0 : pf = none → (s.fs.entered g.ref.gop.isSome).past = none ∧ (s.fs.entered g.ref.gop.isSome).f0 = none := by
      intro hp
      obtain ⟨a, b⟩ := hB.first hp
      unfold FrameStore.entered
      split
      · exact ⟨a, by unfold FrameStore.markGOP; rw [b]; rfl⟩
      · exact ⟨a, b⟩
    obtain ⟨fr, f, t, n1, q5, hB', n3, q9⟩ := group_at (U := True) (stop := stop) (later := later) (fuel := fuel) (k := k)
      (rest := u1) hk2 hm1 hms1 hok hkind htr hctx hparts hbs
      (fun _ => hB.ctx) (by rw [hB.counter]; exact hB.ready.tryGet) hd (by
        rw [hbase0, hB.counter]
        cases g.ref.gop.isSome <;> simp) (fun _ => hB.pic) hB.picS (fun _ => h0) (fun _ => trivial) (fun _ _ _ => trivial)
      (fun h => hlead fun hσ => h (by have := hB.ctx; rw [hσ] at this; exact this)) ha hlp (by omega)
      (by rw [hb, ← hu1]; simp only [List.append_assoc])
    have hbrt : t.br = ⟨more ++ (prefix1 ++ (bitsOf 8 n ++ rest)), pos + b.length + bb.length, stop, later⟩ := by
      rw [n3, hu1]
    obtain ⟨k1, k2⟩ := ih (lead := 0) hB' (fun _ => rfl) (fun _ => rfl) q9 (by omega) (by omega) (by rw [hbrt]; rfl)
    have hlen : pos + (b ++ (bb ++ more)).length = pos + b.length + bb.length + more.length := by
      simp only [List.length_append]; omega
    rw [hlen, inForce_cons hctx hbs, ← List.singleton_append, ← List.append_assoc]
    exact ⟨Reach.after (by simpa using n1) q5 k1, k2⟩

/-- The same from the start of a closed group of pictures, whatever has been decoded before. -/
theorem upTo_closed {W H n fuel k : Nat} {rest : List Bool} (hk2 : 2 ≤ k) (hn : n < 256) (hns : ¬ (1 ≤ n ∧ n ≤ 0xAF))
    {base : Nat} {x : Ctx} {prev : Option Image} {pos : Nat} {gs : List CGroup} {bits : List Bool}
    {imgs : List Image} (hent : ClosedGop gs ∨ gs = []) (h : UpTo W H base (some x) prev pos gs bits imgs) {s : VS}
    (hat : At W H x s) (hw : s.fs.tryGet s.frameCounter = none) (ha : pos % 8 = 0)
    (hf : bits.length + 1 ≤ fuel)
    (hb : s.br = ⟨bits ++ (prefix1 ++ (bitsOf 8 n ++ rest)), pos, stop, later⟩) :
    Reach W H fuel k s imgs (inForce (some x) gs) ⟨prefix1 ++ (bitsOf 8 n ++ rest), pos + bits.length, stop, later⟩ ∧
      (pos + bits.length) % 8 = 0 := by
  rcases hent with hent | rfl
  swap
  · cases h
    exact ⟨⟨[], s, s, k, rfl, .nil, next_loop hw, by omega, hat, hw, hb⟩, ha⟩
  obtain ⟨g, more, rfl, g1, g2, g3, g4⟩ := hent
  have hg : g.ref.gop.isSome = true := Option.isSome_iff_ne_none.2 g2
  cases h with
  | @part _ base0 _ _ _ _ b bb _ y z hok hkind hbase0 htr hctx hparts hbs =>
    obtain ⟨p1, p2⟩ := intra_parts hok g3 (r' := ⟨none, none⟩) hparts
    have hbs' : BsCode W H none (g.ref.image y ⟨none, none⟩) base0 y (pos + b.length) g.bs bb imgs z := by
      rw [p2]; exact bs_backward g4 hbs
    simp only [List.length_append] at hf
    rw [hg, if_pos rfl] at hbase0
    have := cut_at (U := False) (stop := stop) (later := later) (fuel := fuel) (k := k)
      (lead := 0) (rest := rest) hk2 hn hns hok hkind htr hctx p1 hbs' (fun _ => hat) hw (by rw [hg]; exact entered_ready _ _)
      (by rw [hg, if_pos rfl]; exact hbase0)
      (fun h => h.elim) (fun Q hQ => by cases hQ) (fun h => h.elim) (fun h => h g3) (fun c hc h => g4 c hc h) (fun _ => rfl) ha
      (by omega) (by omega) (by rw [hb]; simp only [List.append_assoc]; rfl)
    rw [inForce_cons hctx hbs, List.length_append, ← Nat.add_assoc]
    exact this
  | @cons _ base0 _ _ _ _ _ b bb mb imgs rest' y z hok hkind hbase0 htr hctx hparts hbs hgs =>
    obtain ⟨p1, p2⟩ := intra_parts hok g3 (r' := ⟨none, none⟩) hparts
    have hbs' : BsCode W H none (g.ref.image y ⟨none, none⟩) base0 y (pos + b.length) g.bs bb imgs z := by
      rw [p2]; exact bs_backward g4 hbs
    have hgs' : UpTo W H (base0 + g.bs.length + 1) (some z) (some (g.ref.image y ⟨none, none⟩))
        (pos + b.length + bb.length) more mb rest' := by rw [p2]; exact hgs
    rw [← p2]
    simp only [List.length_append] at hf
    obtain ⟨m1, u1, hm1, hms1, hu1⟩ := upTo_noSlice hgs' (t := prefix1 ++ (bitsOf 8 n ++ rest)) ⟨n, rest, hn, hns, rfl⟩
    rw [hg, if_pos rfl] at hbase0
    obtain ⟨fr, f, t, n1, q5, hB', n3, q9⟩ := group_at (U := False) (stop := stop) (later := later) (fuel := fuel) (k := k)
      (lead := 0) (rest := u1) hk2 hm1 hms1 hok hkind htr hctx p1 hbs' (fun _ => hat) hw (by rw [hg]; exact entered_ready _ _)
      (by rw [hg, if_pos rfl]; exact hbase0)
      (fun h => h.elim) (fun Q hQ => by cases hQ) (fun h => h.elim) (fun h => h g3) (fun c hc h => g4 c hc h) (fun _ => rfl) ha
      (by omega) (by omega) (by rw [hb, ← hu1]; simp only [List.append_assoc]; rfl)
    have hbrt : t.br = ⟨mb ++ (prefix1 ++ (bitsOf 8 n ++ rest)), pos + b.length + bb.length, stop, later⟩ := by
      rw [n3, hu1]
    obtain ⟨k1, k2⟩ := upTo_next (stop := stop) (later := later) (n := n) (rest := rest) hk2 hn hns
      hgs' (lead := 0) hB' (fun _ => rfl) (fun _ => rfl) q9 (by omega) (fuel := fuel) (by omega) (by rw [hbrt]; rfl)
    have hlen : pos + (b ++ (bb ++ mb)).length = pos + b.length + bb.length + mb.length := by
      simp only [List.length_append]; omega
    rw [hlen, inForce_cons hctx hbs, ← List.singleton_append, ← List.append_assoc]
    exact ⟨Reach.after (by simpa using n1) q5 k1, k2⟩

/-! ### the damaged picture -/

theorem bad_fails {W H fuel pos : Nat} {σ : Option Ctx} {c : Coded} {y : Ctx} {bits rest : List Bool} (hstop : stop ≠ .eos)
    (hB : BadPicture W H fuel stop σ pos c y bits rest) (ha : pos % 8 = 0) {s : VS} (hat : AtO W H σ s)
    (hw : s.fs.tryGet s.frameCounter = none) (hb : s.br = ⟨bits ++ rest, pos, stop, []⟩) :
    ∃ r t, (∀ k, 1 ≤ k → nextLoop fuel k s = (r, t)) ∧ ((∃ e, r = .err e ∧ e ≠ .eos) ∨ r = .panic) ∧ At W H y t ∧
      t.fs.tryGet t.frameCounter = none ∧
      ∃ skip, fromBoundary t.br = skip ++ rest ∧ t.br.pos + padding t.br.pos + skip.length = pos + bits.length ∧
        t.br.stop = stop ∧ t.br.later = [] ∧
        ∀ j, 8 * j < skip.length → ((skip ++ rest).drop (8 * j)).take 32 ≠ bitsOf 32 0x1B8 := by
  obtain ⟨hdr, n, data, hbits, hp, hn, hn5, hn2, hbad, hno⟩ := hB.code
  have hlen : bits.length = hdr.length + (prefix1 ++ (bitsOf 8 n ++ data)).length := by rw [hbits, List.length_append]
  have hpl : 24 ≤ (prefix1 ++ (bitsOf 8 n ++ data)).length := by
    rw [List.length_append, show prefix1.length = 24 from rfl]; omega
  have hshort := hB.short
  obtain ⟨s1, c1, c2, c3, c4, c5, c6, c7, c8⟩ := headers_step (stop := stop) (later := []) (k := 0) hB.ok (fun _ => hat) hB.ctx
    (fun _ => rfl) hp ha (by omega) (fuel := fuel) (n := n) (rest := data ++ rest) (by omega) hn hn5 hn2
    (by rw [hb, hbits]; simp only [List.append_assoc]; rfl)
  cases hx : pictureStep s1 with
  | mk r t2 =>
    have hlat : s1.br.later = [] := by rw [c7]
    have hdam : c.Damaged y s1.br.pos s1.br.bits := by rw [c7]; exact hbad
    obtain ⟨fs', hfs'⟩ : ∃ fs', fs' = s1.fs.set (viewPic c.hdr).temporalReference := ⟨_, rfl⟩
    have hfail : ∀ f, (pictureData { s1 with fs := s1.fs.set (viewPic c.hdr).temporalReference }).1 ≠ .ok f := by
      rw [← hfs']
      exact damaged_fails hB.ok (at_lift c2 rfl rfl rfl) c3 c4 hlat hdam
    obtain ⟨d1, br, d2⟩ := pictureStep_fails c3 hfail hx
    have hloop : ∀ k, 1 ≤ k → nextLoop fuel k s = (r, t2) := by
      intro k hk
      obtain ⟨k', rfl⟩ : ∃ k', k = k' + 1 := ⟨k - 1, by omega⟩
      unfold nextLoop
      rw [hx] at c1
      cases r with
      | ok f => exact absurd rfl (d1 f)
      | err e => exact Go.bind_err c1
      | panic => exact Go.bind_panic c1
      | hang => exact Go.bind_hang c1
    have hw2 : t2.fs.tryGet t2.frameCounter = none := by
      rw [d2]
      show ((s1.fs.set _).tryGet s1.frameCounter) = none
      rw [tryGet_set, c5, c6]
      cases c.gop.isSome with
      | true => exact (entered_ready s.fs 0).tryGet
      | false => exact hw
    have hr : (∃ e, r = .err e ∧ e ≠ .eos) ∨ r = .panic := by
      cases r with
      | ok f => exact absurd rfl (d1 f)
      | panic => exact .inr rfl
      | hang =>
        exfalso
        have := nohang_pictureStep s1
        rw [hx] at this
        exact this rfl
      | err e =>
        refine .inl ⟨e, rfl, ?_⟩
        rcases er_pictureStep.er s1 e t2 hx with h | ⟨h, _⟩
        · rintro rfl
          exact absurd h (by decide)
        · rintro rfl
          rcases h with h | ⟨h, _⟩
          · unfold BR.stops at h
            rw [c7] at h
            simp at h
            exact hstop h.symm
          · cases h
    obtain ⟨j, hj, hbr⟩ := hB.stops s hat hw hb
    rw [next_loop hw, hloop 1 (Nat.le_refl _)] at hbr
    have hmv := (er_pictureStep.mv s1).size
    rw [hx] at hmv
    dsimp only at hbr hmv
    rw [c7, hbr] at hmv
    simp only [BR.size, List.map_nil, List.sum_nil, List.length_append, List.length_drop, Nat.add_zero] at hmv
    have hjh : hdr.length ≤ j := by
      simp only [List.length_append] at hlen
      omega
    have hwh := hB.whole
    have hpd : padding (pos + j) ≤ bits.length - j := by unfold padding; omega
    have hp8 : (j + padding (pos + j)) % 8 = 0 := by unfold padding; omega
    refine ⟨r, t2, hloop, hr, by rw [d2]; exact at_lift c2 rfl rfl rfl, hw2, bits.drop (j + padding (pos + j)), ?_, ?_, ?_, ?_, ?_⟩
    · unfold fromBoundary
      rw [hbr]
      dsimp only
      rw [List.drop_append_of_le_length (by rw [List.length_drop]; exact hpd), List.drop_drop]
    · rw [hbr, List.length_drop]; dsimp only; omega
    · rw [hbr]
    · rw [hbr]
    · intro i hi
      rw [List.length_drop] at hi
      obtain ⟨q, hq⟩ : ∃ q, j + padding (pos + j) = 8 * q := ⟨(j + padding (pos + j)) / 8, by omega⟩
      have := hno (q + i) (by omega) (by omega)
      rw [← List.drop_append_of_le_length (by omega), List.drop_drop]
      rwa [show j + padding (pos + j) + 8 * i = 8 * (q + i) by omega]

/-- `AlignTo` finds the group of pictures that follows. -/
theorem realign {s : VS} {skip rest u : List Bool} {pos : Nat} (h1 : fromBoundary s.br = skip ++ rest)
    (h2 : s.br.pos + padding s.br.pos + skip.length = pos) (h8 : skip.length % 8 = 0) (hr : rest = bitsOf 32 0x1B8 ++ u)
    (hno : ∀ j, 8 * j < skip.length → ((skip ++ rest).drop (8 * j)).take 32 ≠ bitsOf 32 0x1B8) :
    VS.lift (alignTo 0x1B8) s = (.ok (), { s with br := ⟨rest, pos, s.br.stop, s.br.later⟩ }) := by
  obtain ⟨q, hq⟩ : ∃ q, skip.length = 8 * q := ⟨skip.length / 8, by omega⟩
  have hcode : ((fromBoundary s.br).drop (8 * q)).take 32 = bitsOf 32 0x1B8 := by
    rw [h1, List.drop_left' hq, hr, List.take_left' (length_bitsOf ..)]
  have hal : alignTo 0x1B8 s.br = (.ok (), ⟨rest, pos, s.br.stop, s.br.later⟩) := by
    rcases C35 0x1B8 (by decide) s.br with ⟨m, m1, m2, m3⟩ | ⟨m1, _⟩
    · have hmq : m = q := by
        rcases Nat.lt_trichotomy m q with hlt | heq | hgt
        · exact absurd (h1 ▸ m2) (hno m (by omega))
        · exact heq
        · exact absurd hcode (m3 q hgt)
      subst hmq
      rw [m1, h1, List.drop_left' hq, ← hq, h2]
    · exact absurd hcode (m1 q)
  unfold VS.lift
  rw [hal]

theorem nexts_play {fuel k : Nat} : ∀ {n : Nat} {s t u : VS} {l : List Frame} {r : Res Frame}, nexts fuel k n s = (.ok l, t) →
    VS.next fuel k t = (r, u) → (∀ f, r ≠ .ok f) → Play fuel k s l r u
  | 0, s, t, u, l, r, h1, h2, h3 => by cases h1; exact .stop h2 h3
  | n + 1, s, t, u, l, r, h1, h2, h3 => by
    unfold nexts at h1
    obtain ⟨f, s1, e1, h1⟩ := Go.bind_eq_ok h1
    obtain ⟨l1, s2, e2, h1⟩ := Go.bind_eq_ok h1
    cases h1
    exact .picture e1 (nexts_play e2 h2 h3)

theorem upTo_starts {W H base : Nat} {σ : Option Ctx} {prev : Option Image} {pos : Nat} {gs : List CGroup}
    {bits : List Bool} {imgs : List Image} (hent : ClosedGop gs) (h : UpTo W H base σ prev pos gs bits imgs) :
    ∃ u, bits = bitsOf 32 0x1B8 ++ u := by
  obtain ⟨g, more, rfl, g1, g2, g3, g4⟩ := hent
  have key : ∀ {y : Ctx} {b : List Bool}, Parts pos (g.ref.parts y ⟨prev, none⟩ W H) b → ∃ u, b = bitsOf 32 0x1B8 ++ u := by
    intro y b hparts
    have h' : Parts pos (seqParts g.ref ++ gopParts g.ref ++ picParts g.ref y ⟨prev, none⟩ W H) b := hparts
    unfold seqParts gopParts at h'
    rw [g1] at h'
    cases hq : g.ref.gop with
    | none => exact absurd hq g2
    | some q =>
      rw [hq] at h'
      obtain ⟨a, as, rfl, q1, _⟩ := parts_inv h'
      obtain ⟨r1, hr1⟩ := starts_gop q.hdr
      obtain ⟨u, hu⟩ := stuffed_starts (by decide) hr1 q1
      rw [hu, show (0x1B8 : Nat) = 0x100 + 0xB8 from rfl, code32_bits (by decide)]
      exact ⟨u ++ as, by simp only [List.append_assoc]⟩
  cases h with
  | part hok hkind hbase0 htr hctx hparts hbs =>
    obtain ⟨u, rfl⟩ := key hparts
    exact ⟨_, List.append_assoc ..⟩
  | cons hok hkind hbase0 htr hctx hparts hbs hgs =>
    obtain ⟨u, rfl⟩ := key hparts
    exact ⟨_, List.append_assoc ..⟩

theorem headers_gop {c : Coded} {pos : Nat} {b : List Bool} (h : Parts pos c.headers b) (hs : c.seq = none) (hg : c.gop ≠ none) :
    ∃ u, b = bitsOf 32 0x1B8 ++ u := by
  have h' : Parts pos (seqParts c ++ gopParts c ++ [Stuffed (encPic c.hdr), Stuffed (encPicExt c.ext), ItemsPart 2 c.items]) b := h
  unfold seqParts gopParts at h'
  rw [hs] at h'
  cases hq : c.gop with
  | none => exact absurd hq hg
  | some q =>
    rw [hq] at h'
    obtain ⟨a, as, rfl, q1, _⟩ := parts_inv h'
    obtain ⟨r1, hr1⟩ := starts_gop q.hdr
    obtain ⟨u, hu⟩ := stuffed_starts (by decide) hr1 q1
    rw [hu, show (0x1B8 : Nat) = 0x100 + 0xB8 from rfl, code32_bits (by decide)]
    exact ⟨u ++ as, by simp only [List.append_assoc]⟩

theorem received_starts {W H fuel pos : Nat} {x : Ctx} {bits rest : List Bool} {l : List (List Image)}
    (h : Received W H fuel stop x pos bits l rest) : ∃ u, bits = bitsOf 32 0x1B8 ++ u := by
  cases h with
  | last hent h _ =>
    obtain ⟨u, rfl⟩ := gop_starts hent h
    exact ⟨_, List.append_assoc ..⟩
  | @bad x y pos base prev gs c bits bad more rest imgs l hent h _ hB _ =>
    rcases hent with hent | ⟨rfl, h1, h2⟩
    · obtain ⟨u, rfl⟩ := upTo_starts hent h
      exact ⟨_, List.append_assoc ..⟩
    · cases h
      obtain ⟨hdr, n, data, hbits, hp, _⟩ := hB.code
      obtain ⟨u, rfl⟩ := headers_gop hp h1 h2
      exact ⟨u ++ (prefix1 ++ (bitsOf 8 n ++ (data ++ more))), by rw [hbits]; simp only [List.nil_append, List.append_assoc]⟩

end Mpeg.Video
