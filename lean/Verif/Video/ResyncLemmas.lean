/-
Decoding resumed at a group of pictures, with the headers already known.
-/
import Verif.Video.ResyncSpec
import Verif.Video.RecoverLemmas
import Verif.Video.SynLemmas3
import Verif.Video.NextPanicLemmas
set_option linter.all false
namespace Mpeg.Video
open Spec

variable {stop : Err} {later : List (List Bool × Err)}

/-! ### the headers in force -/

theorem bs_inForce {W H : Nat} {prev : Option Image} {ref : Image} : ∀ {cs : List Coded} {tr : Nat} {x z : Ctx} {pos : Nat}
    {bb : List Bool} {imgs : List Image}, BsCode W H prev ref tr x pos cs bb imgs z →
    cs.foldl Coded.ctx (some x) = some z
  | [], _, _, _, _, _, _, h => by cases h; rfl
  | c :: cs, _, _, _, _, _, _, h => by
    cases h with
    | cons hok hseq hgop hk htr hctx hparts hbs =>
      rw [List.foldl_cons, hctx]
      exact bs_inForce hbs

theorem group_inForce {W H tr : Nat} {prev : Option Image} {ref : Image} {g : CGroup} {σ : Option Ctx} {y z : Ctx} {pos : Nat}
    {bb : List Bool} {imgs : List Image} (hctx : g.ref.ctx σ = some y) (hbs : BsCode W H prev ref tr y pos g.bs bb imgs z) :
    g.ctx σ = some z := by
  unfold CGroup.ctx
  rw [List.foldl_cons, hctx]
  exact bs_inForce hbs

/-- `groups_next`, with the headers that are in force at the end. -/
theorem groups_next_ctx {W H n fuel k : Nat} {rest : List Bool} (hk2 : 2 ≤ k) (hn : n < 256) (hns : ¬ (1 ≤ n ∧ n ≤ 0xAF))
    {base : Nat} {σ : Option Ctx} {prev : Option Image} {pos : Nat} {gs : List CGroup} {bits : List Bool}
    {imgs : List Image} (h : GroupsCode W H base σ prev pos gs bits imgs) :
    ∀ {s : VS} {pf : Option Frame} {lead : Nat}, Between W H base σ prev pf s → (σ ≠ none → lead = 0) → pos % 8 = 0 →
      8 * lead ≤ pos → bits.length + 1 ≤ fuel →
      s.br = ⟨zeros (8 * lead) ++ (bits ++ (prefix1 ++ (bitsOf 8 n ++ rest))), pos - 8 * lead, stop, later⟩ →
      ∃ frames t, nexts fuel k imgs.length s = (.ok frames, t) ∧ AllShow W H frames imgs ∧
        (gs ≠ [] → ∃ base' pf' P, Between W H base' (inForce σ gs) P pf' t ∧
          t.br = ⟨prefix1 ++ (bitsOf 8 n ++ rest), pos + bits.length, stop, later⟩ ∧ (pos + bits.length) % 8 = 0) := by
  induction h with
  | nil =>
    intro s pf lead hB _ _ _ _ hb
    exact ⟨[], s, rfl, .nil, fun h => absurd rfl h⟩
  | @cons base base0 σ prev pos g gs b bb more imgs rest' y z hok hkind hbase0 htr hctx hparts hbs hgs ih =>
    intro s pf lead hB hlead ha hlp hf hb
    simp only [List.length_append] at hf
    have hno := groups_noSlice hgs (t := prefix1 ++ (bitsOf 8 n ++ rest)) ⟨n, rest, hn, hns, rfl⟩
    obtain ⟨m1, u1, hm1, hms1, hu1⟩ := hno
    have hd : Ready (s.fs.entered g.ref.gop.isSome) base0 pf := by
      rw [hbase0]
      cases hg : g.ref.gop.isSome with
      | true => exact hB.ready.enter
      | false => exact hB.ready
    have h0 : pf = none → (s.fs.entered g.ref.gop.isSome).past = none ∧ (s.fs.entered g.ref.gop.isSome).f0 = none := by
      intro hp
      obtain ⟨a, b⟩ := hB.first hp
      unfold FrameStore.entered
      split
      · exact ⟨a, by unfold FrameStore.markGOP; rw [b]; rfl⟩
      · exact ⟨a, b⟩
    obtain ⟨fr, f, t, n1, q5, hB', n3, q9⟩ := group_at (U := True) (stop := stop) (later := later) (fuel := fuel) (k := k)
      (rest := u1) hk2 hm1 hms1 hok hkind htr hctx hparts hbs
      (fun _ => hB.ctx) (by rw [hB.counter]; exact hB.ready.tryGet) hd (by
        rw [hbase0, hB.counter]
        cases g.ref.gop.isSome <;> simp) (fun _ => hB.pic) hB.picS (fun _ => h0) (fun _ => trivial) (fun _ _ _ => trivial)
      (fun h => hlead fun hσ => h (by have := hB.ctx; rw [hσ] at this; exact this)) ha hlp (by omega)
      (by rw [hb, ← hu1]; simp only [List.append_assoc])
    have hbrt : t.br = ⟨more ++ (prefix1 ++ (bitsOf 8 n ++ rest)), pos + b.length + bb.length, stop, later⟩ := by
      rw [n3, hu1]
    obtain ⟨frames, t', k1, k2, k3⟩ := ih (lead := 0) hB' (fun _ => rfl) q9 (by omega) (by omega) (by rw [hbrt]; rfl)
    have hz : inForce σ (g :: gs) = inForce (some z) gs := by
      unfold inForce
      rw [List.foldl_cons, group_inForce hctx hbs]
    refine ⟨fr ++ frames, t', ?_, ?_, fun _ => ?_⟩
    · have := nexts_append n1 k1
      rw [show (imgs ++ g.ref.image y ⟨prev, none⟩ :: rest').length = imgs.length + 1 + rest'.length by
        simp only [List.length_append, List.length_cons]; omega]
      exact this
    · have := q5.append k2
      rw [List.append_assoc] at this
      exact this
    · have hlen : pos + (b ++ (bb ++ more)).length = pos + b.length + bb.length + more.length := by
        simp only [List.length_append]; omega
      rw [hlen, hz]
      by_cases hg : gs = []
      · subst hg
        cases hgs
        cases k1
        exact ⟨_, _, _, hB', by rw [hbrt]; rfl, by simpa using q9⟩
      · exact k3 hg

/-! ### a group of pictures with the headers already known -/

theorem closed_next {W H n fuel k : Nat} {rest : List Bool} (hk2 : 2 ≤ k) (hn : n < 256) (hns : ¬ (1 ≤ n ∧ n ≤ 0xAF))
    {base : Nat} {x : Ctx} {prev : Option Image} {pos : Nat} {gs : List CGroup} {bits : List Bool}
    {imgs : List Image} (hent : ClosedGop gs) (h : GroupsCode W H base (some x) prev pos gs bits imgs) {s : VS}
    (hat : At W H x s) (hw : s.fs.tryGet s.frameCounter = none) (ha : pos % 8 = 0)
    (hf : bits.length + 1 ≤ fuel)
    (hb : s.br = ⟨bits ++ (prefix1 ++ (bitsOf 8 n ++ rest)), pos, stop, later⟩) :
    ∃ frames t, nexts fuel k imgs.length s = (.ok frames, t) ∧ AllShow W H frames imgs ∧
      ∃ base' z pf' P, Between W H base' (some z) P pf' t ∧
        t.br = ⟨prefix1 ++ (bitsOf 8 n ++ rest), pos + bits.length, stop, later⟩ ∧ (pos + bits.length) % 8 = 0 := by
  obtain ⟨g, more, rfl, g1, g2, g3, g4⟩ := hent
  have hg : g.ref.gop.isSome = true := Option.isSome_iff_ne_none.2 g2
  cases h with
  | @cons _ base0 _ _ _ _ _ b bb mb imgs rest' y z hok hkind hbase0 htr hctx hparts hbs hgs =>
    obtain ⟨p1, p2⟩ := intra_parts hok g3 (r' := ⟨none, none⟩) hparts
    have hbs' : BsCode W H none (g.ref.image y ⟨none, none⟩) base0 y (pos + b.length) g.bs bb imgs z := by
      rw [p2]; exact bs_backward g4 hbs
    have hgs' : GroupsCode W H (base0 + g.bs.length + 1) (some z) (some (g.ref.image y ⟨none, none⟩))
        (pos + b.length + bb.length) more mb rest' := by rw [p2]; exact hgs
    rw [← p2]
    simp only [List.length_append] at hf
    obtain ⟨m1, u1, hm1, hms1, hu1⟩ := groups_noSlice hgs' (t := prefix1 ++ (bitsOf 8 n ++ rest)) ⟨n, rest, hn, hns, rfl⟩
    rw [hg, if_pos rfl] at hbase0
    have hd : Ready (s.fs.entered g.ref.gop.isSome) base0 (s.fs.f1.map (·.frame)) := by
      rw [hg, hbase0]
      refine ⟨?_, ?_, ?_⟩
      · show (s.fs.f1.map _).map _ = _
        cases s.fs.f1 <;> rfl
      · intro r hr
        obtain ⟨a, _, rfl⟩ := Option.map_eq_some_iff.1 (show (s.fs.f0.map _) = some r from hr)
        exact .inl rfl
      · intro r hr
        obtain ⟨a, _, rfl⟩ := Option.map_eq_some_iff.1 (show (s.fs.f1.map _) = some r from hr)
        exact .inl rfl
    obtain ⟨fr, f, t, n1, q5, hB', n3, q9⟩ := group_at (U := False) (stop := stop) (later := later) (fuel := fuel) (k := k)
      (lead := 0) (rest := u1) hk2 hm1 hms1 hok hkind htr hctx p1 hbs' (fun _ => hat) hw hd (by rw [hg, if_pos rfl]; exact hbase0)
      (fun h => h.elim) (fun Q hQ => by cases hQ) (fun h => h.elim) (fun h => h g3) (fun c hc h => g4 c hc h) (fun _ => rfl) ha
      (by omega) (by omega) (by rw [hb, ← hu1]; simp only [List.append_assoc]; rfl)
    have hbrt : t.br = ⟨mb ++ (prefix1 ++ (bitsOf 8 n ++ rest)), pos + b.length + bb.length, stop, later⟩ := by
      rw [n3, hu1]
    obtain ⟨frames, t', k1, k2, k3⟩ := groups_next (stop := stop) (later := later) (n := n) (rest := rest) hk2 hn hns
      hgs' (lead := 0) hB' (fun _ => rfl) q9 (by omega) (fuel := fuel) (by omega) (by rw [hbrt]; rfl)
    refine ⟨fr ++ frames, t', ?_, ?_, ?_⟩
    · have := nexts_append n1 k1
      rw [show (imgs ++ g.ref.image y ⟨none, none⟩ :: rest').length = imgs.length + 1 + rest'.length by
        simp only [List.length_append, List.length_cons]; omega]
      exact this
    · have := q5.append k2
      rw [List.append_assoc] at this
      exact this
    · have hlen : pos + (b ++ (bb ++ mb)).length = pos + b.length + bb.length + mb.length := by
        simp only [List.length_append]; omega
      rw [hlen]
      by_cases hg : more = []
      · subst hg
        cases hgs'
        cases k1
        exact ⟨_, _, _, _, hB', by rw [hbrt]; rfl, by simpa using q9⟩
      · obtain ⟨base', z, pf', P, k4, k5, k6⟩ := k3 hg
        exact ⟨base', z, pf', P, k4, k5, k6⟩

theorem gop_starts {W H base : Nat} {σ : Option Ctx} {prev : Option Image} {pos : Nat} {gs : List CGroup}
    {bits : List Bool} {imgs : List Image} (hent : ClosedGop gs) (h : GroupsCode W H base σ prev pos gs bits imgs) :
    ∃ u, bits = bitsOf 32 0x1B8 ++ u := by
  obtain ⟨g, more, rfl, g1, g2, g3, g4⟩ := hent
  cases h with
  | @cons _ base0 _ _ _ _ _ b bb mb imgs rest' y z hok hkind hbase0 htr hctx hparts hbs hgs =>
    have h' : Parts pos (seqParts g.ref ++ gopParts g.ref ++ picParts g.ref y ⟨prev, none⟩ W H) b := hparts
    unfold seqParts gopParts at h'
    rw [g1] at h'
    cases hq : g.ref.gop with
    | none => exact absurd hq g2
    | some q =>
      rw [hq] at h'
      obtain ⟨a, as, rfl, q1, _⟩ := parts_inv h'
      obtain ⟨r1, hr1⟩ := starts_gop q.hdr
      obtain ⟨u, hu⟩ := stuffed_starts (by decide) hr1 q1
      rw [hu, show (0x1B8 : Nat) = 0x100 + 0xB8 from rfl, code32_bits (by decide)]
      exact ⟨u ++ as ++ (bb ++ mb), by simp only [List.append_assoc]⟩

/-! ### the headers of a picture with damaged data -/

theorem pic_headers {W H : Nat} {x y : Ctx} {c : Coded} (hok : c.OK W H) {s : VS} (hat : At W H x s)
    (hy : y = { x with mats := c.items.foldl Item.loadRaster x.mats }) {pos fuel n : Nat}
    {bits rest : List Bool} (hp : Parts pos [Stuffed (encPic c.hdr), Stuffed (encPicExt c.ext), ItemsPart 2 c.items] bits)
    (ha : pos % 8 = 0) (hf : bits.length + 1 ≤ fuel) (hn : n < 256) (hn5 : n ≠ 0xB5) (hn2 : n ≠ 0xB2)
    (hb : s.br = ⟨bits ++ (prefix1 ++ (bitsOf 8 n ++ rest)), pos, stop, later⟩) :
    ∃ s', (∀ m : Go VS Frame, (do pictureHeader; pictureCodingExtension; extensionAndUserData 2 fuel; m : Go VS Frame) s = m s') ∧
      At W H y s' ∧ s'.ph = some (viewPic c.hdr) ∧ s'.pce = some (viewPicExt c.ext) ∧ s'.fs = s.fs ∧
      s'.frameCounter = s.frameCounter ∧
      s'.br = ⟨prefix1 ++ (bitsOf 8 n ++ rest), pos + bits.length, stop, later⟩ ∧ (pos + bits.length) % 8 = 0 := by
  obtain ⟨b1, bs1, rfl, p1, hp⟩ := parts_inv hp
  obtain ⟨b2, bs2, rfl, p2, hp⟩ := parts_inv hp
  obtain ⟨b3, bs3, rfl, p3, hp⟩ := parts_inv hp
  have := parts_nil hp
  subst this
  have hlen : (b1 ++ (b2 ++ (b3 ++ []))).length = b1.length + b2.length + b3.length := by
    simp only [List.length_append, List.length_nil]; omega
  rw [hlen] at hf ⊢
  obtain ⟨R, hR⟩ : ∃ R, R = prefix1 ++ (bitsOf 8 n ++ rest) := ⟨_, rfl⟩
  have hbr : s.br = ⟨b1 ++ (b2 ++ (b3 ++ R)), pos, stop, later⟩ := by
    rw [hb, hR]; simp only [List.append_assoc, List.append_nil]
  -- picture header
  obtain ⟨r2, hr2⟩ := starts_picExt c.ext
  obtain ⟨u2, hu2⟩ := stuffed_starts (by decide) hr2 p2
  obtain ⟨t1, ht11, ht12, ht13, ht14⟩ := stuffed_tail p1 (bitsOf 8 0xB5 ++ (u2 ++ (b3 ++ R)))
  obtain ⟨sA, hsA⟩ : ∃ sA : VS, sA = { s with
      br := ⟨b2 ++ (b3 ++ R), pos + b1.length, stop, later⟩, ph := some (viewPic c.hdr) } := ⟨_, rfl⟩
  have e1 : pictureHeader s = (.ok (), sA) := by
    have h1 : s.br = ⟨encPic c.hdr ++ t1.bits, pos, stop, later⟩ := by
      rw [hbr, ← ht11, hu2]; simp only [List.append_assoc]
    have h2 := store_ok (m := readPictureHeader) (put := fun (s : VS) (x : Option PictureHeader) => { s with ph := x })
      (s := s) (a := viewPic c.hdr) (b := ⟨t1.bits, pos + (encPic c.hdr).length, stop, later⟩)
      (by rw [h1]; exact readPictureHeader_enc c.hdr hok.hdr) rfl (nextStartCode_tail t1 ht12)
    unfold pictureHeader
    rw [h2, ht13, hsA, hu2]
    simp only [List.append_assoc]
  -- picture coding extension
  obtain ⟨u3, hu3⟩ : ∃ u3, b3 ++ R = prefix1 ++ u3 := by
    rw [hR]; exact items_head p3 _
  obtain ⟨t2, ht21, ht22, ht23, ht24⟩ := stuffed_tail p2 u3
  obtain ⟨sB, hsB⟩ : ∃ sB : VS, sB = { s with
      br := ⟨b3 ++ R, pos + b1.length + b2.length, stop, later⟩, ph := some (viewPic c.hdr),
      pce := some (viewPicExt c.ext) } := ⟨_, rfl⟩
  have e2 : pictureCodingExtension sA = (.ok (), sB) := by
    have h1 : sA.br = ⟨encPicExt c.ext ++ t2.bits, pos + b1.length, stop, later⟩ := by
      rw [hsA, ← ht21, ← hu3]
    have h2 := store_ok (m := readPictureCodingExtension)
      (put := fun (s : VS) (x : Option PictureCodingExtension) => { s with pce := x })
      (s := sA) (a := viewPicExt c.ext) (b := ⟨t2.bits, pos + b1.length + (encPicExt c.ext).length, stop, later⟩)
      (by rw [h1]; exact readPictureCodingExtension_enc c.ext hok.ext) rfl (nextStartCode_tail t2 ht22)
    unfold pictureCodingExtension
    rw [h2, ht23, hsB, hsA, hu3]
  -- extensions
  have hl := items_length p3
  obtain ⟨sC, hsC⟩ : ∃ sC : VS, sC = { s with
      br := ⟨R, pos + b1.length + b2.length + b3.length, stop, later⟩, ph := some (viewPic c.hdr),
      pce := some (viewPicExt c.ext), qm := y.mats.qm } := ⟨_, rfl⟩
  have e3 : extensionAndUserData 2 fuel sB = (.ok (), sC) := by
    have hi := items_run (stop := stop) (later := later) (i := 2) (c := n) hn hn5 hn2 (rest := rest) p3 ht24
      (s := sB) (q := x.mats) (by rw [hsB]; exact hat.qm) (by rw [hsB, hR])
      (fuel := fuel) (by omega)
    rw [hi, hsC, hsB, hy, hR, loads_same hok.items]
  have hal3 := items_aligned p3 ht24
  have hyv : viewSeq y.seq = viewSeq x.seq ∧ viewSeqExt y.ext = viewSeqExt x.ext := by rw [hy]; exact ⟨rfl, rfl⟩
  refine ⟨sC, fun m => by rw [Go.bind_ok e1, Go.bind_ok e2, Go.bind_ok e3], ?_, by rw [hsC], by rw [hsC], by rw [hsC], by rw [hsC], ?_, ?_⟩
  · rw [hsC]
    refine ⟨?_, by rw [hyv.1]; exact hat.sh, by rw [hyv.2]; exact hat.se, rfl⟩
    rw [hy, loads_same hok.items]
    exact good_items hat.good (items_ok p3)
  · rw [hsC, hR]; simp only [Nat.add_assoc]
  · simp only [← Nat.add_assoc]; exact hal3

/-- A picture whose headers are intact: the outcome of the step is that of the decoding of its data. -/
theorem headers_step {W H : Nat} {σ : Option Ctx} {y : Ctx} {c : Coded} (hok : c.OK W H) {s : VS}
    (hat : c.seq = none → AtO W H σ s) (hy : c.ctx σ = some y) {pos k n fuel : Nat} {bits rest : List Bool}
    (hk : s.sh ≠ none → k = 0) (hp : Parts pos c.headers bits) (ha : pos % 8 = 0) (hpos : 8 * k ≤ pos)
    (hf : bits.length + 1 ≤ fuel) (hn : n < 256) (hn5 : n ≠ 0xB5) (hn2 : n ≠ 0xB2)
    (hb : s.br = ⟨zeros (8 * k) ++ (bits ++ (prefix1 ++ (bitsOf 8 n ++ rest))), pos - 8 * k, stop, later⟩) :
    ∃ s1, step fuel s = pictureStep s1 ∧ At W H y s1 ∧ s1.ph = some (viewPic c.hdr) ∧ s1.pce = some (viewPicExt c.ext) ∧
      s1.fs = s.fs.entered c.gop.isSome ∧ s1.frameCounter = (if c.gop.isSome then 0 else s.frameCounter) ∧
      s1.br = ⟨prefix1 ++ (bitsOf 8 n ++ rest), pos + bits.length, stop, later⟩ ∧ (pos + bits.length) % 8 = 0 := by
  have hp' : Parts pos (seqParts c ++ gopParts c ++ [Stuffed (encPic c.hdr), Stuffed (encPicExt c.ext), ItemsPart 2 c.items]) bits := hp
  rw [List.append_assoc] at hp'
  obtain ⟨b1, bs, rfl, hp1, hp'⟩ := parts_split hp'
  obtain ⟨b2, b3, rfl, hp2, hp3⟩ := parts_split hp'
  obtain ⟨x, hx, hxy⟩ : ∃ x, seqCtx σ c = some x ∧ y = { x with mats := c.items.foldl Item.loadRaster x.mats } := by
    have hy' : (seqCtx σ c).map (fun x : Ctx => { x with mats := c.items.foldl Item.loadRaster x.mats }) = some y := hy
    obtain ⟨x, h1, h2⟩ := Option.map_eq_some_iff.1 hy'
    exact ⟨x, h1, h2.symm⟩
  obtain ⟨r3, hr3⟩ := starts_pic c.hdr
  obtain ⟨u3, hu3⟩ : ∃ u, b3 = prefix1 ++ (bitsOf 8 0 ++ u) := by
    obtain ⟨a, as, rfl, q1, _⟩ := parts_inv hp3
    obtain ⟨u, hu⟩ := stuffed_starts (by decide) hr3 q1
    rw [hu]; simp only [List.append_assoc]; exact ⟨_, rfl⟩
  obtain ⟨R, hR⟩ : ∃ R, R = prefix1 ++ (bitsOf 8 n ++ rest) := ⟨_, rfl⟩
  have hal1 : (pos + b1.length) % 8 = 0 := by
    unfold seqParts at hp1
    cases hq : c.seq with
    | none =>
      rw [hq] at hp1
      have := parts_nil hp1
      subst this
      simpa using ha
    | some q =>
      rw [hq] at hp1
      obtain ⟨c1, d1, rfl, q1, hp1⟩ := parts_inv hp1
      obtain ⟨c2, d2, rfl, q2, hp1⟩ := parts_inv hp1
      obtain ⟨c3, d3, rfl, q3, hp1⟩ := parts_inv hp1
      have := parts_nil hp1
      subst this
      obtain ⟨_, _, _, _, h2⟩ := stuffed_tail q2 []
      have := items_aligned q3 h2
      simp only [List.length_append, List.length_nil] at this ⊢
      omega
  obtain ⟨m, v, hm, hmv, hmg⟩ : ∃ m v, (m = 0 ∨ m = 0xB8) ∧ b2 ++ (b3 ++ R) = prefix1 ++ (bitsOf 8 m ++ v) ∧
      c.gop.isSome = (m == 0xB8) := by
    unfold gopParts at hp2
    cases hg : c.gop with
    | none =>
      rw [hg] at hp2
      have := parts_nil hp2
      subst this
      exact ⟨0, u3 ++ R, .inl rfl, by rw [hu3]; simp only [List.append_assoc, List.nil_append], rfl⟩
    | some g =>
      rw [hg] at hp2
      obtain ⟨c1, d1, rfl, q1, _⟩ := parts_inv hp2
      obtain ⟨r1, hr1⟩ := starts_gop g.hdr
      obtain ⟨u1, hu1⟩ := stuffed_starts (by decide) hr1 q1
      exact ⟨0xB8, u1 ++ (d1 ++ (b3 ++ R)), .inr rfl, by rw [hu1]; simp only [List.append_assoc], rfl⟩
  simp only [List.length_append] at hf
  obtain ⟨s1, e1, at1, fs1, fc1, br1⟩ := toPicture_run (stop := stop) (later := later) hok hat hx hk hp1 hm ha hpos
    (fuel := fuel) (by omega) (rest := v) (by rw [hb, ← hmv, hR]; simp only [List.append_assoc])
  have br1' : s1.br = ⟨b2 ++ (prefix1 ++ (bitsOf 8 0 ++ (u3 ++ R))), pos + b1.length, stop, later⟩ := by
    rw [br1, ← hmv, hu3]; simp only [List.append_assoc]
  obtain ⟨s2, e2, at2, fs2, br2, al2⟩ := group_run (stop := stop) (later := later) hok at1 hp2 hal1
    (fuel := fuel) (by omega) br1'
  have hpk : (s1.br.bits.take 32 == bitsOf 32 groupStartCode) = c.gop.isSome := by
    rw [br1, hmg]
    dsimp only
    rw [← List.append_assoc, ← code32_bits (by omega), List.take_append_of_le_length (by rw [length_bitsOf]),
      List.take_of_length_le (by rw [length_bitsOf])]
    rcases hm with rfl | rfl
    · decide
    · decide
  have hfc2 : s2.frameCounter = (if c.gop.isSome then 0 else s1.frameCounter) := by
    have := (groupHeader_ok e2).2
    rw [hpk] at this
    exact this
  obtain ⟨s3, e3, at3, ph3, pc3, fs3, fc3, br3, al3⟩ := pic_headers (stop := stop) (later := later) hok at2 hxy hp3 al2
    (fuel := fuel) (by omega) hn hn5 hn2 (rest := rest) (by rw [br2, ← hR, hu3]; simp only [List.append_assoc])
  refine ⟨s3, ?_, at3, ph3, pc3, by rw [fs3, fs2, fs1], by rw [fc3, hfc2, fc1], ?_, ?_⟩
  · rw [step_of_toPicture e1]
    unfold moreFrames
    rw [Go.bind_ok e2]
    exact e3 _
  · rw [br3]; simp only [List.length_append, Nat.add_assoc]
  · simp only [List.length_append, Nat.add_assoc] at al3 ⊢; exact al3

/-- The picture data fail: everything but the reader, the picture's headers and the references is as after the headers. -/
theorem pictureStep_fails {r : Res Frame} {s s' : VS} {ph : PictureHeader} (h : s.ph = some ph)
    (hd : ∀ f, (pictureData { s with fs := s.fs.set ph.temporalReference }).1 ≠ .ok f) (hs : pictureStep s = (r, s')) :
    (∀ f, r ≠ .ok f) ∧ ∃ br, s' = { s with fs := s.fs.set ph.temporalReference, br := br } := by
  unfold pictureStep at hs
  rw [Go.bind_ok (Go.get_apply s), h] at hs
  dsimp only at hs
  rw [Go.bind_ok (Go.modify_apply ..)] at hs
  obtain ⟨br, hb⟩ := pictureData_state { s with fs := s.fs.set ph.temporalReference }
  cases hx : pictureData { s with fs := s.fs.set ph.temporalReference } with
  | mk q s1 =>
    rw [hx] at hd hb
    cases q with
    | ok f => exact absurd rfl (hd f)
    | err e =>
      rw [Go.bind_err hx] at hs
      cases hs
      exact ⟨fun f h => (by cases h), br, hb⟩
    | panic =>
      rw [Go.bind_panic hx] at hs
      cases hs
      exact ⟨fun f h => (by cases h), br, hb⟩
    | hang =>
      rw [Go.bind_hang hx] at hs
      cases hs
      exact ⟨fun f h => (by cases h), br, hb⟩

theorem headers_start {c : Coded} {pos : Nat} {b : List Bool} (h : Parts pos c.headers b) :
    ∃ n t, n < 256 ∧ ¬ (1 ≤ n ∧ n ≤ 0xAF) ∧ b = prefix1 ++ (bitsOf 8 n ++ t) := by
  have h' : Parts pos (seqParts c ++ gopParts c ++ [Stuffed (encPic c.hdr), Stuffed (encPicExt c.ext), ItemsPart 2 c.items]) b := h
  unfold seqParts gopParts at h'
  cases hs : c.seq with
  | some q =>
    rw [hs] at h'
    obtain ⟨a, as, rfl, q1, _⟩ := parts_inv h'
    obtain ⟨r1, hr1⟩ := starts_seq q.hdr
    obtain ⟨u, hu⟩ := stuffed_starts (by decide) hr1 q1
    exact ⟨0xB3, u ++ as, by decide, by decide, by rw [hu]; simp only [List.append_assoc]⟩
  | none =>
    rw [hs] at h'
    cases hg : c.gop with
    | some q =>
      rw [hg] at h'
      obtain ⟨a, as, rfl, q1, _⟩ := parts_inv h'
      obtain ⟨r1, hr1⟩ := starts_gop q.hdr
      obtain ⟨u, hu⟩ := stuffed_starts (by decide) hr1 q1
      exact ⟨0xB8, u ++ as, by decide, by decide, by rw [hu]; simp only [List.append_assoc]⟩
    | none =>
      rw [hg] at h'
      obtain ⟨a, as, rfl, q1, _⟩ := parts_inv h'
      obtain ⟨r1, hr1⟩ := starts_pic c.hdr
      obtain ⟨u, hu⟩ := stuffed_starts (by decide) hr1 q1
      exact ⟨0, u ++ as, by decide, by decide, by rw [hu]; simp only [List.append_assoc]⟩

end Mpeg.Video
