/-
Intra field pictures with their headers are decoded by one step.
-/
import Verif.Video.FieldLemmas2
set_option linter.all false
namespace Mpeg.Video
open Spec

variable {stop : Err} {later : List (List Bool × Err)}

def fieldPicParts (c : Coded) (x : Ctx) (W H : Nat) : List Part :=
  [Stuffed (encPic c.hdr), Stuffed (encPicExt c.ext), ItemsPart 2 c.items,
   fun pos b => SlicesCode (x.env c.asFrame) ⟨none, none⟩ W H pos blank c.slices b]

theorem fieldPic_run {W H : Nat} {x y : Ctx} {c : Coded} (hf' : c.FieldOK W H) {s : VS} (hat : At W H x s)
    (hy : y = { x with mats := c.items.foldl Item.loadRaster x.mats }) {pos fuel n : Nat}
    {bits rest : List Bool} (hp : Parts pos (fieldPicParts c y W H) bits) (ha : pos % 8 = 0)
    (hf : bits.length + 1 ≤ fuel) (hn : n < 256) (hns : ¬ (1 ≤ n ∧ n ≤ 0xAF))
    (hb : s.br = ⟨bits ++ (prefix1 ++ (bitsOf 8 n ++ rest)), pos, stop, later⟩) :
    ∃ f s', (do pictureHeader; pictureCodingExtension; extensionAndUserData 2 fuel; pictureStep : Go VS Frame) s =
        (.ok f, s') ∧ At W H y s' ∧ s'.ph = some (viewPic c.hdr) ∧
      s'.br = ⟨prefix1 ++ (bitsOf 8 n ++ rest), pos + bits.length, stop, later⟩ ∧ (pos + bits.length) % 8 = 0 ∧
      Shows W H f (c.field y) := by
  have hok := hf'.ok
  let r : RefPics := ⟨none, none⟩
  obtain ⟨b1, bs1, rfl, p1, hp⟩ := parts_inv hp
  obtain ⟨b2, bs2, rfl, p2, hp⟩ := parts_inv hp
  obtain ⟨b3, bs3, rfl, p3, hp⟩ := parts_inv hp
  obtain ⟨b4, bs4, rfl, p4, hp⟩ := parts_inv hp
  have := parts_nil hp
  subst this
  have hlen : (b1 ++ (b2 ++ (b3 ++ (b4 ++ [])))).length = b1.length + b2.length + b3.length + b4.length := by
    simp only [List.length_append, List.length_nil]; omega
  rw [hlen] at hf ⊢
  obtain ⟨R, hR⟩ : ∃ R, R = prefix1 ++ (bitsOf 8 n ++ rest) := ⟨_, rfl⟩
  have hbr : s.br = ⟨b1 ++ (b2 ++ (b3 ++ (b4 ++ R))), pos, stop, later⟩ := by
    rw [hb, hR]; simp only [List.append_assoc, List.append_nil]
  -- the slices
  obtain ⟨sl, sls, hsl⟩ : ∃ sl sls, c.slices = sl :: sls := by
    cases h : c.slices with
    | nil => exact absurd h hok.slices
    | cons sl sls => exact ⟨sl, sls, rfl⟩
  obtain ⟨hrow, u4, hu4⟩ : sl.row < 175 ∧ ∃ t, b4 = prefix1 ++ (bitsOf 8 (1 + sl.row) ++ t) := by
    have p4' : SlicesCode (y.env c.asFrame) ⟨none, none⟩ W H (pos + b1.length + b2.length + b3.length) blank c.slices b4 := p4
    rw [hsl] at p4'
    exact slices_start p4'
  -- picture header
  obtain ⟨r2, hr2⟩ := starts_picExt c.ext
  obtain ⟨u2, hu2⟩ := stuffed_starts (by decide) hr2 p2
  obtain ⟨t1, ht11, ht12, ht13, ht14⟩ := stuffed_tail p1 (bitsOf 8 0xB5 ++ (u2 ++ (b3 ++ (b4 ++ R))))
  obtain ⟨sA, hsA⟩ : ∃ sA : VS, sA = { s with
      br := ⟨b2 ++ (b3 ++ (b4 ++ R)), pos + b1.length, stop, later⟩, ph := some (viewPic c.hdr) } := ⟨_, rfl⟩
  have e1 : pictureHeader s = (.ok (), sA) := by
    have h1 : s.br = ⟨encPic c.hdr ++ t1.bits, pos, stop, later⟩ := by
      rw [hbr, ← ht11, hu2]; simp only [List.append_assoc]
    have h2 := store_ok (m := readPictureHeader) (put := fun (s : VS) (x : Option PictureHeader) => { s with ph := x })
      (s := s) (a := viewPic c.hdr) (b := ⟨t1.bits, pos + (encPic c.hdr).length, stop, later⟩)
      (by rw [h1]; exact readPictureHeader_enc c.hdr hok.hdr) rfl (nextStartCode_tail t1 ht12)
    unfold pictureHeader
    rw [h2, ht13, hsA, hu2]
    simp only [List.append_assoc]
  -- picture coding extension
  obtain ⟨u3, hu3⟩ : ∃ u3, b3 ++ (b4 ++ R) = prefix1 ++ u3 := by
    rw [hu4]; simp only [List.append_assoc]; exact items_head p3 _
  obtain ⟨t2, ht21, ht22, ht23, ht24⟩ := stuffed_tail p2 u3
  obtain ⟨sB, hsB⟩ : ∃ sB : VS, sB = { s with
      br := ⟨b3 ++ (b4 ++ R), pos + b1.length + b2.length, stop, later⟩, ph := some (viewPic c.hdr),
      pce := some (viewPicExt c.ext) } := ⟨_, rfl⟩
  have e2 : pictureCodingExtension sA = (.ok (), sB) := by
    have h1 : sA.br = ⟨encPicExt c.ext ++ t2.bits, pos + b1.length, stop, later⟩ := by
      rw [hsA, ← ht21, ← hu3]
    have h2 := store_ok (m := readPictureCodingExtension)
      (put := fun (s : VS) (x : Option PictureCodingExtension) => { s with pce := x })
      (s := sA) (a := viewPicExt c.ext) (b := ⟨t2.bits, pos + b1.length + (encPicExt c.ext).length, stop, later⟩)
      (by rw [h1]; exact readPictureCodingExtension_enc c.ext hf'.ext) rfl (nextStartCode_tail t2 ht22)
    unfold pictureCodingExtension
    rw [h2, ht23, hsB, hsA, hu3]
  -- extensions
  have hl := items_length p3
  obtain ⟨sC, hsC⟩ : ∃ sC : VS, sC = { s with
      br := ⟨b4 ++ R, pos + b1.length + b2.length + b3.length, stop, later⟩, ph := some (viewPic c.hdr),
      pce := some (viewPicExt c.ext), qm := y.mats.qm } := ⟨_, rfl⟩
  have e3 : extensionAndUserData 2 fuel sB = (.ok (), sC) := by
    have hi := items_run (stop := stop) (later := later) (i := 2) (c := 1 + sl.row) (by omega) (by omega) (by omega) (rest := u4 ++ R) p3 ht24
      (s := sB) (q := x.mats) (by rw [hsB]; exact hat.qm) (by rw [hsB, hu4]; simp only [List.append_assoc])
      (fuel := fuel) (by omega)
    rw [hi, hsC, hsB, hy, hu4, loads_same (its := c.items) hok.items]
    simp only [List.append_assoc]
  have hal3 := items_aligned p3 ht24
  have hyv : viewSeq y.seq = viewSeq x.seq ∧ viewSeqExt y.ext = viewSeqExt x.ext := by rw [hy]; exact ⟨rfl, rfl⟩
  have hatC : At W H y sC := by
    rw [hsC]
    refine ⟨?_, by rw [hyv.1]; exact hat.sh, by rw [hyv.2]; exact hat.se, rfl⟩
    rw [hy, loads_same (its := c.items) hok.items]
    exact good_items hat.good (items_ok p3)
  -- the picture
  obtain ⟨k1, k2⟩ := viewPic_kind (h := c.hdr) hok.hdr
  obtain ⟨sD, hsD⟩ : ∃ sD : VS, sD = { sC with fs := sC.fs.set c.hdr.temporal } := ⟨_, rfl⟩
  have hfsD : sD.fs = s.fs.set c.hdr.temporal := by rw [hsD, hsC]
  have hatD : At W H y sD := at_lift hatC (by rw [hsD]) (by rw [hsD]) (by rw [hsD])
  obtain ⟨sE0, hsE0⟩ : ∃ sE0 : VS, sE0 = { sD with pce := some (asFrameExt (viewPicExt c.ext)) } := ⟨_, rfl⟩
  have hatE : At W H y sE0 := at_lift hatD (by rw [hsE0]) (by rw [hsE0]) (by rw [hsE0])
  have henv : sE0.env (viewSeq y.seq) (viewSeqExt y.ext) (viewPic c.hdr) (asFrameExt (viewPicExt c.ext)) =
      (y.env c.asFrame).refs sE0.fs.past sE0.fs.future := by
    unfold VS.env PicEnv.refs Ctx.env
    rw [hatE.qm]
    rfl
  have hk1 : (viewPic c.hdr).pictureCodingType = 1 := k1.trans hf'.kind
  have hmF : ∀ sl ∈ c.slices, ∀ m ∈ sl.mbs, m.type.forward = true → True := fun _ _ _ _ _ => trivial
  have hsame : SameIf True (y.env c.asFrame) r r := ⟨fun _ _ => rfl, fun _ => rfl⟩
  obtain ⟨c1, c2⟩ := slices_same (p := sE0.fs.past) (f := sE0.fs.future) hsame (fun _ => trivial) hmF p4
  obtain ⟨z1, z2⟩ := at_size hatE
  obtain ⟨f, g1, g2⟩ := pictureData_run (stop := stop) (later := later) (s := sE0) (r := r) (W := W) (H := H) (c := n) (rest := rest)
    (sls := c.slices) (bits := b4) (pos := pos + b1.length + b2.length + b3.length)
    hatE.sh hatE.se (ph := viewPic c.hdr) (by rw [hsE0, hsD, hsC]) (pce := asFrameExt (viewPicExt c.ext)) (by rw [hsE0]) z1 z2
    (by rw [henv]; exact covered hatE.good hok _ _)
    (F := True) (by rw [henv]; exact ⟨fun h _ => absurd hk1 h, fun h => absurd (hk1.symm.trans h) (by decide)⟩)
    (fun _ => trivial) (fun Q hQ => by cases hQ) (fun Q hQ => by cases hQ) hn hns hmF hok.slices
    (by rw [henv]; exact c1) (by rw [hsE0, hsD, hsC, hR])
  have g1 : pictureData sD = (.ok f, { sD with
      br := ⟨prefix1 ++ (bitsOf 8 n ++ rest), pos + b1.length + b2.length + b3.length + b4.length, stop, later⟩ }) := by
    have hpce : sD.pce = some (viewPicExt c.ext) := by rw [hsD, hsC]
    rw [pictureData_field (ph := viewPic c.hdr) (by rw [hsD, hsC]) hpce hk1
      (by
        show c.ext.structure_ ≠ 3
        rcases hf'.structure_ with h | h <;> rw [h] <;> decide) hf'.conceal, ← hsE0, g1, hsE0, ← hpce]
  rw [henv, c2] at g2
  obtain ⟨sE, hsE⟩ : ∃ sE : VS, sE = { sD with
      br := ⟨prefix1 ++ (bitsOf 8 n ++ rest), pos + b1.length + b2.length + b3.length + b4.length, stop, later⟩ } := ⟨_, rfl⟩
  rw [← hsE] at g1
  obtain ⟨sF, hsF⟩ : ∃ sF : VS, sF = if c.hdr.kind.code = 1 ∨ c.hdr.kind.code = 2 then
      { sE with fs := sE.fs.add f c.hdr.temporal } else sE := ⟨_, rfl⟩
  have e4 : pictureStep sC = (.ok f, sF) := by
    unfold pictureStep
    rw [Go.bind_ok (Go.get_apply _)]
    have : sC.ph = some (viewPic c.hdr) := by rw [hsC]
    rw [this]
    dsimp only
    rw [Go.bind_ok (Go.modify_apply _ _), k1, k2, ← hsD, Go.bind_ok g1, Go.bind_ok (Go.modify_apply _ _), hsF]
    rfl
  have hsl4 := slices_pos p4 hok.slices
  refine ⟨f, sF, by rw [Go.bind_ok e1, Go.bind_ok e2, Go.bind_ok e3, e4], ?_, ?_, ?_, ?_, g2⟩
  · rw [hsF]; split <;> rw [hsE] <;> exact at_lift hatD rfl rfl rfl
  · rw [hsF]; split <;> rw [hsE, hsD, hsC]
  · rw [hsF]; split <;> rw [hsE] <;> simp only [Nat.add_assoc]
  · unfold padding at hsl4
    omega

/-- One step decodes a field picture. -/
theorem fieldPicture_run {W H : Nat} {σ : Option Ctx} {y : Ctx} {c : Coded} (hf' : c.FieldOK W H) {s : VS}
    (hat : c.seq = none → AtO W H σ s) (hy : c.ctx σ = some y) {pos k n fuel : Nat} {bits rest : List Bool}
    (hk : s.sh ≠ none → k = 0)
    (hp : Parts pos (c.fieldParts y W H) bits) (ha : pos % 8 = 0) (hpos : 8 * k ≤ pos) (hf : bits.length + 1 ≤ fuel)
    (hn : n < 256) (hns : ¬ (1 ≤ n ∧ n ≤ 0xAF))
    (hb : s.br = ⟨zeros (8 * k) ++ (bits ++ (prefix1 ++ (bitsOf 8 n ++ rest))), pos - 8 * k, stop, later⟩) :
    ∃ f s1 s', step fuel s = (.ok f, s') ∧ toPicture fuel s = (.ok (), s1) ∧
      (s1.br.bits.take 32 == bitsOf 32 groupStartCode) = c.gop.isSome ∧ At W H y s' ∧
      s'.ph = some (viewPic c.hdr) ∧
      s'.br = ⟨prefix1 ++ (bitsOf 8 n ++ rest), pos + bits.length, stop, later⟩ ∧ (pos + bits.length) % 8 = 0 ∧
      Shows W H f (c.field y) := by
  have hok := hf'.ok
  have hp' : Parts pos (seqParts c ++ gopParts c ++ fieldPicParts c y W H) bits := hp
  rw [List.append_assoc] at hp'
  obtain ⟨b1, bs, rfl, hp1, hp'⟩ := parts_split hp'
  obtain ⟨b2, b3, rfl, hp2, hp3⟩ := parts_split hp'
  -- the code after the sequence headers
  obtain ⟨x, hx, hxy⟩ : ∃ x, seqCtx σ c = some x ∧ y = { x with mats := c.items.foldl Item.loadRaster x.mats } := by
    have hy' : (seqCtx σ c).map (fun x : Ctx => { x with mats := c.items.foldl Item.loadRaster x.mats }) = some y := hy
    obtain ⟨x, h1, h2⟩ := Option.map_eq_some_iff.1 hy'
    exact ⟨x, h1, h2.symm⟩
  obtain ⟨r3, hr3⟩ := starts_pic c.hdr
  obtain ⟨u3, hu3⟩ : ∃ u, b3 = prefix1 ++ (bitsOf 8 0 ++ u) := by
    obtain ⟨a, as, rfl, q1, _⟩ := parts_inv hp3
    obtain ⟨u, hu⟩ := stuffed_starts (by decide) hr3 q1
    rw [hu]; simp only [List.append_assoc]; exact ⟨_, rfl⟩
  obtain ⟨R, hR⟩ : ∃ R, R = prefix1 ++ (bitsOf 8 n ++ rest) := ⟨_, rfl⟩
  have hal1 : (pos + b1.length) % 8 = 0 := by
    unfold seqParts at hp1
    cases hq : c.seq with
    | none =>
      rw [hq] at hp1
      have := parts_nil hp1
      subst this
      simpa using ha
    | some q =>
      rw [hq] at hp1
      obtain ⟨c1, d1, rfl, q1, hp1⟩ := parts_inv hp1
      obtain ⟨c2, d2, rfl, q2, hp1⟩ := parts_inv hp1
      obtain ⟨c3, d3, rfl, q3, hp1⟩ := parts_inv hp1
      have := parts_nil hp1
      subst this
      obtain ⟨_, _, _, _, h2⟩ := stuffed_tail q2 []
      have := items_aligned q3 h2
      simp only [List.length_append, List.length_nil] at this ⊢
      omega
  obtain ⟨m, v, hm, hmv, hmg⟩ : ∃ m v, (m = 0 ∨ m = 0xB8) ∧ b2 ++ (b3 ++ R) = prefix1 ++ (bitsOf 8 m ++ v) ∧
      c.gop.isSome = (m == 0xB8) := by
    unfold gopParts at hp2
    cases hg : c.gop with
    | none =>
      rw [hg] at hp2
      have := parts_nil hp2
      subst this
      exact ⟨0, u3 ++ R, .inl rfl, by rw [hu3]; simp only [List.append_assoc, List.nil_append], rfl⟩
    | some g =>
      rw [hg] at hp2
      obtain ⟨c1, d1, rfl, q1, _⟩ := parts_inv hp2
      obtain ⟨r1, hr1⟩ := starts_gop g.hdr
      obtain ⟨u1, hu1⟩ := stuffed_starts (by decide) hr1 q1
      exact ⟨0xB8, u1 ++ (d1 ++ (b3 ++ R)), .inr rfl, by rw [hu1]; simp only [List.append_assoc], rfl⟩
  simp only [List.length_append] at hf
  obtain ⟨s1, e1, at1, fs1, _, br1⟩ := toPicture_run (stop := stop) (later := later) (c := c.asFrame) hok hat hx hk hp1 hm ha hpos
    (fuel := fuel) (by omega) (rest := v) (by rw [hb, ← hmv, hR]; simp only [List.append_assoc])
  have br1' : s1.br = ⟨b2 ++ (prefix1 ++ (bitsOf 8 0 ++ (u3 ++ R))), pos + b1.length, stop, later⟩ := by
    rw [br1, ← hmv, hu3]; simp only [List.append_assoc]
  obtain ⟨s2, e2, at2, fs2, br2, al2⟩ := group_run (stop := stop) (later := later) (c := c.asFrame) hok at1 hp2 hal1
    (fuel := fuel) (by omega) br1'
  obtain ⟨f, s', e3, at3, ph3, br3, al3, sh3⟩ := fieldPic_run (stop := stop) (later := later) hf' at2 hxy hp3 al2
    (fuel := fuel) (by omega) hn hns (rest := rest)
    (by rw [br2, ← hR, hu3]; simp only [List.append_assoc])
  refine ⟨f, s1, s', ?_, e1, ?_, at3, ph3, ?_, ?_, sh3⟩
  · rw [step_of_toPicture e1]
    unfold moreFrames
    rw [Go.bind_ok e2]
    exact e3
  · rw [br1, hmg]
    dsimp only
    rw [← List.append_assoc, ← code32_bits (by omega), List.take_append_of_le_length (by rw [length_bitsOf]; exact Nat.le_refl _),
      List.take_of_length_le (by rw [length_bitsOf]; exact Nat.le_refl _)]
    rcases hm with rfl | rfl
    · decide
    · decide
  · rw [br3]; simp only [List.length_append, Nat.add_assoc]
  · simp only [List.length_append, Nat.add_assoc] at al3 ⊢; exact al3

/-- A decoded field picture as an element of `Run`. -/
theorem fieldPict_run {W H : Nat} {σ : Option Ctx} {y : Ctx} {c : Coded} (hf' : c.FieldOK W H) {s : VS}
    (hat : c.seq = none → AtO W H σ s) (hy : c.ctx σ = some y) {pos k n fuel : Nat} {bits rest : List Bool}
    (hk : s.sh ≠ none → k = 0)
    (hp : Parts pos (c.fieldParts y W H) bits) (ha : pos % 8 = 0) (hpos : 8 * k ≤ pos) (hf : bits.length + 1 ≤ fuel)
    (hn : n < 256) (hns : ¬ (1 ≤ n ∧ n ≤ 0xAF))
    (hb : s.br = ⟨zeros (8 * k) ++ (bits ++ (prefix1 ++ (bitsOf 8 n ++ rest))), pos - 8 * k, stop, later⟩) :
    ∃ p s', Eff fuel p s s' ∧ (∀ ps t, Run fuel s' ps t → Run fuel s (p :: ps) t) ∧ p.newGop = c.gop.isSome ∧
      p.kind = c.hdr.kind.code ∧ p.tr = c.hdr.temporal ∧ At W H y s' ∧
      s'.br = ⟨prefix1 ++ (bitsOf 8 n ++ rest), pos + bits.length, stop, later⟩ ∧ (pos + bits.length) % 8 = 0 ∧
      Shows W H p.frame (c.field y) := by
  obtain ⟨f, s1, s', e1, e2, e3, e4, e5, e6, e7, e8⟩ := fieldPicture_run hf' hat hy hk hp ha hpos hf hn hns hb
  obtain ⟨k1, k2⟩ := viewPic_kind (h := c.hdr) hf'.ok.hdr
  obtain ⟨p, hpp⟩ : ∃ p : Pict, p = ⟨c.gop.isSome, c.hdr.kind.code, c.hdr.temporal, f, s'.fs.past, s'.fs.future⟩ := ⟨_, rfl⟩
  have hrun : ∀ ps t, Run fuel s' ps t → Run fuel s (p :: ps) t := by
    intro ps t ht
    rw [hpp]
    exact .cons e1 e2 e3.symm e5 k1.symm k2.symm rfl rfl ht
  obtain ⟨s2, he, hr2⟩ := (hrun [] s' (.nil s')).inv
  have h2 : s2 = s' := by cases hr2; rfl
  subst h2
  exact ⟨p, s2, he, hrun, by rw [hpp], by rw [hpp], by rw [hpp], e4, e6, e7, by rw [hpp]; exact e8⟩

end Mpeg.Video
