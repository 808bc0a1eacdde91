/-
Header fields that decoding does not depend on: reading the headers.
-/
import Verif.Video.DisplayLemmas2
import Verif.Video.StreamLemmas3
set_option linter.all false
namespace Mpeg.Video
open Spec _root_.Mpeg.BR
variable {stop : Err} {later : List (List Bool × Err)}

/-- the matrices after a sequence header, as the decoder stores them -/
def seqQm (h : Seq) : QMatrices :=
  ⟨h.intra.getD defaultIntra, h.nonIntra.getD defaultNonIntra, h.intra.getD defaultIntra, h.nonIntra.getD defaultNonIntra⟩
def qmMats (q : QMatrices) : Mats := ⟨q.m0, q.m1, q.m2, q.m3⟩
theorem qmMats_qm (q : QMatrices) : q = (qmMats q).qm := rfl

theorem seqHead_run {q : SeqPart} (w1 : q.hdr.WF) (w2 : q.ext.WF) (w3 : q.ext.marker = true) {b1 b2 b3 rest : List Bool}
    {pos c fuel : Nat} {s : VS}
    (h1 : Stuffed (encSeq q.hdr) pos b1) (h2 : Stuffed (encSeqExt q.ext) (pos + b1.length) b2)
    (h3 : ItemsPart 0 q.items (pos + b1.length + b2.length) b3) (hc : c < 256) (hc1 : c ≠ 0xB5) (hc2 : c ≠ 0xB2)
    (hf : b3.length + 1 ≤ fuel)
    (hb : s.br = ⟨b1 ++ (b2 ++ (b3 ++ (prefix1 ++ (bitsOf 8 c ++ rest)))), pos, stop, later⟩) :
    ∃ sA sB, sequenceHeader s = (.ok (), sA) ∧ VS.lift (BR.peek 32) sA = (.ok extensionStartCode, sA) ∧
      sequenceExtension sA = (.ok (), sB) ∧
      extensionAndUserData 0 fuel sB = (.ok (), { s with
        br := ⟨prefix1 ++ (bitsOf 8 c ++ rest), pos + b1.length + b2.length + b3.length, stop, later⟩
        sh := some (viewSeq q.hdr), se := some (viewSeqExt q.ext), qm := seqQm q.hdr }) := by
  obtain ⟨r2, hr2⟩ := starts_seqExt q.ext
  obtain ⟨u2, hu2⟩ := stuffed_starts (by decide) hr2 h2
  obtain ⟨u3, hu3⟩ := items_head h3 (bitsOf 8 c ++ rest)
  obtain ⟨t, ht1, ht2, ht3, ht4⟩ := stuffed_tail h1 (bitsOf 8 0xB5 ++ (u2 ++ (b3 ++ (prefix1 ++ (bitsOf 8 c ++ rest)))))
  have hb1 : s.br = ⟨encSeq q.hdr ++ t.bits, pos, stop, later⟩ := by
    rw [hb, ← ht1, hu2]; simp only [List.append_assoc]
  have e1 : sequenceHeader s = (.ok (), { s with
      br := ⟨b2 ++ (b3 ++ (prefix1 ++ (bitsOf 8 c ++ rest))), pos + b1.length, stop, later⟩
      sh := some (viewSeq q.hdr), qm := seqQm q.hdr }) := by
    unfold sequenceHeader
    rw [Go.bind_ok (lift_ok (by rw [hb1]; exact readSequenceHeader_enc q.hdr w1 t ht2)), Go.modify_apply, ht3]
    have e : ∀ (o : Option Mat) (d : Matrix), (if o.isSome = true then o.getD zeroMatrix else d) = o.getD d := by
      intro o d; cases o <;> rfl
    have k1 := e q.hdr.intra defaultIntra
    have k2 := e q.hdr.nonIntra defaultNonIntra
    unfold seqQm
    rw [← k1, ← k2, hu2]
    simp only [List.append_assoc]
    rfl
  obtain ⟨t', ht1', ht2', ht3', ht4'⟩ := stuffed_tail h2 u3
  rw [hu3, ht1'] at e1
  have e2 : sequenceExtension { s with
      br := ⟨encSeqExt q.ext ++ t'.bits, pos + b1.length, stop, later⟩
      sh := some (viewSeq q.hdr), qm := seqQm q.hdr } = (.ok (), { s with
      br := ⟨prefix1 ++ u3, pos + b1.length + b2.length, stop, later⟩
      sh := some (viewSeq q.hdr), qm := seqQm q.hdr, se := some (viewSeqExt q.ext) }) := by
    unfold sequenceExtension
    rw [← ht3' stop later]
    exact store_ok (a := viewSeqExt q.ext) (b := ⟨t'.bits, pos + b1.length + 80, stop, later⟩)
      (readSequenceExtension_enc q.ext w2 w3) rfl
      (by rw [← length_encSeqExt q.ext]; exact nextStartCode_tail t' ht2')
  rw [← hu3] at e2
  refine ⟨_, _, e1, ?_, e2, ?_⟩
  · refine vpeek_code (pos := pos + b1.length) (stop := stop) (later := later) _ (by decide) (t := r2 ++ t'.bits) ?_
    show (⟨encSeqExt q.ext ++ t'.bits, pos + b1.length, stop, later⟩ : BR) = _
    rw [hr2, List.append_assoc]
  · have hl := items_length h3
    have hi := items_run (i := 0) hc hc1 hc2 (rest := rest) h3 ht4' (s := { s with
      br := ⟨b3 ++ (prefix1 ++ (bitsOf 8 c ++ rest)), pos + b1.length + b2.length, stop, later⟩
      sh := some (viewSeq q.hdr), qm := seqQm q.hdr, se := some (viewSeqExt q.ext) }) (q := qmMats (seqQm q.hdr)) rfl rfl
      (fuel := fuel) (by omega)
    rw [hi, loads_none (i := 0) (by decide) (items_ok h3)]
    rfl

/-- the headers of a picture -/
theorem picHead_run {h : Heads} (w1 : h.hdr.WF) (w2 : h.ext.WF) {b1 b2 b3 rest : List Bool} {pos c fuel : Nat} {s : VS}
    (p1 : Stuffed (encPic h.hdr) pos b1) (p2 : Stuffed (encPicExt h.ext) (pos + b1.length) b2)
    (p3 : ItemsPart 2 h.items (pos + b1.length + b2.length) b3) (hc : c < 256) (hc1 : c ≠ 0xB5) (hc2 : c ≠ 0xB2)
    (hf : b3.length + 1 ≤ fuel)
    (hb : s.br = ⟨b1 ++ (b2 ++ (b3 ++ (prefix1 ++ (bitsOf 8 c ++ rest)))), pos, stop, later⟩) :
    (pos + b1.length + b2.length + b3.length) % 8 = 0 ∧
    (do pictureHeader; pictureCodingExtension; extensionAndUserData 2 fuel : Go VS Unit) s = (.ok (), { s with
        br := ⟨prefix1 ++ (bitsOf 8 c ++ rest), pos + b1.length + b2.length + b3.length, stop, later⟩
        ph := some (viewPic h.hdr), pce := some (viewPicExt h.ext), qm := (h.items.foldl Item.load (qmMats s.qm)).qm }) := by
  obtain ⟨r2, hr2⟩ := starts_picExt h.ext
  obtain ⟨u2, hu2⟩ := stuffed_starts (by decide) hr2 p2
  obtain ⟨R, hR⟩ : ∃ R, R = prefix1 ++ (bitsOf 8 c ++ rest) := ⟨_, rfl⟩
  rw [← hR] at hb
  obtain ⟨t1, ht11, ht12, ht13, ht14⟩ := stuffed_tail p1 (bitsOf 8 0xB5 ++ (u2 ++ (b3 ++ R)))
  obtain ⟨sA, hsA⟩ : ∃ sA : VS, sA = { s with
      br := ⟨b2 ++ (b3 ++ R), pos + b1.length, stop, later⟩, ph := some (viewPic h.hdr) } := ⟨_, rfl⟩
  have e1 : pictureHeader s = (.ok (), sA) := by
    have h1 : s.br = ⟨encPic h.hdr ++ t1.bits, pos, stop, later⟩ := by
      rw [hb, ← ht11, hu2]; simp only [List.append_assoc]
    have h2 := store_ok (m := readPictureHeader) (put := fun (s : VS) (x : Option PictureHeader) => { s with ph := x })
      (s := s) (a := viewPic h.hdr) (b := ⟨t1.bits, pos + (encPic h.hdr).length, stop, later⟩)
      (by rw [h1]; exact readPictureHeader_enc h.hdr w1) rfl (nextStartCode_tail t1 ht12)
    unfold pictureHeader
    rw [h2, ht13, hsA, hu2]
    simp only [List.append_assoc]
  obtain ⟨u3, hu3⟩ : ∃ u3, b3 ++ R = prefix1 ++ u3 := by rw [hR]; exact items_head p3 _
  obtain ⟨t2, ht21, ht22, ht23, ht24⟩ := stuffed_tail p2 u3
  obtain ⟨sB, hsB⟩ : ∃ sB : VS, sB = { s with
      br := ⟨b3 ++ R, pos + b1.length + b2.length, stop, later⟩, ph := some (viewPic h.hdr),
      pce := some (viewPicExt h.ext) } := ⟨_, rfl⟩
  have e2 : pictureCodingExtension sA = (.ok (), sB) := by
    have h1 : sA.br = ⟨encPicExt h.ext ++ t2.bits, pos + b1.length, stop, later⟩ := by
      rw [hsA, ← ht21, ← hu3]
    have h2 := store_ok (m := readPictureCodingExtension)
      (put := fun (s : VS) (x : Option PictureCodingExtension) => { s with pce := x })
      (s := sA) (a := viewPicExt h.ext) (b := ⟨t2.bits, pos + b1.length + (encPicExt h.ext).length, stop, later⟩)
      (by rw [h1]; exact readPictureCodingExtension_enc h.ext w2) rfl (nextStartCode_tail t2 ht22)
    unfold pictureCodingExtension
    rw [h2, ht23, hsB, hsA, hu3]
  have hl := items_length p3
  have hi := items_run (stop := stop) (later := later) (i := 2) (c := c) hc hc1 hc2 (rest := rest) p3 ht24
    (s := sB) (q := qmMats s.qm) (by rw [hsB]; rfl) (by rw [hsB, hR]) (fuel := fuel) (by omega)
  refine ⟨items_aligned p3 ht24, ?_⟩
  rw [Go.bind_ok e1, Go.bind_ok e2, hi, hsB]

/-- the group of pictures header -/
theorem gopHead_run {g : Option GopPart} {s : VS} {pos fuel : Nat}
    {bits rest : List Bool} (hp : Parts pos (match g with
      | some g => [Stuffed (encGOP g.hdr), ItemsPart 1 g.items]
      | none => []) bits) (w : ∀ x, g = some x → x.hdr.WF) (hf : bits.length + 1 ≤ fuel)
    (hb : s.br = ⟨bits ++ (prefix1 ++ (bitsOf 8 0 ++ rest)), pos, stop, later⟩) :
    ∃ s', groupHeader fuel s = (.ok (), s') ∧ s'.sh = s.sh ∧ s'.se = s.se ∧ s'.qm = s.qm ∧
      s'.fs = (if g.isSome then s.fs.markGOP else s.fs) ∧ s'.frameCounter = (if g.isSome then 0 else s.frameCounter) ∧
      s'.br = ⟨prefix1 ++ (bitsOf 8 0 ++ rest), pos + bits.length, stop, later⟩ := by
  cases g with
  | none =>
    have := parts_nil hp
    subst this
    refine ⟨s, ?_, rfl, rfl, rfl, rfl, rfl, hb⟩
    unfold groupHeader
    rw [Go.bind_ok (peek_at (c := 0) (by decide) hb)]
    rfl
  | some g =>
    obtain ⟨b1, bs1, rfl, p1, hp⟩ := parts_inv hp
    obtain ⟨b2, bs2, rfl, p2, hp⟩ := parts_inv hp
    have := parts_nil hp
    subst this
    obtain ⟨r1, hr1⟩ := starts_gop g.hdr
    obtain ⟨u1, hu1⟩ := stuffed_starts (by decide) hr1 p1
    obtain ⟨u2, hu2⟩ := items_head p2 (bitsOf 8 0 ++ rest)
    obtain ⟨t, ht1, ht2, ht3, ht4⟩ := stuffed_tail p1 u2
    have hlen : (b1 ++ (b2 ++ [])).length = b1.length + b2.length := by simp
    rw [hlen] at hf ⊢
    have hbr : s.br = ⟨b1 ++ (b2 ++ (prefix1 ++ (bitsOf 8 0 ++ rest))), pos, stop, later⟩ := by
      rw [hb]; simp only [List.append_assoc, List.append_nil]
    have hpk : VS.lift (BR.peek 32) s = (.ok groupStartCode, s) := by
      refine peek_at (c := 0xB8) (pos := pos) (stop := stop) (later := later) (by decide)
        (t := u1 ++ (b2 ++ (prefix1 ++ (bitsOf 8 0 ++ rest)))) ?_
      rw [hbr, hu1]; simp only [List.append_assoc]
    have e1 : VS.lift readGOPHeader s = (.ok ⟨timeOf g.hdr, g.hdr.closed, g.hdr.broken⟩,
        { s with br := ⟨b2 ++ (prefix1 ++ (bitsOf 8 0 ++ rest)), pos + b1.length, stop, later⟩ }) := by
      refine lift_ok ?_
      rw [hbr, hu2, ht1, readGOPHeader_enc g.hdr (w g rfl) t ht2, ht3]
    have hl := items_length p2
    have hi := items_run (i := 1) (c := 0) (by decide) (by decide) (by decide) (rest := rest) p2 ht4 (s := { s with
      br := ⟨b2 ++ (prefix1 ++ (bitsOf 8 0 ++ rest)), pos + b1.length, stop, later⟩
      gop := some ⟨timeOf g.hdr, g.hdr.closed, g.hdr.broken⟩, fs := s.fs.markGOP, frameCounter := 0 }) (q := qmMats s.qm)
      rfl rfl (fuel := fuel) (by omega)
    rw [loads_none (i := 1) (by decide) (items_ok p2)] at hi
    have hg : groupHeader fuel s = extensionAndUserData 1 fuel { s with
      br := ⟨b2 ++ (prefix1 ++ (bitsOf 8 0 ++ rest)), pos + b1.length, stop, later⟩
      gop := some ⟨timeOf g.hdr, g.hdr.closed, g.hdr.broken⟩, fs := s.fs.markGOP, frameCounter := 0 } := by
      unfold groupHeader
      rw [Go.bind_ok hpk, beq_self_eq_true, Go.opt_true, Go.bind_ok e1, Go.bind_ok (Go.modify_apply _ _)]
    exact ⟨_, hg.trans hi, rfl, rfl, rfl, rfl, rfl, by rw [Nat.add_assoc]⟩

/-- the state after the headers -/
structure AfterHeads (h : Heads) (s s' : VS) (bits : List Bool) (pos : Nat) (stop : Err) (later : List (List Bool × Err)) :
    Prop where
  br : s'.br = ⟨bits, pos, stop, later⟩
  aligned : pos % 8 = 0
  sh : s'.sh = match h.seq with | some q => some (viewSeq q.hdr) | none => s.sh
  se : s'.se = match h.seq with | some q => some (viewSeqExt q.ext) | none => s.se
  ph : s'.ph = some (viewPic h.hdr)
  pce : s'.pce = some (viewPicExt h.ext)
  qm : s'.qm = (h.items.foldl Item.load (qmMats (match h.seq with | some q => seqQm q.hdr | none => s.qm))).qm
  fs : s'.fs = if h.gop.isSome then s.fs.markGOP else s.fs
  counter : s'.frameCounter = if h.gop.isSome then 0 else s.frameCounter

/-- where the group of pictures header starts, or the picture header -/
theorem more_starts {h : Heads} {pos : Nat} {bits rest : List Bool}
    (hp : Parts pos ((match h.gop with
      | some g => [Stuffed (encGOP g.hdr), ItemsPart 1 g.items]
      | none => []) ++ [Stuffed (encPic h.hdr), Stuffed (encPicExt h.ext), ItemsPart 2 h.items]) bits) :
    ∃ n u, (n = 0 ∨ n = 0xB8) ∧ bits ++ rest = prefix1 ++ (bitsOf 8 n ++ u) := by
  cases hg : h.gop with
  | none =>
    rw [hg] at hp
    obtain ⟨b1, bs1, rfl, p1, hp⟩ := parts_inv hp
    obtain ⟨r, hr⟩ := starts_pic h.hdr
    obtain ⟨u, hu⟩ := stuffed_starts (by decide) hr p1
    exact ⟨0, u ++ (bs1 ++ rest), .inl rfl, by rw [hu]; simp only [List.append_assoc]⟩
  | some g =>
    rw [hg] at hp
    obtain ⟨b1, bs1, rfl, p1, hp⟩ := parts_inv hp
    obtain ⟨r, hr⟩ := starts_gop g.hdr
    obtain ⟨u, hu⟩ := stuffed_starts (by decide) hr p1
    exact ⟨0xB8, u ++ (bs1 ++ rest), .inr rfl, by rw [hu]; simp only [List.append_assoc]⟩

theorem more_run {h : Heads} (ok : h.OK) {s : VS} {pos c fuel : Nat} {bits rest : List Bool}
    (hp : Parts pos ((match h.gop with
      | some g => [Stuffed (encGOP g.hdr), ItemsPart 1 g.items]
      | none => []) ++ [Stuffed (encPic h.hdr), Stuffed (encPicExt h.ext), ItemsPart 2 h.items]) bits)
    (hc : c < 256) (hc1 : c ≠ 0xB5) (hc2 : c ≠ 0xB2) (hf : bits.length + 1 ≤ fuel)
    (hb : s.br = ⟨bits ++ (prefix1 ++ (bitsOf 8 c ++ rest)), pos, stop, later⟩) :
    ∃ s', moreHead fuel s = (.ok (), s') ∧ s'.br = ⟨prefix1 ++ (bitsOf 8 c ++ rest), pos + bits.length, stop, later⟩ ∧
      (pos + bits.length) % 8 = 0 ∧ s'.sh = s.sh ∧ s'.se = s.se ∧ s'.ph = some (viewPic h.hdr) ∧
      s'.pce = some (viewPicExt h.ext) ∧ s'.qm = (h.items.foldl Item.load (qmMats s.qm)).qm ∧
      s'.fs = (if h.gop.isSome then s.fs.markGOP else s.fs) ∧
      s'.frameCounter = (if h.gop.isSome then 0 else s.frameCounter) := by
  obtain ⟨b0, bs0, rfl, p0, hp⟩ := parts_split hp
  obtain ⟨b1, bs1, rfl, p1, hp⟩ := parts_inv hp
  obtain ⟨b2, bs2, rfl, p2, hp⟩ := parts_inv hp
  obtain ⟨b3, bs3, rfl, p3, hp⟩ := parts_inv hp
  have := parts_nil hp
  subst this
  have hlen : (b0 ++ (b1 ++ (b2 ++ (b3 ++ [])))).length = b0.length + b1.length + b2.length + b3.length := by
    simp only [List.length_append, List.length_nil]; omega
  rw [hlen] at hf
  have hlen' : pos + (b0 ++ (b1 ++ (b2 ++ (b3 ++ [])))).length = pos + b0.length + b1.length + b2.length + b3.length := by
    rw [hlen]; omega
  rw [hlen']
  obtain ⟨r, hr⟩ := starts_pic h.hdr
  obtain ⟨u, hu⟩ := stuffed_starts (by decide) hr p1
  have hb0 : s.br = ⟨b0 ++ (prefix1 ++ (bitsOf 8 0 ++ (u ++ (b2 ++ (b3 ++ (prefix1 ++ (bitsOf 8 c ++ rest))))))), pos, stop,
      later⟩ := by
    rw [hb, hu]; simp only [List.append_assoc, List.append_nil]
  obtain ⟨s1, e1, g1, g2, g3, g4, g5, g6⟩ := gopHead_run (g := h.gop) (fuel := fuel) p0 (fun x hx => ok.gop x hx) (by omega) hb0
  have hb1 : s1.br = ⟨b1 ++ (b2 ++ (b3 ++ (prefix1 ++ (bitsOf 8 c ++ rest)))), pos + b0.length, stop, later⟩ := by
    rw [g6, hu]; simp only [List.append_assoc]
  obtain ⟨a, e2⟩ := picHead_run (fuel := fuel) ok.hdr ok.ext p1 p2 p3 hc hc1 hc2 (by omega) hb1
  have e3 : moreHead fuel s = (do pictureHeader; pictureCodingExtension; extensionAndUserData 2 fuel : Go VS Unit) s1 := by
    unfold moreHead
    rw [Go.bind_ok e1]
  exact ⟨_, e3.trans e2, rfl, a, g1, g2, rfl, rfl, by rw [← g3], g4, g5⟩

theorem heads_run {h : Heads} (ok : h.OK) {s : VS} (hs : h.seq = none → s.sh.isSome = true) {pos k c fuel : Nat}
    {bits rest : List Bool} (hk : s.sh ≠ none → k = 0) (hp : Parts pos h.parts bits) (ha : pos % 8 = 0) (hpos : 8 * k ≤ pos)
    (hc : c < 256) (hc1 : c ≠ 0xB5) (hc2 : c ≠ 0xB2) (hf : bits.length + 1 ≤ fuel)
    (hb : s.br = ⟨zeros (8 * k) ++ (bits ++ (prefix1 ++ (bitsOf 8 c ++ rest))), pos - 8 * k, stop, later⟩) :
    ∃ s', stepHead fuel s = (.ok (), s') ∧
      AfterHeads h s s' (prefix1 ++ (bitsOf 8 c ++ rest)) (pos + bits.length) stop later := by
  unfold Heads.parts at hp
  obtain ⟨bq, bm, rfl, hq, hm⟩ := parts_split hp
  clear hp
  have hlen : pos + (bq ++ bm).length = pos + bq.length + bm.length := by rw [List.length_append]; omega
  rw [hlen]
  rw [List.length_append] at hf
  obtain ⟨n, u, hn, hu⟩ := more_starts (rest := prefix1 ++ (bitsOf 8 c ++ rest)) hm
  have hn256 : n < 256 := by omega
  cases hseq : h.seq with
  | none =>
    have hsome := hs hseq
    have hk0 := hk (by intro e; rw [e] at hsome; exact absurd hsome (by decide))
    subst hk0
    rw [hseq] at hq
    have := parts_nil hq
    subst this
    have hbr : s.br = ⟨bm ++ (prefix1 ++ (bitsOf 8 c ++ rest)), pos, stop, later⟩ := by rw [hb]; rfl
    obtain ⟨s', e, g1, g2, g3, g4, g5, g6, g7, g8, g9⟩ := more_run (fuel := fuel) ok (pos := pos) (bits := bm) hm hc hc1 hc2
      (by omega) hbr
    refine ⟨s', ?_, g1, g2, ?_, ?_, g5, g6, ?_, g8, g9⟩
    · unfold stepHead
      rw [hsome, if_pos rfl]
      unfold resumeHead
      rw [hu] at hbr
      rw [Go.bind_ok (peek_at hn256 hbr), if_pos (by rcases hn with rfl | rfl; exact .inl rfl; exact .inr rfl)]
      exact e
    · rw [g3, hseq]
    · rw [g4, hseq]
    · rw [g7, hseq]
  | some q =>
    rw [hseq] at hq
    obtain ⟨b1, bs1, rfl, p1, hq⟩ := parts_inv hq
    obtain ⟨b2, bs2, rfl, p2, hq⟩ := parts_inv hq
    obtain ⟨b3, bs3, rfl, p3, hq⟩ := parts_inv hq
    have := parts_nil hq
    subst this
    obtain ⟨w1, w2, w3⟩ := ok.seq q hseq
    have hlq : (b1 ++ (b2 ++ (b3 ++ []))).length = b1.length + b2.length + b3.length := by
      simp only [List.length_append, List.length_nil]; omega
    rw [hlq] at hf
    have hlq' : pos + (b1 ++ (b2 ++ (b3 ++ []))).length = pos + b1.length + b2.length + b3.length := by rw [hlq]; omega
    rw [hlq'] at hm ⊢
    obtain ⟨r1, hr1⟩ := starts_seq q.hdr
    obtain ⟨u1, hu1⟩ := stuffed_starts (by decide) hr1 p1
    obtain ⟨R, hR⟩ : ∃ R, R = bitsOf 8 n ++ u := ⟨_, rfl⟩
    have fin : ∀ (s0 : VS), s0.br = ⟨b1 ++ (b2 ++ (b3 ++ (prefix1 ++ (bitsOf 8 n ++ u)))), pos, stop, later⟩ →
        s0.fs = s.fs → s0.frameCounter = s.frameCounter →
        ∃ sA sB s', sequenceHeader s0 = (.ok (), sA) ∧ VS.lift (BR.peek 32) sA = (.ok extensionStartCode, sA) ∧
          sequenceExtension sA = (.ok (), sB) ∧ continueHead fuel sB = (.ok (), s') ∧
          AfterHeads h s s' (prefix1 ++ (bitsOf 8 c ++ rest)) (pos + b1.length + b2.length + b3.length + bm.length) stop later := by
      intro s0 h0 h1 h2
      obtain ⟨sA, sB, e1, e2, e3, e4⟩ := seqHead_run (fuel := fuel) w1 w2 w3 p1 p2 p3 hn256 (by omega) (by omega) (by omega) h0
      obtain ⟨s', e, g1, g2, g3, g4, g5, g6, g7, g8, g9⟩ := more_run (fuel := fuel) ok (bits := bm) (stop := stop) (later := later)
        (s := { s0 with
          br := ⟨prefix1 ++ (bitsOf 8 n ++ u), pos + b1.length + b2.length + b3.length, stop, later⟩
          sh := some (viewSeq q.hdr), se := some (viewSeqExt q.ext), qm := seqQm q.hdr }) hm hc hc1 hc2
        (by omega) (by rw [hu])
      refine ⟨sA, sB, s', e1, e2, e3, ?_, g1, g2, ?_, ?_, g5, g6, ?_, ?_, ?_⟩
      · unfold continueHead
        rw [Go.bind_ok e4]
        exact e
      · rw [g3, hseq]
      · rw [g4, hseq]
      · rw [g7, hseq]
      · rw [g8]; show (if _ then s0.fs.markGOP else s0.fs) = _; rw [h1]
      · rw [g9]; show (if _ then _ else s0.frameCounter) = _; rw [h2]
    have hbr : s.br = ⟨zeros (8 * k) ++ (b1 ++ (b2 ++ (b3 ++ (prefix1 ++ (bitsOf 8 n ++ u))))), pos - 8 * k, stop, later⟩ := by
      rw [hb, ← hu]; simp only [List.append_assoc, List.append_nil]
    cases hat : s.sh with
    | none =>
      have e0 : VS.lift nextStartCode s = (.ok (), { s with
          br := ⟨b1 ++ (b2 ++ (b3 ++ (prefix1 ++ (bitsOf 8 n ++ u)))), pos, stop, later⟩ }) := by
        refine lift_ok ?_
        have hbr' : s.br = ⟨Tail.bits ⟨[], k, bitsOf 8 0xB3 ++ (u1 ++ (b2 ++ (b3 ++ (prefix1 ++ (bitsOf 8 n ++ u)))))⟩,
            pos - 8 * k, stop, later⟩ := by
          rw [hbr, hu1]; simp only [Tail.bits, List.append_assoc, List.nil_append, List.append_nil]
        have hto : Tail.OK ⟨[], k, bitsOf 8 0xB3 ++ (u1 ++ (b2 ++ (b3 ++ (prefix1 ++ (bitsOf 8 n ++ u)))))⟩
            (pos - 8 * k) := by
          show ([] : List Bool).length = padding (pos - 8 * k)
          unfold padding; simp only [List.length_nil]; omega
        rw [hbr', nextStartCode_tail _ hto]
        simp only [Tail.after, hu1, List.append_assoc, Prod.mk.injEq, BR.mk.injEq, true_and, and_true, List.length_nil]
        omega
      obtain ⟨sA, sB, s', e1, e2, e3, e4, r⟩ := fin { s with
          br := ⟨b1 ++ (b2 ++ (b3 ++ (prefix1 ++ (bitsOf 8 n ++ u)))), pos, stop, later⟩ } rfl rfl rfl
      refine ⟨s', ?_, r⟩
      unfold stepHead
      rw [hat, Option.isSome_none, if_neg (by decide)]
      unfold startHead
      rw [Go.bind_ok e0, Go.bind_ok e1, Go.bind_ok e2, beq_self_eq_true]
      have e5 : Go.check true Err.unsupported11172 sA = (.ok (), sA) := rfl
      rw [Go.bind_ok e5, Go.bind_ok e3, e4]
    | some x0 =>
      have hk0 := hk (by rw [hat]; simp)
      subst hk0
      obtain ⟨sA, sB, s', e1, e2, e3, e4, r⟩ := fin s hbr rfl rfl
      refine ⟨s', ?_, r⟩
      unfold stepHead
      rw [hat, Option.isSome_some, if_pos rfl]
      unfold resumeHead
      have hpk : VS.lift (BR.peek 32) s = (.ok 0x1B3, s) := by
        refine peek_at (c := 0xB3) (pos := pos) (stop := stop) (later := later) (by decide)
          (t := u1 ++ (b2 ++ (b3 ++ (prefix1 ++ (bitsOf 8 n ++ u))))) ?_
        rw [hbr, hu1]; simp only [List.append_assoc]; rfl
      rw [Go.bind_ok hpk, if_neg (by decide), if_neg (by decide), Go.bind_ok e1, Go.bind_ok e3, e4]

/-! ### both decoders -/

theorem foldl_load : ∀ (l : List Item) (q : Mats),
    l.foldl Item.load q = (l.filterMap Item.matrices).foldl (fun q h => Item.load q (.quant h)) q
  | [], _ => rfl
  | .quant h :: l, q => foldl_load l _
  | .user _ :: l, q => foldl_load l q
  | .display _ :: l, q => foldl_load l q
  | .temporal _ :: l, q => foldl_load l q

theorem after_alike {a b : Heads} (hab : HeadsAlike a b) (oa : a.OK) (ob : b.OK) {s t s' t' : VS} {bits : List Bool} {p p' : Nat}
    (hs : AfterHeads a s s' bits p stop later) (ht : AfterHeads b t t' bits p' stop later)
    (h0 : a.seq = none → Both SeqAlike s.sh t.sh ∧ Both SeqExtAlike s.se t.se ∧ s.qm = t.qm)
    (h1 : s.fs = t.fs) (h2 : s.frameCounter = t.frameCounter) : Alike s' t' := by
  have hq : Both SeqAlike s'.sh t'.sh ∧ Both SeqExtAlike s'.se t'.se ∧
      (match a.seq with | some q => seqQm q.hdr | none => s.qm) = (match b.seq with | some q => seqQm q.hdr | none => t.qm) := by
    rw [hs.sh, ht.sh, hs.se, ht.se]
    have h3 := hab.seq
    cases ha : a.seq with
    | none =>
      cases hb : b.seq with
      | none => exact h0 ha
      | some q => rw [ha, hb] at h3; cases h3
    | some p =>
      cases hb : b.seq with
      | none => rw [ha, hb] at h3; cases h3
      | some q =>
        rw [ha, hb] at h3
        cases h3 with
        | some h =>
          obtain ⟨e1, e2, e3, e4, e5, e6, e7⟩ := h
          refine ⟨.some ⟨e1, e2⟩, .some ⟨e5, e6, e7⟩, ?_⟩
          show seqQm p.hdr = seqQm q.hdr
          unfold seqQm
          rw [e3, e4]
  obtain ⟨h3, h4, h5⟩ := hq
  obtain ⟨c1, c2, c3, c4⟩ := hab.fCode
  refine ⟨?_, h3, h4, ?_, ?_, ?_, ?_, ?_⟩
  · rw [hs.br, ht.br]
    exact ⟨rfl, rfl, rfl, hs.aligned.trans ht.aligned.symm⟩
  · rw [hs.ph, ht.ph]
    obtain ⟨k1, k2⟩ := viewPic_kind oa.hdr
    obtain ⟨k3, k4⟩ := viewPic_kind ob.hdr
    exact .some ⟨by rw [k2, k4, hab.temporal], by rw [k1, k3, hab.kind]⟩
  · rw [hs.pce, ht.pce]
    exact .some ⟨c1, c2, c3, c4, hab.precision, hab.structure_, hab.framePred, hab.conceal, hab.qScale, hab.vlc, hab.scan⟩
  · rw [hs.qm, ht.qm, h5, foldl_load, foldl_load, hab.matrices]
  · rw [hs.fs, ht.fs, hab.gop, h1]
  · rw [hs.counter, ht.counter, hab.gop, h2]

end Mpeg.Video
