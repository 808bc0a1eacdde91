/-
C140: the same data coded differently give the same pictures.
-/
import Verif.Video.EquivLemmas
import Verif.Video.SliceLossProps2
import Verif.Video.RecoverExamples
namespace Mpeg.Video
open Spec

variable {stop : Err} {later : List (List Bool × Err)}

/-- **C140** (partial): two streams of pictures in coding order with the same content: corresponding pictures have the same coding
type, DC precision, quantiser scale type, scan, use of concealment vectors and quantiser matrices, and the same slices, in any
order and any number of times each.  All else may differ: stuffing, user data and extensions, groups of pictures and temporal
references, repeated sequence headers, all other header fields (f_code, intra_vlc_format and frame_pred_frame_dct among them),
the extra information of slices, and the codes chosen for the macroblocks.  Then the decoder returns the same number of pictures
from both, corresponding ones agree in every sample, and both streams end.

Partial: as C75 (`GroupsCode`). -/
theorem C140_partial {W H lead lead' fuel k : Nat} {gs gs' : List CGroup} {bits bits' rest rest' : List Bool} {imgs imgs' : List Image}
    (hk : 2 ≤ k) (hgs : gs ≠ []) (hgs' : gs' ≠ []) (h : GroupsCode W H 0 none none (8 * lead) gs bits imgs)
    (h' : GroupsCode W H 0 none none (8 * lead') gs' bits' imgs') (hs : SamePictures none none (codingOrder gs) (codingOrder gs'))
    (hf : bits.length < fuel) (hf' : bits'.length < fuel) :
    ∃ frames frames' t t',
      nexts fuel k imgs.length (VS.new ⟨zeros (8 * lead) ++ (bits ++ (bitsOf 32 0x1B7 ++ rest)), 0, stop, later⟩) = (.ok frames, t) ∧
      nexts fuel k imgs.length (VS.new ⟨zeros (8 * lead') ++ (bits' ++ (bitsOf 32 0x1B7 ++ rest')), 0, stop, later⟩) =
        (.ok frames', t') ∧
      frames.length = imgs.length ∧ frames'.length = imgs.length ∧
      (∀ i (h1 : i < frames.length) (h2 : i < frames'.length), Geometry frames[i] W H ∧ Geometry frames'[i] W H ∧
        ∀ c x y, c < 3 → x < side c * W → y < side c * H → sampleOf frames[i] c x y = sampleOf frames'[i] c x y) ∧
      (VS.next fuel k t).1 = .err .eos ∧ (VS.next fuel k t').1 = .err .eos := by
  have e := groups_same h h' hs
  subst e
  obtain ⟨f, t, a1, a2, a3, a4, _⟩ := C75_partial (stop := stop) (later := later) (rest := rest) hk hgs h hf
  obtain ⟨f', t', b1, b2, b3, b4, _⟩ := C75_partial (stop := stop) (later := later) (rest := rest') hk hgs' h' hf'
  refine ⟨f, f', t, t', a1, b1, a2, b2, fun i h1 h2 => ?_, a4, b4⟩
  have hi : i < imgs.length := by omega
  obtain ⟨g1, s1⟩ := a3 i h1 hi
  obtain ⟨g2, s2⟩ := b3 i h2 hi
  exact ⟨g1, g2, fun c x y hc hx hy => (s1 c x y hc hx hy).trans (s2 c x y hc hx hy).symm⟩

/-- **C140** (partial), one picture: a decoder that stands before the slices of a picture returns the same picture whatever the order
of the slices, and however often each of them comes (`ps` and `qs` are pieces that each code a legal slice, with any stuffing
behind it).

Partial: as C71. -/
theorem C140_slices_partial {s : VS} {sh : SequenceHeader} {se : SequenceExtension} {ph : PictureHeader}
    {pce : PictureCodingExtension} (h1 : s.sh = some sh) (h2 : s.se = some se) (h3 : s.ph = some ph)
    (h4 : s.pce = some pce) {r : RefPics} {W H : Nat} (hW : W = (s.size.1.toNat + 15) / 16)
    (hH : H = (s.size.2.toNat + 15) / 16) (hc : Covered (s.env sh se ph pce)) (hrr : RefsRel W H (s.env sh se ph pce) r)
    (s1 : Samples r.past) (s2 : Samples r.future) {c : Nat} (hc8 : c < 256) (hcs : ¬ (1 ≤ c ∧ c ≤ 0xAF))
    {ps qs : List Piece} {rest : List Bool} {pos : Nat} (hpos : pos % 8 = 0) (hne : ps ≠ [])
    (hp : ∀ p ∈ ps, SlicesCode (s.env sh se ph pce) r W H 0 blank [p.slice] p.bits)
    (hq : ∀ p ∈ qs, SlicesCode (s.env sh se ph pce) r W H 0 blank [p.slice] p.bits)
    (hs : SameSlices ph.pictureCodingType (ps.map (·.slice)) (qs.map (·.slice)))
    (hbr : s.br = ⟨sent ps ++ (prefix1 ++ (bitsOf 8 c ++ rest)), pos, stop, later⟩) :
    ∃ f g,
      pictureData s = (.ok f, { s with br := ⟨prefix1 ++ (bitsOf 8 c ++ rest), pos + (sent ps).length, stop, later⟩ }) ∧
      pictureData { s with br := ⟨sent qs ++ (prefix1 ++ (bitsOf 8 c ++ rest)), pos, stop, later⟩ } =
        (.ok g, { s with br := ⟨prefix1 ++ (bitsOf 8 c ++ rest), pos + (sent qs).length, stop, later⟩ }) ∧
      Geometry f W H ∧ Geometry g W H ∧
      ∀ a x y, a < 3 → x < side a * W → y < side a * H → sampleOf f a x y = sampleOf g a x y := by
  have join : ∀ {ps : List Piece}, (∀ p ∈ ps, SlicesCode (s.env sh se ph pce) r W H 0 blank [p.slice] p.bits) →
      SlicesCode (s.env sh se ph pce) r W H pos blank (ps.map (·.slice)) (sent ps) := by
    intro ps hp
    have := slices_join (ps := ps.map fun p => (p.slice, p.bits)) (P := blank) hpos (by
      intro p h
      obtain ⟨q, hq, rfl⟩ := List.mem_map.1 h
      exact hp q hq)
    simpa [sent, List.flatMap_map, Function.comp_def] using this
  have n1 : ps.map (·.slice) ≠ [] := fun h => hne (List.map_eq_nil_iff.1 h)
  have n2 : qs.map (·.slice) ≠ [] := by
    intro h
    obtain ⟨p, l, rfl⟩ := List.exists_cons_of_ne_nil hne
    have := (hs.same p.slice.content).1 (by simp)
    rw [h] at this
    simp at this
  obtain ⟨f, f1, f2⟩ := C71_partial h1 h2 h3 h4 hW hH hc hrr s1 s2 hc8 hcs n1 (join hp) hbr
  obtain ⟨g, g1, g2⟩ := C71_partial (s := { s with br := ⟨sent qs ++ (prefix1 ++ (bitsOf 8 c ++ rest)), pos, stop, later⟩ })
    h1 h2 h3 h4 hW hH hc hrr s1 s2 hc8 hcs n2 (join hq) rfl
  refine ⟨f, g, f1, g1, f2.1, g2.1, fun a x y ha hx hy => ?_⟩
  rw [f2.2 a x y ha hx hy, g2.2 a x y ha hx hy]
  exact congrFun (congrFun (congrFun (same_slices (e := s.env sh se ph pce) (e' := s.env sh se ph pce)
    ⟨rfl, rfl, rfl, rfl, rfl, rfl, rfl⟩ r hs blank) a) x) y

/-! ### the I picture with its slices in another order, one of them twice, and coded with the other table -/

namespace ExEquiv
open ExStream

def picEV : PicExt := { picE with f00 := 3, f01 := 4, intraVLC := 1, topFieldFirst := true }
def picV : Coded := ⟨some ⟨seqH 32, seqE 1, []⟩, some ⟨gopH, []⟩, ⟨1, .other 1, 99, [7]⟩, picEV, [], [sl 1 mbI, sl 0 mbI, sl 1 mbI]⟩
def envV : PicEnv := (cx 32 1).env picV

/-- end of block is 0110 in table B-15 -/
def eob : List Bool := [false, true, true, false]
def blocksV (i : Nat) : List Bool :=
  if i = 0 then (cw (5, 3) ++ dcBits 5) ++ [] ++ eob
  else if i < 4 then (cw (4, 3) ++ dcBits 0) ++ [] ++ eob
  else if i = 4 then (cw (2, 2) ++ dcBits (-3)) ++ [] ++ eob
  else (cw (0, 2) ++ dcBits 0) ++ [] ++ eob

def codeV (row : Nat) (r : RefPics) (P : Image) :
    MbCode envV ((((sl row mbI).start envV P).skip envV r row none mbI.incr).begin envV mbI.type)
      mbI where
  k := 0
  v := 1
  addr := cw (1, 1)
  type := cw (1, 1)
  vecs := fun _ _ => []
  pattern := []
  blocks := blocksV
  hIncr := rfl
  hAddr := by decide +kernel
  hType := by
    have : envV.ph.pictureCodingType = 1 := rfl
    rw [this]; decide +kernel
  hDct := fun h => by cases h
  hQ := by decide
  hVec := fun s t hs ht h => by
    rcases (show s = 0 ∨ s = 1 by omega) with rfl | rfl <;> cases h
  hPattern := fun h => by cases h
  hCoded := fun i hi _ => by
    rcases (show i = 0 ∨ i = 1 ∨ i = 2 ∨ i = 3 ∨ i = 4 ∨ i = 5 by omega) with rfl | rfl | rfl | rfl | rfl | rfl
    · exact BlockCode.intra (format := 1) (pred := 128) 5 (cw (5, 3)) [] [] eob rfl (by decide) (by decide +kernel) (.nil _)
        (by decide +kernel) (by decide)
    · exact BlockCode.intra (format := 1) (pred := 133) 0 (cw (4, 3)) [] [] eob rfl (by decide) (by decide +kernel) (.nil _)
        (by decide +kernel) (by decide)
    · exact BlockCode.intra (format := 1) (pred := 133) 0 (cw (4, 3)) [] [] eob rfl (by decide) (by decide +kernel) (.nil _)
        (by decide +kernel) (by decide)
    · exact BlockCode.intra (format := 1) (pred := 133) 0 (cw (4, 3)) [] [] eob rfl (by decide) (by decide +kernel) (.nil _)
        (by decide +kernel) (by decide)
    · exact BlockCode.intra (format := 1) (cc := 1) (pred := 128) (-3) (cw (2, 2)) [] [] eob rfl (by decide) (by decide +kernel)
        (.nil _) (by decide +kernel) (by decide)
    · exact BlockCode.intra (format := 1) (pred := 128) 0 (cw (0, 2)) [] [] eob rfl (by decide) (by decide +kernel) (.nil _)
        (by decide +kernel) (by decide)
  hUncoded := fun i hi h => by cases h
  hDc := fun i hi _ => by
    have : ∀ i < 6, -2 ^ 28 ≤ (mbI.qf i).getD 0 0 ∧ (mbI.qf i).getD 0 0 < 2 ^ 28 := by decide +kernel
    exact this i hi

theorem sliceV (row : Nat) (hr : row < 2) (r : RefPics) (P : Image) :
    SliceCode envV r 1 2 P (sl row mbI) ((sl row mbI).head envV ++ ((codeV row r P).bits ++ [])) where
  row := hr
  maxRow := by show row < 175; omega
  q := (by decide : 5 < 32)
  info := fun i h => by cases h
  nonempty := by simp [sl]
  body := ⟨_, .cons ⟨by decide, fun a h => (by cases h), fun a h => (by cases h),
    ⟨fun h => (by cases h), fun h => (by cases h)⟩, fun h => (by cases h)⟩ (codeV row r P) .nil, rfl⟩

def pieceV (row : Nat) : List Bool := byte ((sl row mbI).head envV ++ ((codeV row ⟨none, none⟩ blank).bits ++ []))
def bitsV : List Bool :=
  byte (encSeq (seqH 32)) ++ (byte (encSeqExt (seqE 1)) ++ ([] ++ (byte (encGOP gopH) ++ ([] ++ (byte (encPic ⟨1, .other 1, 99, [7]⟩) ++
    (byte (encPicExt picEV) ++ ([] ++ (pieceV 1 ++ (pieceV 0 ++ pieceV 1)))))))))

theorem okV : picV.OK 1 2 where
  seq := fun q hq => by
    cases hq
    exact ⟨by decide, by decide, rfl, rfl, rfl, rfl, rfl, fun m h => (by cases h), fun m h => (by cases h)⟩
  gop := fun g h => by cases h; decide
  hdr := by decide
  ext := by
    refine ⟨by decide, by decide, by decide, by decide, by decide, by decide, by decide, by decide, by decide,
      by decide, ?_⟩
    intro c hc; cases hc
  structure_ := rfl
  conceal := fun h => by cases h
  f00 := by decide
  f01 := by decide
  f10 := by decide
  f11 := by decide
  items := fun it h => by cases h
  slices := by simp [picV]

theorem codeV_group {pos : Nat} (hp : pos % 8 = 0) : ∃ imgs, GroupsCode 1 2 0 none none pos [⟨picV, [picC]⟩] (bitsV ++ closedB) imgs := by
  have okI : picV.OK 1 2 := okV
  have okB : picC.OK 1 2 := okPic2 _ (by decide) (.inl rfl) (fun g h => by cases h) rfl rfl (by simp [picC])
  have h1 : Parts pos (picV.parts (cx 32 1) ⟨none, none⟩ 1 2) bitsV := by
    have := head_parts hp (seqH 32) (seqE 1) gopH ⟨1, .other 1, 99, [7]⟩ picEV
      (P := fun pos b => SlicesCode envV ⟨none, none⟩ 1 2 pos blank [sl 1 mbI, sl 0 mbI, sl 1 mbI] b)
      (b := pieceV 1 ++ (pieceV 0 ++ pieceV 1)) (fun p hp => ?_)
    · simp only [List.append_nil] at this
      simp only [bitsV]
      exact this
    · have l : ∀ row, (pieceV row).length % 8 = 0 := fun row => byte_len _
      have l0 := l 0
      have l1 := l 1
      refine byte_slices hp (sliceV 1 (by decide) ⟨none, none⟩ blank) (byte_slices (more := pieceV 1) ?_
        (sliceV 0 (by decide) ⟨none, none⟩ _) (byte_slice ?_ (sliceV 1 (by decide) ⟨none, none⟩ _)))
      · show (p + (pieceV 1).length) % 8 = 0
        omega
      · show (p + (pieceV 1).length + (pieceV 0).length) % 8 = 0
        omega
  obtain ⟨i1, hi1⟩ : ∃ i, i = picV.image (cx 32 1) ⟨none, none⟩ := ⟨_, rfl⟩
  have hl : bitsV.length % 8 = 0 := by decide +kernel
  have h2 : Parts (pos + bitsV.length) (picC.parts (cx 32 1) ⟨none, some i1⟩ 1 2) closedB := by
    have := head_parts2 (show (pos + bitsV.length) % 8 = 0 by omega) ⟨0, .b 0 7 0 7, 0, []⟩ picE
      (P := fun pos b => SlicesCode envC ⟨none, some i1⟩ 1 2 pos blank [sl 1 mbC] b)
      (b := byte ((sl 1 mbC).head envC ++ ((codeC ⟨none, none⟩ blank).bits ++ []))) (fun p hp =>
        byte_slice hp (sliceC ⟨none, some i1⟩ blank))
    simp only [List.append_nil] at this
    simp only [closedB, List.append_nil]
    exact this
  have g2 : BsCode 1 2 none i1 0 (cx 32 1) (pos + bitsV.length) [picC] (closedB ++ [])
      [picC.image (cx 32 1) ⟨none, some i1⟩] (cx 32 1) := .cons okB rfl rfl rfl rfl rfl h2 .nil
  rw [hi1] at g2
  have := GroupsCode.cons (base := 0) (base0 := 0) (σ := none) (g := ⟨picV, [picC]⟩) okI (.inl rfl) rfl rfl
    rfl h1 g2 .nil
  simp only [List.append_nil] at this
  exact ⟨_, this⟩

theorem same_row {row row' : Nat} {c x y : Nat} (h : (sl row mbI).Covers 1 c x y) (h' : (sl row' mbI).Covers 1 c x y) :
    row = row' := h.1.symm.trans h'.1

theorem same_slicesV : SameSlices 1 [sl 0 mbI, sl 1 mbI] [sl 1 mbI, sl 0 mbI, sl 1 mbI] := by
  refine ⟨fun x => ?_, ?_⟩
  · simp only [List.map_cons, List.map_nil, List.mem_cons, List.not_mem_nil, or_false]
    constructor
    · rintro (h | h)
      · exact .inr (.inl h)
      · exact .inl h
    · rintro (h | h | h)
      · exact .inr h
      · exact .inl h
      · exact .inr h
  · intro a ha b hb c x y h h'
    simp only [List.mem_cons, List.not_mem_nil, or_false] at ha hb
    rcases ha with rfl | rfl <;> rcases hb with rfl | rfl
    · rfl
    · exact absurd (same_row h h') (by decide)
    · exact absurd (same_row h h') (by decide)
    · rfl

theorem same_pictures : SamePictures none none (codingOrder [⟨picI2, [picC]⟩]) (codingOrder [⟨picV, [picC]⟩]) := by
  refine .cons (y := cx 32 1) (z := cx 32 1) rfl rfl rfl rfl ⟨rfl, rfl, rfl, rfl, rfl, same_slicesV⟩
    (.cons (y := cx 32 1) (z := cx 32 1) rfl rfl rfl rfl ⟨rfl, rfl, rfl, rfl, rfl, fun x => Iff.rfl, ?_⟩ .nil)
  intro a ha b hb c x y _ _
  simp only [picC, List.mem_singleton] at ha hb
  rw [ha, hb]

/-- the pieces of the picture in the other order, the second row once more -/
def swapped : List Piece := [1, 0, 1].map fun row =>
  ⟨sl row mbI, byte ((sl row mbI).head envI2 ++ ((codeI2 row ⟨none, none⟩ blank).bits ++ [])), true⟩

example : ∃ f g, (pictureData { atSlices with br := ⟨sent pieces ++ (prefix1 ++ (bitsOf 8 0xB7 ++ [])), 0, .eof, []⟩ }).1 = .ok f ∧
    (pictureData { atSlices with br := ⟨sent swapped ++ (prefix1 ++ (bitsOf 8 0xB7 ++ [])), 0, .eof, []⟩ }).1 = .ok g ∧
    ∀ a x y, a < 3 → x < side a * 1 → y < side a * 2 → sampleOf f a x y = sampleOf g a x y := by
  have hc : Covered envI2 := ⟨rfl, rfl, .inr rfl, fun h => (by cases h), by decide, fun s t hs ht => by
    rcases (show s = 0 ∨ s = 1 by omega) with rfl | rfl <;> rcases (show t = 0 ∨ t = 1 by omega) with rfl | rfl <;>
      decide +kernel, by decide +kernel, by decide +kernel⟩
  obtain ⟨f, g, h1, h2, _, _, h3⟩ := C140_slices_partial (stop := .eof) (later := [])
    (s := { atSlices with br := ⟨sent pieces ++ (prefix1 ++ (bitsOf 8 0xB7 ++ [])), 0, .eof, []⟩ }) (sh := envI2.sh)
    (se := envI2.se) (ph := envI2.ph) (pce := envI2.pce) (r := ⟨none, none⟩) (W := 1) (H := 2)
    (c := 0xB7) (ps := pieces) (qs := swapped) (rest := []) (pos := 0)
    rfl rfl rfl rfl (by decide +kernel) (by decide +kernel) hc
    ⟨fun h => absurd rfl h, fun h => by cases h⟩ (fun Q h => by cases h) (fun Q h => by cases h) (by decide) (by decide) rfl
    (by simp [pieces])
    (by
      intro p hp
      simp only [pieces, List.map_cons, List.map_nil, List.mem_cons, List.not_mem_nil, or_false] at hp
      rcases hp with rfl | rfl
      · exact pieceI 0 (by decide)
      · exact pieceI 1 (by decide))
    (by
      intro p hp
      simp only [swapped, List.map_cons, List.map_nil, List.mem_cons, List.not_mem_nil, or_false] at hp
      rcases hp with rfl | rfl | rfl
      · exact pieceI 1 (by decide)
      · exact pieceI 0 (by decide)
      · exact pieceI 1 (by decide)) same_slicesV rfl
  exact ⟨f, g, by rw [h1], by rw [h2], h3⟩

/-- The two streams code different bits, and the decoder returns the same two pictures from them. -/
example : bitsV ++ closedB ≠ secondI ++ closedB ∧ ∃ frames frames' t t',
    nexts 2000 2 2 (VS.new ⟨zeros 0 ++ ((secondI ++ closedB) ++ (bitsOf 32 0x1B7 ++ [])), 0, .eof, []⟩) = (.ok frames, t) ∧
    nexts 2000 2 2 (VS.new ⟨zeros 8 ++ ((bitsV ++ closedB) ++ (bitsOf 32 0x1B7 ++ [true])), 0, .eof, []⟩) = (.ok frames', t') ∧
    ∀ i (h1 : i < frames.length) (h2 : i < frames'.length), ∀ c x y, c < 3 → x < side c * 1 → y < side c * 2 →
      sampleOf frames[i] c x y = sampleOf frames'[i] c x y := by
  obtain ⟨imgs, h, hl⟩ := closed_code (pos := 8 * 0) (by decide)
  obtain ⟨imgs', h'⟩ := codeV_group (pos := 8 * 1) (by decide)
  obtain ⟨f, f', t, t', a1, a2, _, _, a3, _⟩ := C140_partial (fuel := 2000) (k := 2) (stop := .eof) (later := []) (rest := [])
    (rest' := [true]) (by decide) (by simp) (by simp) h h' same_pictures (by decide +kernel) (by decide +kernel)
  rw [hl] at a1 a2
  exact ⟨by decide +kernel, f, f', t, t', a1, a2, fun i h1 h2 => (a3 i h1 h2).2.2⟩

end ExEquiv

end Mpeg.Video
