/-
C118: pictures of which slices are lost.
-/
import Verif.Video.SliceLossLemmas
import Verif.Video.RefProps
namespace Mpeg.Video
open Spec

variable {stop : Err} {later : List (List Bool × Err)}

/-- **C118** The bits of the slices of a picture fall apart into pieces, one per slice, each of which codes its slice on
its own, at any byte boundary and on top of any picture. -/
theorem C118_pieces {e : PicEnv} {r : RefPics} {W H pos : Nat} {P : Image} {sls : List SliceData} {bits : List Bool}
    (hp : pos % 8 = 0) (h : SlicesCode e r W H pos P sls bits) :
    ∃ bs : List (List Bool), bs.length = sls.length ∧ bits = bs.flatten ∧
      ∀ p ∈ sls.zip bs, ∀ pos' P', pos' % 8 = 0 → SlicesCode e r W H pos' P' [p.1] p.2 := by
  obtain ⟨bs, h1, h2, h3⟩ := slices_split hp h
  exact ⟨bs, h1, h2, fun p hp pos' P' hp' => slices_move (fun h => h) (by omega) (h3 p hp)⟩

/-- **C118** (partial): a picture is sent as the pieces `ps`, each a legal slice (with any stuffing behind it), and any of
them get lost, but not all.  Then what arrives is decoded without error to a picture that agrees with the picture that was
sent in all samples outside the macroblocks of the lost slices; samples to which no slice that arrives gives a value are 0.
The decoder stands on the start code behind the picture.

`s` is the decoder with what arrives; the same decoder with the whole picture returns `f0`.

Partial: as C71; at least one slice arrives (otherwise the claim is false: `C118_none`).  The loss is not concealed: in a
P picture, too, the lost macroblocks are 0 and not those of the past picture. -/
theorem C118_partial {s : VS} {sh : SequenceHeader} {se : SequenceExtension} {ph : PictureHeader}
    {pce : PictureCodingExtension} (h1 : s.sh = some sh) (h2 : s.se = some se) (h3 : s.ph = some ph)
    (h4 : s.pce = some pce) {r : RefPics} {W H : Nat} (hW : W = (s.size.1.toNat + 15) / 16)
    (hH : H = (s.size.2.toNat + 15) / 16) (hc : Covered (s.env sh se ph pce)) (hrr : RefsRel W H (s.env sh se ph pce) r)
    (s1 : Samples r.past) (s2 : Samples r.future) {c : Nat} (hc8 : c < 256) (hcs : ¬ (1 ≤ c ∧ c ≤ 0xAF))
    {ps : List Piece} {rest : List Bool} {pos : Nat} (hpos : pos % 8 = 0) (hne : ∃ p ∈ ps, p.arrives = true)
    (hcode : ∀ p ∈ ps, SlicesCode (s.env sh se ph pce) r W H 0 blank [p.slice] p.bits)
    (hbr : s.br = ⟨arrived ps ++ (prefix1 ++ (bitsOf 8 c ++ rest)), pos, stop, later⟩) :
    ∃ f f0,
      pictureData s = (.ok f, { s with br := ⟨prefix1 ++ (bitsOf 8 c ++ rest), pos + (arrived ps).length, stop, later⟩ }) ∧
      pictureData { s with br := ⟨sent ps ++ (prefix1 ++ (bitsOf 8 c ++ rest)), pos, stop, later⟩ } =
        (.ok f0, { s with br := ⟨prefix1 ++ (bitsOf 8 c ++ rest), pos + (sent ps).length, stop, later⟩ }) ∧
      Geometry f W H ∧ Geometry f0 W H ∧
      ∀ a x y, a < 3 → x < side a * W → y < side a * H →
        ((∀ p ∈ ps, p.arrives = false → ¬ p.slice.Covers ph.pictureCodingType a x y) → sampleOf f a x y = sampleOf f0 a x y) ∧
        ((∀ p ∈ ps, p.arrives = true → ¬ p.slice.Covers ph.pictureCodingType a x y) → sampleOf f a x y = 0) := by
  have k1 : SlicesCode (s.env sh se ph pce) r W H pos blank ((ps.filter (·.arrives)).map (·.slice)) (arrived ps) := by
    have := slices_join (ps := (ps.filter (·.arrives)).map fun p => (p.slice, p.bits)) (P := blank) hpos (by
      intro p hp
      obtain ⟨q, hq, rfl⟩ := List.mem_map.1 hp
      exact hcode q (List.mem_filter.1 hq).1)
    simpa [arrived, List.flatMap_map, Function.comp_def] using this
  have k2 : SlicesCode (s.env sh se ph pce) r W H pos blank (ps.map (·.slice)) (sent ps) := by
    have := slices_join (ps := ps.map fun p => (p.slice, p.bits)) (P := blank) hpos (by
      intro p hp
      obtain ⟨q, hq, rfl⟩ := List.mem_map.1 hp
      exact hcode q hq)
    simpa [sent, List.flatMap_map, Function.comp_def] using this
  obtain ⟨p0, p1, p2⟩ := hne
  obtain ⟨f, f1, f2⟩ := C71_partial h1 h2 h3 h4 hW hH hc hrr s1 s2 hc8 hcs
    (List.ne_nil_of_mem (List.mem_map.2 ⟨p0, List.mem_filter.2 ⟨p1, p2⟩, rfl⟩)) k1 hbr
  obtain ⟨g, g1, g2⟩ := C71_partial (s := { s with br := ⟨sent ps ++ (prefix1 ++ (bitsOf 8 c ++ rest)), pos, stop, later⟩ })
    h1 h2 h3 h4 hW hH hc hrr s1 s2 hc8 hcs (List.ne_nil_of_mem (List.mem_map.2 ⟨p0, p1, rfl⟩)) k2 rfl
  refine ⟨f, g, f1, g1, f2.1, g2.1, fun a x y ha hx hy => ⟨fun h => ?_, fun h => ?_⟩⟩
  · rw [f2.2 a x y ha hx hy, g2.2 a x y ha hx hy]
    have := slices_lost (e := s.env sh se ph pce) (r := r) (c := a) (x := x) (y := y) (P := blank) (P' := blank)
      (ps := ps.map fun p => (p.slice, p.arrives)) (by
        intro p hp
        obtain ⟨q, hq, rfl⟩ := List.mem_map.1 hp
        exact h q hq) rfl
    simp only [List.filter_map, List.map_map, Function.comp_def] at this
    exact this
  · rw [f2.2 a x y ha hx hy]
    refine slices_uncovered fun sl hsl => ?_
    obtain ⟨q, hq, rfl⟩ := List.mem_map.1 hsl
    exact h q (List.mem_filter.1 hq).1 (List.mem_filter.1 hq).2

/-- **C118** If all slices of a picture are lost, the picture is not an empty one: an error is reported, and the start code
that follows has been consumed (so that the header behind it is lost, too). -/
theorem C118_none {s : VS} {sh : SequenceHeader} {se : SequenceExtension} {ph : PictureHeader}
    {pce : PictureCodingExtension} (h1 : s.sh = some sh) (h2 : s.se = some se) (h3 : s.ph = some ph)
    (h4 : s.pce = some pce) {c : Nat} (hc8 : c < 256) (hcs : ¬ (1 ≤ c ∧ c ≤ 0xAF)) {rest : List Bool} {pos : Nat}
    (hbr : s.br = ⟨prefix1 ++ (bitsOf 8 c ++ rest), pos, stop, later⟩) :
    pictureData s = (.err .unexpectedStartCode, { s with br := ⟨rest, pos + 32, stop, later⟩ }) := by
  have hb : prefix1 ++ (bitsOf 8 c ++ rest) = bitsOf 32 (0x100 + c) ++ rest := by
    rw [code32_bits hc8, List.append_assoc]
  have hs : isSlice (0x100 + c) = false := by
    have : ¬ (minSliceStartCode ≤ 0x100 + c ∧ 0x100 + c ≤ maxSliceStartCode) := by
      unfold minSliceStartCode maxSliceStartCode; omega
    unfold isSlice
    simpa using this
  have hr : ∀ m : MB, m.br = s.br → slice (s.env sh se ph pce) m = (.err .unexpectedStartCode, { m with br := ⟨rest, pos + 32, stop, later⟩ }) := by
    intro m hm
    have h5 : MB.lift (BR.read 32) m = (.ok (0x100 + c), { m with br := ⟨rest, pos + 32, stop, later⟩ }) := by
      simp only [MB.lift, hm, hbr, hb, BR.read_bitsOf]
      rw [Nat.mod_eq_of_lt (by omega)]
    unfold slice
    rw [Go.bind_ok h5, hs]
    rfl
  unfold pictureData
  rw [h1, h2, h3, h4]
  dsimp only
  obtain ⟨n, hn⟩ : ∃ n, fuelOf s.br = n + 1 := ⟨_, rfl⟩
  have hl : (do sliceLoop (s.env sh se ph pce) (fuelOf s.br); MB.lift nextStartCode : Go MB Unit)
      ⟨s.br, DcPred.reset pce.intraDCPrecision, MVD.init, 0, createFrameBuffer s.size.1.toNat s.size.2.toNat se.chromaFormat⟩ =
      (.err .unexpectedStartCode, ⟨⟨rest, pos + 32, stop, later⟩, DcPred.reset pce.intraDCPrecision, MVD.init, 0,
        createFrameBuffer s.size.1.toNat s.size.2.toNat se.chromaFormat⟩) := by
    refine Go.bind_err ?_
    rw [hn]
    unfold sliceLoop
    exact Go.bind_err (hr _ rfl)
  unfold VS.env at hl
  rw [hl]

end Mpeg.Video
