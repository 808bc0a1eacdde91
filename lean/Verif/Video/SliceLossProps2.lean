/-
C119: streams of which slices are lost; examples for C118 and C119.
-/
import Verif.Video.SliceLossLemmas2
import Verif.Video.SliceLossProps
import Verif.Video.RecoverExamples
import Verif.Video.CausProps
namespace Mpeg.Video
open Spec

variable {stop : Err} {later : List (List Bool × Err)}

/-- **C119** (partial): a stream of pictures falls apart into segments, one for every slice and the headers between them.
Whichever slices are lost (`gs` says which), as long as every picture keeps one, `Next` returns as many pictures as were
sent, then the end of the stream, and every picture whose reference pictures are not damaged is shown as it was sent,
except for the macroblocks of its own lost slices.  Samples to which no slice that arrives gives a value are 0.

`exposed false gs` are the pictures in display order, with a flag whether their reference pictures are damaged: the damage
of a reference picture ends at the next I picture, and losses in B pictures do not affect any other picture.

Partial: the streams of C75; at least one slice of every picture arrives (otherwise the claim is false: `C119_false`). -/
theorem C119_partial {W H lead fuel k : Nat} {cgs : List CGroup} {bits rest : List Bool} {imgs : List Image} (hk : 2 ≤ k)
    (hgs : cgs ≠ []) (h : GroupsCode W H 0 none none (8 * lead) cgs bits imgs) (hf : bits.length < fuel) :
    ∃ segs : List Segment, bits = segs.flatMap (·.bits) ∧ segs.filterMap (·.slice) = allSlices cgs ∧
      (∀ s ∈ segs, s.bits.length % 8 = 0 ∧ ∀ sl, s.slice = some sl → ∃ t, s.bits = bitsOf 32 (0x101 + sl.row) ++ t) ∧
      ∀ gs : List LGroup, gs.map (·.sent) = cgs → (∀ g ∈ gs, g.OK) →
        ∃ frames t, nexts fuel k imgs.length
            (VS.new ⟨zeros (8 * lead) ++ (keep (lossFlags gs) segs ++ (bitsOf 32 0x1B7 ++ rest)), 0, stop, later⟩) = (.ok frames, t) ∧
          frames.length = imgs.length ∧ (exposed false gs).length = imgs.length ∧
          (∀ i (h1 : i < frames.length) (h2 : i < imgs.length) (h3 : i < (exposed false gs).length),
            Geometry frames[i] W H ∧ ∀ c x y, c < 3 → x < side c * W → y < side c * H →
              ((exposed false gs)[i].1 = false →
                (∀ sl ∈ (exposed false gs)[i].2.lost, ¬ sl.Covers (exposed false gs)[i].2.sent.hdr.kind.code c x y) →
                sampleOf frames[i] c x y = imgs[i] c x y) ∧
              ((∀ sl ∈ (exposed false gs)[i].2.got, ¬ sl.Covers (exposed false gs)[i].2.sent.hdr.kind.code c x y) →
                sampleOf frames[i] c x y = 0)) ∧
          (VS.next fuel k t).1 = .err .eos ∧ (VS.next fuel k t).2.br.bits = rest := by
  obtain ⟨segs, s1, s2⟩ := groups_lost (by omega) h
  refine ⟨segs, s1.bits, s1.slices, fun s hs => ⟨s1.aligned s hs, fun sl h => (s1.code s hs sl h).2⟩, fun gs g1 g2 => ?_⟩
  obtain ⟨imgs', r1, r2⟩ := s2 gs (8 * lead) none false g1 g2 (by omega) (fun h => h) (fun _ => rfl)
  have hne : gs.map (·.received) ≠ [] := by
    intro h0
    have : gs = [] := List.map_eq_nil_iff.1 h0
    subst this
    exact hgs g1.symm
  have hlen : (keep (lossFlags gs) segs).length < fuel := by
    have := keep_length (lossFlags gs) segs
    rw [← s1.bits] at this
    omega
  obtain ⟨frames, t, f1, f2, f3, f4⟩ := C75_partial (stop := stop) (later := later) (rest := rest) hk hne r1 hlen
  obtain ⟨t1, t2, t3⟩ := r2.get
  rw [t2] at f1
  refine ⟨frames, t, f1, by rw [f2, t2], t1, fun i h1 h2 h3 => ?_, f4⟩
  have h4 : i < imgs'.length := by omega
  obtain ⟨q1, q2⟩ := f3 i h1 h4
  obtain ⟨w1, w2⟩ := t3 i h3 h2 h4
  refine ⟨q1, fun c x y hc hx hy => ?_⟩
  rw [q2 c x y hc hx hy]
  exact ⟨fun hb hl => w1 hb c x y hl, fun hl => w2 c x y hl⟩

/-! ### an I picture of two slices and a B picture predicted from it -/

namespace ExStream

/-- the slice of row `row` of the I picture, alone -/
theorem pieceI (row : Nat) (h : row < 2) : SlicesCode envI2 ⟨none, none⟩ 1 2 0 blank [sl row mbI]
    (byte ((sl row mbI).head envI2 ++ ((codeI2 row ⟨none, none⟩ blank).bits ++ []))) :=
  byte_slice (by decide) (sliceI2 row 2 h (by omega) ⟨none, none⟩ blank)

/-- the two pieces of the I picture; the second is lost -/
def pieces : List Piece := [0, 1].map fun row =>
  ⟨sl row mbI, byte ((sl row mbI).head envI2 ++ ((codeI2 row ⟨none, none⟩ blank).bits ++ [])), row == 0⟩

/-- a decoder that has read the headers of the I picture -/
def atSlices : VS := { VS.new ⟨arrived pieces ++ (prefix1 ++ (bitsOf 8 0xB7 ++ [])), 0, .eof, []⟩ with
  sh := some envI2.sh, se := some envI2.se, ph := some envI2.ph, pce := some envI2.pce, qm := envI2.qm }

example : ∃ f f0, (pictureData atSlices).1 = .ok f ∧
    (pictureData { atSlices with br := ⟨sent pieces ++ (prefix1 ++ (bitsOf 8 0xB7 ++ [])), 0, .eof, []⟩ }).1 = .ok f0 ∧
    (∀ x y, x < 16 → y < 16 → sampleOf f 0 x y = sampleOf f0 0 x y) ∧ (∀ x y, x < 16 → 16 ≤ y → y < 32 → sampleOf f 0 x y = 0) := by
  have he : atSlices.env envI2.sh envI2.se envI2.ph envI2.pce = envI2 := rfl
  have hc : Covered envI2 := ⟨rfl, rfl, .inr rfl, fun h => (by cases h), by decide, fun s t hs ht => by
    rcases (show s = 0 ∨ s = 1 by omega) with rfl | rfl <;> rcases (show t = 0 ∨ t = 1 by omega) with rfl | rfl <;>
      decide +kernel, by decide +kernel, by decide +kernel⟩
  obtain ⟨f, f0, h1, h2, _, _, h3⟩ := C118_partial (stop := .eof) (later := []) (s := atSlices) (r := ⟨none, none⟩) (W := 1) (H := 2)
    (c := 0xB7) (ps := pieces) (rest := []) (pos := 0)
    rfl rfl rfl rfl (by decide +kernel) (by decide +kernel) (by rw [he]; exact hc)
    ⟨fun h => absurd rfl h, fun h => by cases h⟩ (fun Q h => by cases h) (fun Q h => by cases h) (by decide) (by decide) rfl
    ⟨_, List.mem_cons_self .., rfl⟩
    (by
      intro p hp
      rw [he]
      simp only [pieces, List.map_cons, List.map_nil, List.mem_cons, List.not_mem_nil, or_false] at hp
      rcases hp with rfl | rfl
      · exact pieceI 0 (by decide)
      · exact pieceI 1 (by decide)) rfl
  refine ⟨f, f0, by rw [h1], by rw [h2], fun x y hx hy => ?_, fun x y hx hy hy' => ?_⟩
  · refine (h3 0 x y (by decide) (by show x < 16 * 1; omega) (by show y < 16 * 2; omega)).1 ?_
    intro p hp hf hcov
    simp only [pieces, List.map_cons, List.map_nil, List.mem_cons, List.not_mem_nil, or_false] at hp
    rcases hp with rfl | rfl
    · cases hf
    · have : y / 16 = 1 := hcov.1
      omega
  · refine (h3 0 x y (by decide) (by show x < 16 * 1; omega) (by show y < 16 * 2; omega)).2 ?_
    intro p hp hf hcov
    simp only [pieces, List.map_cons, List.map_nil, List.mem_cons, List.not_mem_nil, or_false] at hp
    rcases hp with rfl | rfl
    · have : y / 16 = 0 := hcov.1
      omega
    · cases hf

/-- the second slice of the I picture is lost -/
def lossGroup : LGroup := ⟨⟨picI2, [true, false]⟩, [⟨picC, [true]⟩]⟩

theorem lossGroup_ok : lossGroup.OK := by
  refine ⟨⟨rfl, by simp [lossGroup]⟩, fun b hb => ?_⟩
  have : b = ⟨picC, [true]⟩ := by simpa [lossGroup] using hb
  subst this
  exact ⟨rfl, by simp⟩

example (lead : Nat) : ∃ bits imgs, GroupsCode 1 2 0 none none (8 * lead) [lossGroup.sent] bits imgs ∧ imgs.length = 2 ∧
    (∀ g ∈ [lossGroup], g.OK) ∧ (exposed false [lossGroup]).map (·.1) = [true, false] := by
  obtain ⟨imgs, h1, h2⟩ := closed_code (pos := 8 * lead) (by omega)
  refine ⟨_, imgs, h1, h2, fun g hg => ?_, by decide +kernel⟩
  rw [List.mem_singleton.1 hg]
  exact lossGroup_ok

/-- the samples of the upper macroblock are not touched by the loss, those of the lower one are -/
example : ¬ (sl 1 mbI).Covers 1 0 5 7 ∧ (sl 1 mbI).Covers 1 0 5 17 := by unfold SliceData.Covers; decide

/-- the stream without the only slice of the B picture -/
def noSlice : List Bool := secondI ++ (byte (encPic ⟨0, .b 0 7 0 7, 0, []⟩) ++ byte (encPicExt picE))

end ExStream

/-- **C119** is false if all slices of a picture are lost: of an I picture and a B picture (displayed before it) of one
slice, `Next` returns nothing but errors once the slice of the B picture is lost, although the I picture is complete. -/
theorem C119_false : ∃ (cgs : List CGroup) (imgs : List Image) (a b : List Bool) (sl : SliceData),
    GroupsCode 1 2 0 none none 0 cgs (a ++ b) imgs ∧ imgs.length = 2 ∧
    (∃ e r, SlicesCode e r 1 2 0 blank [sl] b) ∧
    ExStream.kinds (outcomes (a.length + 33) 2 2 (VS.new ⟨a ++ bitsOf 32 0x1B7, 0, .eof, []⟩)) = [4, 1] := by
  obtain ⟨imgs, h1, h2⟩ := ExStream.closed_code (pos := 0) rfl
  refine ⟨[⟨ExStream.picI2, [ExStream.picC]⟩], imgs, ExStream.noSlice, _, ExStream.sl 1 ExStream.mbC, ?_, h2, ⟨_, ⟨none, none⟩, ExStream.byte_slice (by decide) (ExStream.sliceC ⟨none, none⟩ blank)⟩, ?_⟩
  · have : ExStream.secondI ++ ExStream.closedB = ExStream.noSlice ++ ExStream.byte ((ExStream.sl 1 ExStream.mbC).head ExStream.envC ++
        ((ExStream.codeC ⟨none, none⟩ blank).bits ++ [])) := by
      unfold ExStream.closedB ExStream.noSlice
      simp only [List.append_assoc, List.nil_append]
    rw [← this]
    exact h1
  · decide +kernel

end Mpeg.Video
