/-
C82, C83: the shape of the pictures that `Next` returns, and the chroma formats.
-/
import Verif.Video.ShapeLemmas2
import Verif.Video.CausProps
set_option linter.all false
namespace Mpeg.Video
open Spec

/-- **C82** Every picture that `Next` returns, from any state of a decoder in use and whatever the input, is well formed:
for some size its planes cover whole macroblocks, with 8 × 8 or 16 × 16 samples of each chroma component in a macroblock, and
all samples are bytes.  If the call has read anything, that size is the one `Size` then reports. -/
theorem C82 {fuel k : Nat} {s s' : VS} {f : Frame} (hu : Used s) (h : VS.next fuel k s = (.ok f, s')) :
    ∃ w h c : Nat, (c = 8 ∨ c = 16) ∧ WellFormed w h c f ∧ (s'.br ≠ s.br → s'.size = ((w : Int), (h : Int))) := by
  have hx := (shapes_next fuel k s (used_shaped hu)).2 f (by rw [h])
  rw [h] at hx
  by_cases hb : s'.br = s.br
  · obtain ⟨w, h, cf, h1, h2, h3⟩ := hx.1
    exact ⟨w, h, _, by split <;> simp, fits_wellFormed h1 h3, fun h => absurd hb h⟩
  · obtain ⟨sh, se, e1, e2, h1, h2, h3, _⟩ := hx.2 hb
    refine ⟨_, _, _, by split <;> simp, fits_wellFormed h1 h3, fun _ => ?_⟩
    dsimp only
    unfold VS.size
    rw [e1, e2]
    simp only [Int.toNat_natCast]

/-- **C82** for all the pictures of a new decoder. -/
theorem C82_all {fuel k n : Nat} {br : BR} {f : Frame} (h : .ok f ∈ outcomes fuel k n (VS.new br)) :
    ∃ w h c : Nat, (c = 8 ∨ c = 16) ∧ WellFormed w h c f := by
  suffices ∀ n s, Used s → .ok f ∈ outcomes fuel k n s → ∃ w h c : Nat, (c = 8 ∨ c = 16) ∧ WellFormed w h c f from
    this n _ (.new br) h
  intro n
  induction n with
  | zero => intro s _ h; cases h
  | succ n ih =>
    intro s hu h
    unfold outcomes at h
    cases hx : VS.next fuel k s with
    | mk r s' =>
      rw [hx] at h
      cases r with
      | ok g =>
        rcases List.mem_cons.mp h with h | h
        · cases h
          obtain ⟨w, h, c, h1, h2, _⟩ := C82 hu hx
          exact ⟨w, h, c, h1, h2⟩
        · exact ih s' (.next _ _ hu hx) h
      | err e =>
        rcases List.mem_cons.mp h with h | h
        · cases h
        · exact ih s' (.next _ _ hu hx) h
      | panic => rcases List.mem_cons.mp h with h | h <;> cases h
      | hang => rcases List.mem_cons.mp h with h | h <;> cases h

/-- **C83** Chroma formats: a call of `Next` that reads and returns a picture has done so in the format 4:2:0, or in the
reserved format 0: no picture is ever decoded in the formats 4:2:2 and 4:4:4, whatever the input.  In 4:2:0 the picture has
8 × 8 samples of each chroma component in a macroblock.  In the reserved format it is no error either: the picture has
16 × 16, and an intra picture consists of zeros, whatever was coded. -/
theorem C83 {fuel k : Nat} {s s' : VS} {f : Frame} (hu : Used s) (h : VS.next fuel k s = (.ok f, s')) (hb : s'.br ≠ s.br) :
    ∃ (se : SequenceExtension) (w h : Nat), s'.se = some se ∧ s'.size = ((w : Int), (h : Int)) ∧ se.chromaFormat ≠ 2 ∧ se.chromaFormat ≠ 3 ∧
      (se.chromaFormat = 1 → WellFormed w h 8 f) ∧
      (se.chromaFormat = 0 → WellFormed w h 16 f ∧ (∀ ph, s'.ph = some ph → ph.pictureCodingType = iFrame →
        ∀ i, f.y.data i = 0 ∧ f.cb.data i = 0 ∧ f.cr.data i = 0)) := by
  have hx := (shapes_next fuel k s (used_shaped hu)).2 f (by rw [h])
  rw [h] at hx
  obtain ⟨sh, se, e1, e2, h1, h2, h3, h4⟩ := hx.2 hb
  have hw := fits_wellFormed h1 h3
  refine ⟨se, s'.size.1.toNat, s'.size.2.toNat, e2, ?_, h1, h2, fun hc => ?_, fun hc => ⟨?_, fun ph hph ht i => ?_⟩⟩
  · have e1 : s'.sh = some sh := e1
    have e2 : s'.se = some se := e2
    unfold VS.size
    rw [e1, e2]
    simp only [Int.toNat_natCast]
  · rw [if_pos hc] at hw; exact hw
  · rw [if_neg (by omega)] at hw; exact hw
  · rw [h4 hc ph hph ht]; exact ⟨rfl, rfl, rfl⟩

/-! ### concrete cases -/

namespace ExStream

/-- one picture in the chroma format `c`, of one macroblock -/
def inFormat (c : Nat) (mb : List Bool) : List Bool :=
  byte (encSeq (seqH 16)) ++ (byte (encSeqExt { seqE 1 with chroma := c }) ++ (byte (encGOP gopH) ++
    (byte (encPic ⟨0, .other 1, 0, []⟩) ++ (byte (encPicExt picE) ++
    (byte ((sl 0 mbI).head (envI 16 1) ++ mb) ++ bitsOf 32 0x1B7)))))

/-- the macroblock `mbI` -/
def mb420 : List Bool := (codeI 16 1 0 ⟨none, none⟩ blank).bits
/-- two chroma blocks without differences -/
def two : List Bool := [false, false, true, false, false, false, true, false]

/-- sizes of the planes, the first samples of the planes, and what `Size` reports -/
def look (n : Nat) (s : VS) : List (Nat × Nat × Nat × Nat × Int × Int) :=
  match n with
  | 0 => []
  | n + 1 =>
    match VS.next 2000 4 s with
    | (.ok f, s') => (f.y.len, f.cb.len, f.y.data 0, f.cb.data 0, s'.size.1, s'.size.2) :: look n s'
    | (_, s') => look n s'

/-- C82, C83: a picture in 4:2:0. -/
example : look 1 (VS.new (.ofBits (inFormat 1 mb420))) = [(256, 64, 133, 125, 16, 16)] := by decide +kernel

/-- A picture in the reserved format: zeros. -/
example : look 1 (VS.new (.ofBits (inFormat 0 [true, true]))) = [(256, 256, 0, 0, 16, 16)] := by decide +kernel

/-- A picture, at temporal reference 1, then a sequence header for another size and a picture of that size at temporal
reference 0. -/
def resized : List Bool :=
  byte (encSeq (seqH 16)) ++ (byte (encSeqExt (seqE 1)) ++ (byte (encGOP gopH) ++ (byte (encPic ⟨1, .other 1, 0, []⟩) ++
    (byte (encPicExt picE) ++ (byte ((sl 0 mbI).head (envI 16 1) ++ (codeI 16 1 0 ⟨none, none⟩ blank).bits) ++
  (byte (encSeq (seqH 32)) ++ (byte (encSeqExt (seqE 1)) ++ (byte (encPic ⟨0, .other 1, 0, []⟩) ++
    (byte (encPicExt picE) ++ (byte ((sl 0 mbI).head (envI 16 1) ++ (codeI 16 1 0 ⟨none, none⟩ blank).bits) ++
    bitsOf 32 0x1B7))))))))))

end ExStream
open ExStream

/-- **C83** A picture in 4:2:2 is not reported as unsupported: decoding it panics. -/
theorem C83_panics : kinds (outcomes 2000 2 1 (VS.new (.ofBits (inFormat 2 (mb420 ++ two))))) = [5] ∧
    kinds (outcomes 2000 2 1 (VS.new (.ofBits (inFormat 3 (mb420 ++ two ++ two ++ two))))) = [5] := by
  constructor <;> decide +kernel

/-- **C82** (the full claim, false) The size of a picture is not always the one that `Size` reports after the call: a
picture that waits keeps its size when a sequence header changes it. -/
theorem C82_size_false : look 2 (VS.new (.ofBits resized)) =
    [(512, 128, 133, 125, 16, 32), (256, 64, 133, 125, 16, 32)] := by decide +kernel

end Mpeg.Video
