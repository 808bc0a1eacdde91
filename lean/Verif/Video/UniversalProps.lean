import Verif.Video.IdctProps2
import Verif.Video.UniversalLemmas
import Verif.Video.UniversalSpec

/-!
C135: every sequence of pictures can be transmitted.
-/

namespace Mpeg.Video

open Spec Universal

namespace Universal

/-! ### the coefficients of a picture -/

/-- sample `(x, y)` of block `i` of macroblock (row, a) -/
def blockSample (P : Image) (row a i y x : Nat) : Nat :=
  if i < 4 then P 0 (16 * a + 8 * (i % 2) + x) (16 * row + 8 * (i / 2) + y) else P (i - 3) (8 * a + x) (8 * row + y)

noncomputable def coeffs (P : Image) (hP : EightBit P) : Coeffs := fun row a i =>
  Classical.choose (IdctR.block_fits (blockSample P row a i) fun y _ x _ => by
    unfold blockSample
    split <;> exact hP _ _ _)

theorem coeffs_spec (P : Image) (hP : EightBit P) (row a i : Nat) :
    (0 ≤ coeffs P hP row a i 0 ∧ coeffs P hP row a i 0 ≤ 2040) ∧
    (∀ j, -2041 ≤ coeffs P hP row a i j ∧ coeffs P hP row a i j ≤ 2041) ∧ (∀ j, 64 ≤ j → coeffs P hP row a i j = 0) ∧
      ((List.range 64).map (coeffs P hP row a i)).sum % 2 = 1 ∧
      ∀ y < 8, ∀ x < 8, (blockSample P row a i y x : Int) - 4 ≤ idct (coeffs P hP row a i) (8 * y + x) ∧
        idct (coeffs P hP row a i) (8 * y + x) ≤ blockSample P row a i y x + 4 :=
  Classical.choose_spec (IdctR.block_fits (blockSample P row a i) fun y _ x _ => by
    unfold blockSample
    split <;> exact hP _ _ _)

theorem coeffs_inRange (P : Image) (hP : EightBit P) : InRange (coeffs P hP) :=
  ⟨fun row a i => (coeffs_spec P hP row a i).1, fun row a i => (coeffs_spec P hP row a i).2.1,
    fun row a i => (coeffs_spec P hP row a i).2.2.1, fun row a i => (coeffs_spec P hP row a i).2.2.2.1⟩

theorem clip_near {v : Int} {p d : Nat} (hp : p ≤ 255) (h1 : (p : Int) - d ≤ v) (h2 : v ≤ p + d) :
    clip v ≤ p + d ∧ p ≤ clip v + d := by
  unfold clip
  omega

theorem target_near (P : Image) (hP : EightBit P) (c x y : Nat) (hc : c < 3) :
    target (coeffs P hP) c x y ≤ P c x y + 4 ∧ P c x y ≤ target (coeffs P hP) c x y + 4 := by
  have key : ∀ (i yy xx : Nat), yy < 8 → xx < 8 → blockSample P (y / side c) (x / side c) i yy xx = P c x y →
      clip (idct (coeffs P hP (y / side c) (x / side c) i) (8 * yy + xx)) ≤ P c x y + 4 ∧
      P c x y ≤ clip (idct (coeffs P hP (y / side c) (x / side c) i) (8 * yy + xx)) + 4 := by
    intro i yy xx hy hx he
    have := (coeffs_spec P hP (y / side c) (x / side c) i).2.2.2.2 yy hy xx hx
    rw [he] at this
    exact clip_near (d := 4) (hP c x y) this.1 this.2
  unfold target
  by_cases h0 : c = 0
  · subst h0
    rw [show blockAt false 0 x y = 2 * (y % 16 / 8) + x % 16 / 8 from rfl,
      show indexAt false 0 x y = 8 * (y % 16 % 8) + x % 16 % 8 from rfl]
    apply key _ _ _ (by omega) (by omega)
    unfold blockSample
    rw [if_pos (by omega), show side 0 = 16 from rfl]
    congr 1 <;> omega
  · rw [show blockAt false c x y = c + 3 from if_neg h0, show indexAt false c x y = 8 * (y % 8) + x % 8 from if_neg h0]
    apply key _ _ _ (by omega) (by omega)
    unfold blockSample
    rw [if_neg (by omega), show side c = 8 from if_neg h0, show c + 3 - 3 = c by omega]
    congr 1 <;> omega

/-! ### headers -/

def mat : Mat := 8 :: List.replicate 63 16

def seqPart (w h : Nat) : SeqPart :=
  ⟨⟨w % 4096, h % 4096, 1, 3, 100, 20, false, some mat, none⟩, ⟨0x48, 1, 1, w / 4096, h / 4096, 0, true, 0, 0, 0, 0⟩, []⟩

def picExt : PicExt := ⟨1, 1, 1, 1, 3, 3, false, 1, false, 1, 0, 0, false, true, true, none⟩

noncomputable def picture (w h : Nat) (C : Coeffs) : Coded :=
  ⟨some (seqPart w h), some ⟨⟨false, 0, 0, true, 0, 0, true, false⟩, []⟩, ⟨0, .other 1, 0, []⟩, picExt, [],
    (List.range' 0 (mbCount h)).map (rowSlice C (mbCount w))⟩

def ctxOf (w h : Nat) : Ctx := ⟨(seqPart w h).hdr, (seqPart w h).ext, (seqPart w h).hdr.mats⟩

theorem mats_m0 (w h : Nat) : (ctxOf w h).mats.m0 = 8 :: List.replicate 63 16 := by
  show raster mat = mat
  decide +kernel

theorem fine (w h : Nat) (C : Coeffs) : Fine ((ctxOf w h).env (picture w h C)) :=
  ⟨rfl, rfl, rfl, rfl, rfl, rfl, rfl, mats_m0 w h⟩

theorem seqOK {w h : Nat} (hw : w < 16384) (hh : h < 16384) : (seqPart w h).OK (mbCount w) (mbCount h) where
  hdr := by
    refine ⟨Nat.mod_lt _ (by decide), Nat.mod_lt _ (by decide), by show 1 < _; decide, by show 3 < _; decide, by show 100 < _; decide,
      by show 20 < _; decide, ?_, ?_⟩
    · show optWF (some mat)
      decide +kernel
    · show optWF none
      decide +kernel
  ext := by
    refine ⟨by show 0x48 < _; decide, by show 1 < _; decide, by show 1 < _; decide, ?_, ?_, by show 0 < _; decide,
      by show 0 < _; decide, by show 0 < _; decide, by show 0 < _; decide, by show 0 < _; decide⟩
    · show w / 4096 < 4; omega
    · show h / 4096 < 4; omega
  marker := rfl
  chroma := rfl
  width := by
    show (w + 15) / 16 = (4096 * (w / 4096) + w % 4096 + 15) / 16
    rw [Nat.div_add_mod]
  height := by
    show (h + 15) / 16 = (4096 * (h / 4096) + h % 4096 + 15) / 16
    rw [Nat.div_add_mod]
  even := rfl
  intra := fun m hm => by
    have : m = mat := by cases hm; rfl
    subst this
    show raster mat = mat
    decide +kernel
  nonIntra := fun m hm => by cases hm

theorem picOK {w h : Nat} (C : Coeffs) (hw : w < 16384) (hh : h < 16384) (h0 : 0 < h) :
    (picture w h C).OK (mbCount w) (mbCount h) where
  seq := fun q hq => by cases hq; exact seqOK hw hh
  gop := fun g hg => by cases hg; decide
  hdr := by show (⟨0, .other 1, 0, []⟩ : Pic).WF; decide
  ext := by
    refine ⟨by show 1 < 16; decide, by show 1 < 16; decide, by show 1 < 16; decide, by show 1 < 16; decide, by show 3 < 4; decide,
      by show 3 < 4; decide, by show 1 < 2; decide, by show 1 < 2; decide, by show 0 < 2; decide, by show 0 < 2; decide, ?_⟩
    intro c hc; cases hc
  structure_ := rfl
  conceal := fun h => by cases h
  f00 := Nat.le_refl 1
  f01 := Nat.le_refl 1
  f10 := Nat.le_refl 1
  f11 := Nat.le_refl 1
  items := fun it h => by cases h
  slices := by
    intro hs
    have := congrArg List.length hs
    rw [picture, List.length_map, List.length_range'] at this
    unfold mbCount at this
    simp only [List.length_nil] at this
    omega

theorem parts_fine {w h : Nat} {C : Coeffs} (hC : InRange C) (hw0 : 0 < w) (hh : h ≤ 2800) (r : RefPics) (pos : Nat) :
    ∃ b, Parts pos ((picture w h C).parts (ctxOf w h) r (mbCount w) (mbCount h)) b := by
  refine ExStream.parts_ex ?_ pos
  intro P hP pos
  simp only [Coded.parts, picture, List.cons_append, List.nil_append, List.mem_cons, List.not_mem_nil, or_false] at hP
  rcases hP with rfl | rfl | rfl | rfl | rfl | rfl | rfl | rfl | rfl
  · exact ExStream.stuffed_ex _ _
  · exact ExStream.stuffed_ex _ _
  · exact ExStream.items_ex _ _
  · exact ExStream.stuffed_ex _ _
  · exact ExStream.items_ex _ _
  · exact ExStream.stuffed_ex _ _
  · exact ExStream.stuffed_ex _ _
  · exact ExStream.items_ex _ _
  · exact (slices_fine (fine w h C) r hC (by unfold mbCount; omega) (by unfold mbCount; omega) (mbCount h) 0 pos blank (by omega)).1

theorem image_fine {w h : Nat} {C : Coeffs} (hC : InRange C) (hw0 : 0 < w) (hh : h ≤ 2800) (r : RefPics) (c x y : Nat)
    (hx : x < side c * mbCount w) (hy : y < side c * mbCount h) :
    (picture w h C).image (ctxOf w h) r c x y = target C c x y := by
  have := (slices_fine (fine w h C) r hC (W := mbCount w) (H := mbCount h) (by unfold mbCount; omega) (by unfold mbCount; omega)
    (mbCount h) 0 0 blank (by omega)).2 c x y
  refine this.trans (if_pos ⟨Nat.div_lt_of_lt_mul hx, Nat.zero_le _, ?_⟩)
  rw [Nat.zero_add]
  exact Nat.div_lt_of_lt_mul hy

/-- images that stand for others -/
def NearAll (W H : Nat) (Q P : Image) : Prop := ∀ c x y, c < 3 → x < side c * W → y < side c * H →
  Q c x y ≤ P c x y + 4 ∧ P c x y ≤ Q c x y + 4

theorem groups_ex {w h : Nat} (hw0 : 0 < w) (hw : w < 16384) (hh0 : 0 < h) (hh : h ≤ 2800) :
    ∀ (Ps : List Image), (∀ P ∈ Ps, EightBit P) → ∀ (base : Nat) (σ : Option Ctx) (prev : Option Image) (pos : Nat),
      ∃ gs bits imgs, GroupsCode (mbCount w) (mbCount h) base σ prev pos gs bits imgs ∧ gs.length = Ps.length ∧
        imgs.length = Ps.length ∧ ∀ i (h1 : i < imgs.length) (h2 : i < Ps.length), NearAll (mbCount w) (mbCount h) imgs[i] Ps[i]
  | [], _, base, σ, prev, pos => ⟨[], [], [], .nil, rfl, rfl, fun i h1 => by cases h1⟩
  | P :: Ps, hPs, base, σ, prev, pos => by
    have hP := hPs P (List.mem_cons_self ..)
    have hC := coeffs_inRange P hP
    obtain ⟨b, hb⟩ := parts_fine (w := w) (h := h) hC hw0 hh ⟨prev, none⟩ pos
    obtain ⟨gs, bits, imgs, hg, hl, hli, hn⟩ := groups_ex hw0 hw hh0 hh Ps (fun Q hQ => hPs Q (List.mem_cons_of_mem _ hQ)) 1
      (some (ctxOf w h)) (some ((picture w h (coeffs P hP)).image (ctxOf w h) ⟨prev, none⟩)) (pos + b.length + 0)
    refine ⟨⟨picture w h (coeffs P hP), []⟩ :: gs, _, _, .cons (picOK _ hw (by omega) hh0) (.inl rfl) rfl rfl rfl hb .nil hg,
      by simp only [List.length_cons, hl], by simp only [List.nil_append, List.length_cons, hli], ?_⟩
    intro i h1 h2
    cases i with
    | zero =>
      intro c x y hc hx hy
      show (picture w h (coeffs P hP)).image (ctxOf w h) ⟨prev, none⟩ c x y ≤ P c x y + 4 ∧
        P c x y ≤ (picture w h (coeffs P hP)).image (ctxOf w h) ⟨prev, none⟩ c x y + 4
      rw [image_fine hC hw0 hh _ c x y hx hy]
      exact target_near P hP c x y hc
    | succ i => exact hn i (by simpa using h1) (by simpa using h2)

end Universal

variable {stop : Err} {later : List (List Bool × Err)}

/-- **C135**: for every picture size up to 16383 × 2800 and every non-empty list of 8-bit 4:2:0 images there is a stream
from which a new decoder returns exactly as many pictures, each within 4 levels of its image in every sample of
every component, and then reports the end of the stream — whatever precedes (zero bytes) and follows the stream, and however
the source ends.

The stream is made of the syntax elements of the standard; 4 is the sum of the roundings of the coefficients (at most
4.1, with the finest quantiser) and of the inverse transform of the source (less than 0.8).  No hypothesis of C75 is
left: sizes, contents and numbers of pictures are arbitrary. -/
theorem C135 {w h : Nat} (hw0 : 0 < w) (hw : w < 16384) (hh0 : 0 < h) (hh : h ≤ 2800) (Ps : List Image) (hne : Ps ≠ [])
    (hP : ∀ P ∈ Ps, EightBit P) (lead : Nat) :
    ∃ bits : List Bool, ∀ (rest : List Bool) (fuel k : Nat), bits.length < fuel → 2 ≤ k →
      ∃ frames t, nexts fuel k Ps.length (VS.new ⟨zeros (8 * lead) ++ (bits ++ (bitsOf 32 0x1B7 ++ rest)), 0, stop, later⟩) =
          (.ok frames, t) ∧
        frames.length = Ps.length ∧
        (∀ i (h1 : i < frames.length) (h2 : i < Ps.length), NearImage 4 (mbCount w) (mbCount h) frames[i] Ps[i]) ∧
        (VS.next fuel k t).1 = .err .eos ∧ (VS.next fuel k t).2.br.bits = rest := by
  obtain ⟨gs, bits, imgs, hg, hl, hli, hn⟩ := groups_ex hw0 hw hh0 hh Ps hP 0 none none (8 * lead)
  refine ⟨bits, fun rest fuel k hf hk => ?_⟩
  have hgs : gs ≠ [] := by
    intro h
    rw [h] at hl
    exact hne (List.length_eq_zero_iff.mp hl.symm)
  obtain ⟨frames, t, h1, h2, h3, h4, h5⟩ := C75_partial (stop := stop) (later := later) (rest := rest) hk hgs hg hf
  rw [hli] at h1 h2
  refine ⟨frames, t, h1, h2, fun i i1 i2 => ?_, h4, h5⟩
  have sh := h3 i i1 (by omega)
  have nr := hn i (by omega) i2
  refine ⟨sh.1, fun c x y hc hx hy => ?_⟩
  rw [sh.2 c x y hc hx hy]
  exact nr c x y hc hx hy

/-- a case: a black picture of 720 x 576 samples and a chequered one -/
example : ∃ bits : List Bool, ∀ (rest : List Bool) (fuel k : Nat), bits.length < fuel → 2 ≤ k →
    ∃ frames t, nexts fuel k 2 (VS.new ⟨zeros (8 * 3) ++ (bits ++ (bitsOf 32 0x1B7 ++ rest)), 0, .eof, []⟩) = (.ok frames, t) ∧
      frames.length = 2 ∧
      (∀ i (h1 : i < frames.length) (h2 : i < 2), NearImage 4 45 36 frames[i]
        [fun _ _ _ => 0, fun c x y => if c = 0 then 255 * ((x / 16 + y / 16) % 2) else 128][i]) ∧
      (VS.next fuel k t).1 = .err .eos ∧ (VS.next fuel k t).2.br.bits = rest :=
  C135 (w := 720) (h := 576) (by decide) (by decide) (by decide) (by decide)
    [fun _ _ _ => 0, fun c x y => if c = 0 then 255 * ((x / 16 + y / 16) % 2) else 128] (List.cons_ne_nil _ _) (by
      intro P hP
      simp only [List.mem_cons, List.not_mem_nil, or_false] at hP
      rcases hP with rfl | rfl
      · intro c x y; exact Nat.zero_le _
      · intro c x y
        show (if c = 0 then 255 * ((x / 16 + y / 16) % 2) else 128) ≤ 255
        split <;> omega) 3

end Mpeg.Video
