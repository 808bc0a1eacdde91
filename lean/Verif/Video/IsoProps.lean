/-
C85: how far decoded pictures are from those of the exact decoder of IsoSpec.lean.
-/
import Verif.Video.IsoLemmas2
import Verif.Video.StreamProps
set_option linter.all false
namespace Mpeg.Video
open Spec Finset

variable {stop : Err} {later : List (List Bool × Err)}

/-- **C85** (partial): a new decoder on a stream as in `C75_partial` returns as many pictures as the exact decoder, and
picture `i` in display order differs from the exact one by at most `(bounds 0 gs)[i]` in each sample: 1 in an I picture,
2 more than in the picture that it is predicted from in a P picture, 3 more in a B picture.

Partial: the scope of `C75_partial`; the exact inverse DCT of each coefficient block is within the differences of two 8-bit
samples, or within -127..383 as for samples with overshoot
(`Mild`; false otherwise: `C51_false`); for the chroma components the components of the motion vectors are not negative
or even (the source rounds chroma vectors down and not towards zero: `C56_chroma_iso_false`). -/
theorem C85_partial {W H lead fuel k : Nat} {gs : List CGroup} {bits rest : List Bool} {imgs : List Image} (hk : 2 ≤ k)
    (hgs : gs ≠ []) (h : GroupsCode W H 0 none none (8 * lead) gs bits imgs) (hf : bits.length < fuel)
    (hF : ∀ F ∈ streamBlocks gs, Mild F) :
    ∃ frames t, nexts fuel k (isoGroups none none gs).length
        (VS.new ⟨zeros (8 * lead) ++ (bits ++ (bitsOf 32 0x1B7 ++ rest)), 0, stop, later⟩) = (.ok frames, t) ∧
      frames.length = (isoGroups none none gs).length ∧ (bounds 0 gs).length = (isoGroups none none gs).length ∧
      (∀ i (h0 : i < (bounds 0 gs).length) (h1 : i < frames.length) (h2 : i < (isoGroups none none gs).length),
        ∀ c < 3, (c ≠ 0 → ∀ m ∈ streamMbs gs, ∀ s t, 0 ≤ m.vec s t ∨ m.vec s t % 2 = 0) →
          ∀ x < side c * W, ∀ y < side c * H,
            near (bounds 0 gs)[i] (sampleOf frames[i] c x y) ((isoGroups none none gs)[i] c x y)) ∧
      (VS.next fuel k t).1 = .err .eos := by
  obtain ⟨frames, t, h1, h2, h3, h4, _⟩ := C75_partial (stop := stop) (later := later) (rest := rest) hk hgs h hf
  have hn : ∀ c < 3, (c ≠ 0 → ∀ m ∈ streamMbs gs, ∀ s t, Halves (m.vec s t)) →
      AllNear c (bounds 0 gs) imgs (isoGroups none none gs) := fun c hc hv =>
    near_groups hc h ⟨fun _ => rfl, fun p hp => by cases hp⟩ hF hv
  obtain ⟨l1, l2, _⟩ := (hn 0 (by decide) (fun h => absurd rfl h)).get
  refine ⟨frames, t, by rw [← l1]; exact h1, by rw [← l1]; exact h2, l2, ?_, h4⟩
  intro i i0 i1 i2 c hc hv x hx y hy
  rw [(h3 i i1 (by omega)).2 c x y hc hx hy]
  exact (hn c hc hv).get.2.2 i i0 (by omega) i2 x y

/-- Streams of I and P pictures: with `n` P pictures after an I picture the last is at most `2 n + 1` off; the next I
picture ends the drift. -/
theorem C85_drift {gs : List CGroup} : ∀ (n : Nat) {prev : Nat} {g : CGroup}, gs.length = n → g.bs = [] →
    g.ref.hdr.kind.code = 1 → (∀ p ∈ gs, p.bs = [] ∧ p.ref.hdr.kind.code = 2) → ∀ i (h : i < (bounds prev (g :: gs)).length),
      (bounds prev (g :: gs))[i] = 2 * i + 1 := by
  have key : ∀ (gs : List CGroup), (∀ p ∈ gs, p.bs = [] ∧ p.ref.hdr.kind.code = 2) → ∀ prev i (h : i < (bounds prev gs).length),
      (bounds prev gs)[i] = prev + 2 * (i + 1) := by
    intro gs
    induction gs with
    | nil => intro _ prev i h; exact absurd h (Nat.not_lt_zero _)
    | cons p gs ih =>
      intro hp prev i h
      obtain ⟨e1, e2⟩ := hp p (List.mem_cons_self ..)
      have hb : bounds prev (p :: gs) = (prev + 2) :: bounds (prev + 2) gs := by
        rw [bounds, e1]
        unfold refBound
        rw [if_neg (by omega)]
        rfl
      simp only [hb] at h ⊢
      cases i with
      | zero => rfl
      | succ i =>
        rw [List.getElem_cons_succ, ih (fun q hq => hp q (List.mem_cons_of_mem _ hq))]
        omega
  intro n prev g _ h1 h2 hp i h
  have hb : bounds prev (g :: gs) = 1 :: bounds 1 gs := by
    rw [bounds, h1]
    unfold refBound
    rw [if_pos h2]
    rfl
  simp only [hb] at h ⊢
  cases i with
  | zero => rfl
  | succ i => rw [List.getElem_cons_succ, key gs hp]; omega

/-! ### the stream of I, P and B picture of StreamProps.lean -/

/-- Samples are at most an eighth of the DC coefficient and a quarter of the others. -/
theorem realIdct_dc (F : Block) (B : ℝ)
    (h : ∑ v ∈ range 8, ∑ u ∈ range 8, |((if 8 * v + u = 0 then 0 else F (8 * v + u) : Int) : ℝ)| ≤ 4 * B) (y x : Nat) :
    |realIdct F y x| ≤ |(F 0 : ℝ)| / 8 + B := by
  have h1 := realIdct_small (fun i => if i = 0 then 0 else F i) B h y x
  have h2 : realIdct F y x = (F 0 : ℝ) / 8 + realIdct (fun i => if i = 0 then 0 else F i) y x := by
    unfold realIdct
    have hs : (cosScale 0 : ℝ) * cosScale 0 = 1 / 2 := by
      unfold cosScale
      rw [if_pos rfl, div_mul_div_comm, one_mul, Real.mul_self_sqrt (by norm_num)]
    simp only [Finset.sum_range_succ, Finset.sum_range_zero, Nat.mul_zero, Nat.zero_add, Nat.add_zero, Nat.cast_zero,
      mul_zero, zero_mul, zero_div, Real.cos_zero, mul_one, hs, if_true]
    norm_num
    ring
  rw [h2]
  refine (abs_add_le _ _).trans ?_
  rw [abs_div, abs_of_pos (by norm_num : (0 : ℝ) < 8)]
  linarith

theorem mild_of (F : Block) (h : 2 * ((List.range 64).map fun i => if i = 0 then 0 else |F i|).sum ≤ 2040 - |F 0|) : ∀ y < 8, ∀ x < 8, |realIdct F y x| ≤ 255 := by
  intro y _ x _
  have e : (∑ v ∈ range 8, ∑ u ∈ range 8, |(if 8 * v + u = 0 then 0 else F (8 * v + u) : Int)|) =
      ((List.range 64).map fun i => if i = 0 then 0 else |F i|).sum := by
    have hr : List.range 64 = [0, 1, 2, 3, 4, 5, 6, 7, 8, 9, 10, 11, 12, 13, 14, 15, 16, 17, 18, 19, 20, 21, 22, 23, 24, 25,
      26, 27, 28, 29, 30, 31, 32, 33, 34, 35, 36, 37, 38, 39, 40, 41, 42, 43, 44, 45, 46, 47, 48, 49, 50, 51, 52, 53, 54, 55,
      56, 57, 58, 59, 60, 61, 62, 63] := by decide
    rw [hr]
    simp only [Finset.sum_range_succ, Finset.sum_range_zero, List.map_cons, List.map_nil, List.sum_cons, List.sum_nil]
    norm_num
    ring
  have h0 : (∑ v ∈ range 8, ∑ u ∈ range 8, |((if 8 * v + u = 0 then 0 else F (8 * v + u) : Int) : ℝ)|) ≤
      4 * (255 - |(F 0 : ℝ)| / 8) := by
    have : ((∑ v ∈ range 8, ∑ u ∈ range 8, |(if 8 * v + u = 0 then 0 else F (8 * v + u) : Int)| : Int) : ℝ) * 2 ≤
        ((255 * 8 - |F 0| : Int) : ℝ) := by
      have : (∑ v ∈ range 8, ∑ u ∈ range 8, |(if 8 * v + u = 0 then 0 else F (8 * v + u) : Int)|) * 2 ≤ 255 * 8 - |F 0| := by
        omega
      exact_mod_cast this
    push_cast at this ⊢
    linarith
  have := realIdct_dc F _ h0 y x
  linarith

namespace ExStream

/-- I, and P with a B picture before it -/
def three : List CGroup := [⟨picI 16 1 [sl 0 mbI], []⟩, ⟨picP, [picB]⟩]

/-- The condition of `mild_of` on a block. -/
def small (F : Block) : Bool :=
  decide (2 * ((List.range 64).map fun i => if i = 0 then 0 else |F i|).sum ≤ 2040 - |F 0|)

theorem three_small : (streamBlocks three).all small = true := by decide +kernel

theorem three_mild : ∀ F ∈ streamBlocks three, Mild F := fun F hx => .inl <|
  mild_of F (of_decide_eq_true (List.all_eq_true.mp three_small F hx))

/-- seven coded blocks: six intra, one with the coefficients of the P macroblock -/
theorem three_blocks : (streamBlocks three).length = 7 ∧ ((streamBlocks three).map fun F => F 0) =
    [1064, 1064, 1064, 1064, 1000, 1024, 25] := by decide +kernel

theorem three_bounds : bounds 0 three = [1, 6, 3] := by decide

/-- All three components of the three pictures. -/
example : ∃ bits frames t, nexts (bits.length + 1) 2 3 (VS.new ⟨zeros (8 * 1) ++ (bits ++ (bitsOf 32 0x1B7 ++ [])), 0, .eof, []⟩) =
    (.ok frames, t) ∧ ∃ (h0 : 0 < frames.length) (h1 : 1 < frames.length) (h2 : 2 < frames.length) (isos : Fin 3 → Image),
      (∀ c < 3, ∀ x < side c * 1, ∀ y < side c * 1, near 1 (sampleOf frames[0] c x y) (isos 0 c x y) ∧
        near 6 (sampleOf frames[1] c x y) (isos 1 c x y) ∧ near 3 (sampleOf frames[2] c x y) (isos 2 c x y)) := by
  obtain ⟨bits, imgs, h, h3⟩ := stream
  obtain ⟨frames, t, h1, h2, hb, hn, _⟩ := C85_partial (lead := 1) (stop := .eof) (later := []) (rest := []) (k := 2)
    (Nat.le_refl _) (List.cons_ne_nil _ _) h (Nat.lt_succ_self _) three_mild
  have hl : (isoGroups none none three).length = 3 := by
    have : (bounds 0 three).length = 3 := by rw [three_bounds]; rfl
    exact hb.symm.trans this
  have h1 : nexts (bits.length + 1) 2 (isoGroups none none three).length _ = _ := h1
  have h2 : frames.length = (isoGroups none none three).length := h2
  have hb : (bounds 0 three).length = (isoGroups none none three).length := hb
  rw [hl] at h1 h2 hb
  have hv : ∀ m ∈ streamMbs three, ∀ s t, 0 ≤ m.vec s t ∨ m.vec s t % 2 = 0 := by
    intro m hm s t
    have hm : m ∈ [mbI, mbP, mbB] := hm
    simp only [List.mem_cons, List.not_mem_nil, or_false] at hm
    rcases hm with rfl | rfl | rfl <;> exact .inl (Int.le_refl _)
  have hn : ∀ i (h0 : i < (bounds 0 three).length) (h1 : i < frames.length) (h2 : i < (isoGroups none none three).length),
      ∀ c < 3, (c ≠ 0 → ∀ m ∈ streamMbs three, ∀ s t, 0 ≤ m.vec s t ∨ m.vec s t % 2 = 0) →
        ∀ x < side c * 1, ∀ y < side c * 1,
          near (bounds 0 three)[i] (sampleOf frames[i] c x y) ((isoGroups none none three)[i] c x y) := hn
  simp only [three_bounds] at hn
  refine ⟨bits, frames, t, h1, by omega, by omega, by omega, fun i => (isoGroups none none three)[i.val]'(by omega), ?_⟩
  intro c hc x hx y hy
  exact ⟨hn 0 (by decide) (by omega) (by omega) c hc (fun _ => hv) x hx y hy,
    hn 1 (by decide) (by omega) (by omega) c hc (fun _ => hv) x hx y hy,
    hn 2 (by decide) (by omega) (by omega) c hc (fun _ => hv) x hx y hy⟩

end ExStream

/-- The drift of `C85_drift` on an I and two P pictures. -/
example : bounds 0 [⟨ExStream.picI 16 1 [], []⟩, ⟨ExStream.picP, []⟩, ⟨ExStream.picP, []⟩] = [1, 3, 5] := by decide

end Mpeg.Video
