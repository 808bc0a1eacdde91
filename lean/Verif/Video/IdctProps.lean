import Verif.Video.IdctLemmas3

/-!
C51: accuracy of the fixed-point inverse DCT against the real one (`Spec.realIdct`), absence of overflow, and where both
fail.
-/

namespace Mpeg.Video

open Finset Mpeg.Video.Spec

/-- **C51** for every coefficient block whose exact inverse DCT consists of possible prediction errors (differences of two
8-bit samples): each of the 64 results of the 32-bit transform differs from the exact value by less than 1.
Missing (and false, `C51_false`): coefficient blocks that are merely saturated to [-2048, 2047]. -/
theorem C51_partial (F : Block) (h : ∀ y < 8, ∀ x < 8, |realIdct F y x| ≤ 255) (y x : Nat) (hy : y < 8) (hx : x < 8) :
    |(idct F (8 * y + x) : ℝ) - realIdct F y x| < 1 := by
  rw [IdctR.idct_exact h y x hy hx]
  exact IdctR.idctZ_residual h y x hy hx

/-- **C51**, overflow: on those blocks the `int32` computation agrees with the same computation on unbounded integers
(`idctZ`: the text of `idctRow` and `idctCol` without the reductions modulo 2^32). -/
theorem C51_no_overflow_partial (F : Block) (h : ∀ y < 8, ∀ x < 8, |realIdct F y x| ≤ 255) (y x : Nat) (hy : y < 8)
    (hx : x < 8) : idct F (8 * y + x) = idctZ F (8 * y + x) :=
  IdctR.idct_exact h y x hy hx

/-- Without wrap-around the algorithm is accurate for every block, with an error growing with the coefficients. -/
theorem C51_algorithm (F : Block) (y x : Nat) (hy : y < 8) (hx : x < 8) :
    |(idctZ F (8 * y + x) : ℝ) - realIdct F y x| ≤ 6 / 10 +
      2 / 10000 * ∑ v ∈ range 8, ∑ u ∈ range 8, |(F (8 * v + u) : ℝ)| :=
  IdctR.idctZ_near_l1 F y x hy hx

/-- Samples are at most a quarter of the sum of the coefficients. -/
theorem realIdct_small (F : Block) (B : ℝ) (h : ∑ v ∈ range 8, ∑ u ∈ range 8, |(F (8 * v + u) : ℝ)| ≤ 4 * B)
    (y x : Nat) : |realIdct F y x| ≤ B := by
  have hs : ∀ u, |cosScale u| ≤ 1 := by
    intro u
    unfold cosScale
    split
    · have h2 : (1 : ℝ) ≤ √2 := by
        rw [show (1 : ℝ) = √1 by simp]
        exact Real.sqrt_le_sqrt (by norm_num)
      rw [abs_of_nonneg (by positivity), div_le_one (by positivity)]
      exact h2
    · simp
  have hm : ∀ {a b : ℝ}, |a| ≤ 1 → 0 ≤ b → b * |a| ≤ b := fun ha hb => by nlinarith
  unfold realIdct
  rw [abs_mul, abs_of_pos (by norm_num : (0 : ℝ) < 2 / 8)]
  have : |∑ v ∈ range 8, ∑ u ∈ range 8, cosScale u * cosScale v * (F (8 * v + u) : ℝ) *
      Real.cos ((2 * x + 1) * u * Real.pi / 16) * Real.cos ((2 * y + 1) * v * Real.pi / 16)| ≤
      ∑ v ∈ range 8, ∑ u ∈ range 8, |(F (8 * v + u) : ℝ)| := by
    refine (Finset.abs_sum_le_sum_abs _ _).trans (Finset.sum_le_sum fun v _ => ?_)
    refine (Finset.abs_sum_le_sum_abs _ _).trans (Finset.sum_le_sum fun u _ => ?_)
    rw [abs_mul, abs_mul, abs_mul, abs_mul]
    refine (hm (Real.abs_cos_le_one _) (by positivity)).trans ?_
    refine (hm (Real.abs_cos_le_one _) (by positivity)).trans ?_
    calc |cosScale u| * |cosScale v| * |(F (8 * v + u) : ℝ)|
        = |(F (8 * v + u) : ℝ)| * |cosScale u| * |cosScale v| := by ring
      _ ≤ |(F (8 * v + u) : ℝ)| * |cosScale u| := hm (hs v) (by positivity)
      _ ≤ |(F (8 * v + u) : ℝ)| := hm (hs u) (abs_nonneg _)
  linarith

/-- A simple sufficient condition on the coefficients alone. -/
theorem C51_sum_partial (F : Block) (h : ∑ v ∈ range 8, ∑ u ∈ range 8, |F (8 * v + u)| ≤ 1020) (y x : Nat) (hy : y < 8)
    (hx : x < 8) : |(idct F (8 * y + x) : ℝ) - realIdct F y x| < 1 := by
  refine C51_partial F (fun y _ x _ => realIdct_small F 255 ?_ y x) y x hy hx
  have : ((∑ v ∈ range 8, ∑ u ∈ range 8, |F (8 * v + u)| : Int) : ℝ) ≤ ((1020 : Int) : ℝ) := by exact_mod_cast h
  push_cast at this
  linarith

/-- A block with several coefficients, among them a large DC and negative ones, meeting the hypothesis. -/
example : ∃ F : Block, F 0 = 500 ∧ F 1 = -300 ∧ F 63 = 7 ∧ ∀ y < 8, ∀ x < 8, |realIdct F y x| ≤ 255 := by
  refine ⟨fun i => if i = 0 then 500 else if i = 1 then -300 else if i = 63 then 7 else 0, rfl, rfl, rfl, ?_⟩
  intro y _ x _
  apply realIdct_small
  simp only [Finset.sum_range_succ, Finset.sum_range_zero]
  norm_num

/-- A saturated coefficient block -/
def overflowBlock : Block := fun i =>
  if i = 1 then 2047 else if i = 3 then -2048 else if i = 5 then -2047 else if i = 7 then -2047 else 0

/-- **C51** fails for saturated blocks: there is a block of coefficients in [-2048, 2047] with an odd sum (that is, one
that saturation and mismatch control let through) for which the 32-bit computation wraps around and a result is more than
900 away from the exact inverse DCT. -/
theorem C51_false : ∃ F : Block, (∀ i, -2048 ≤ F i ∧ F i ≤ 2047) ∧ ((List.range 64).map F).sum % 2 = 1 ∧
    ∃ y x, y < 8 ∧ x < 8 ∧ idct F (8 * y + x) ≠ idctZ F (8 * y + x) ∧
      900 < |(idct F (8 * y + x) : ℝ) - realIdct F y x| := by
  refine ⟨overflowBlock, ?_, by decide +kernel, 0, 1, by norm_num, by norm_num, ?_⟩
  · intro i
    unfold overflowBlock
    split_ifs <;> norm_num
  · have e1 : idct overflowBlock (8 * 0 + 1) = idctZ overflowBlock (8 * 0 + 1) - 1024 := by decide +kernel
    have n := C51_algorithm overflowBlock 0 1 (by norm_num) (by norm_num)
    have s : ∑ v ∈ range 8, ∑ u ∈ range 8, |(overflowBlock (8 * v + u) : ℝ)| ≤ 8189 := by
      simp only [Finset.sum_range_succ, Finset.sum_range_zero, overflowBlock]
      norm_num
    refine ⟨by omega, ?_⟩
    rw [e1]
    push_cast
    rw [abs_le] at n
    rw [lt_abs]
    right
    linarith [n.1, n.2]

end Mpeg.Video
