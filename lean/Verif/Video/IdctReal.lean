import Mathlib.Algebra.Order.Chebyshev
import Mathlib.Tactic.Linarith
import Mathlib.Tactic.LinearCombination
import Mathlib.Tactic.NormNum
import Mathlib.Tactic.FieldSimp
import Mathlib.Tactic.Positivity
import Mathlib.Tactic.IntervalCases
import Verif.Video.IdctSpec

/-! The cosine basis of the inverse DCT: explicit entries, numeric enclosures and the Parseval identity. -/

namespace Mpeg.Video.IdctR

open Finset Mpeg.Video.Spec

/-- `16 √2` times the orthonormal basis -/
noncomputable def E (x u : Nat) : ℝ := 8 * √2 * cosScale u * Real.cos ((2 * x + 1) * u * Real.pi / 16)

/-- `√2 cos(jπ/16)` -/
noncomputable def k (j : Nat) : ℝ := √2 * Real.cos (j * Real.pi / 16)

theorem E_pos (x u : Nat) (h : 0 < u) : E x u = 8 * k ((2 * x + 1) * u) := by
  unfold E k cosScale
  rw [if_neg (by omega)]
  push_cast
  ring

theorem k_add (q r : Nat) : k (16 * q + r) = (-1) ^ q * k r := by
  unfold k
  rw [show ((16 * q + r : Nat) : ℝ) * Real.pi / 16 = r * Real.pi / 16 + q * Real.pi by push_cast; ring,
    Real.cos_add_nat_mul_pi]
  ring

theorem k_sub (j : Nat) (h : j ≤ 16) : k (16 - j) = -k j := by
  unfold k
  rw [Nat.cast_sub h, show (((16 : Nat) : ℝ) - j) * Real.pi / 16 = Real.pi - j * Real.pi / 16 by push_cast; ring,
    Real.cos_pi_sub]
  ring

theorem k_four : k 4 = 1 := by
  unfold k
  rw [show ((4 : Nat) : ℝ) * Real.pi / 16 = Real.pi / 4 by push_cast; ring, Real.cos_pi_div_four]
  have := Real.mul_self_sqrt (show (0 : ℝ) ≤ 2 by norm_num)
  linarith

theorem E_0_1 : E 0 1 = (8 * k 1) := by
  rw [E_pos 0 1 (by norm_num)]

theorem E_0_2 : E 0 2 = (8 * k 2) := by
  rw [E_pos 0 2 (by norm_num)]

theorem E_0_3 : E 0 3 = (8 * k 3) := by
  rw [E_pos 0 3 (by norm_num)]

theorem E_0_4 : E 0 4 = 8 := by
  rw [E_pos 0 4 (by norm_num), show ((2 * 0 + 1) * 4 : Nat) = 16 * 0 + 4 from rfl, k_add, k_four]; norm_num

theorem E_0_5 : E 0 5 = (8 * k 5) := by
  rw [E_pos 0 5 (by norm_num)]

theorem E_0_6 : E 0 6 = (8 * k 6) := by
  rw [E_pos 0 6 (by norm_num)]

theorem E_0_7 : E 0 7 = (8 * k 7) := by
  rw [E_pos 0 7 (by norm_num)]

theorem E_1_1 : E 1 1 = (8 * k 3) := by
  rw [E_pos 1 1 (by norm_num)]

theorem E_1_2 : E 1 2 = (8 * k 6) := by
  rw [E_pos 1 2 (by norm_num)]

theorem E_1_3 : E 1 3 = -(8 * k 7) := by
  rw [E_pos 1 3 (by norm_num), show ((2 * 1 + 1) * 3 : Nat) = 16 * 0 + 9 from rfl, k_add, show (9 : Nat) = 16 - 7 from rfl, k_sub 7 (by norm_num)]; norm_num

theorem E_1_4 : E 1 4 = -8 := by
  rw [E_pos 1 4 (by norm_num), show ((2 * 1 + 1) * 4 : Nat) = 16 * 0 + 12 from rfl, k_add, show (12 : Nat) = 16 - 4 from rfl, k_sub 4 (by norm_num), k_four]; norm_num

theorem E_1_5 : E 1 5 = -(8 * k 1) := by
  rw [E_pos 1 5 (by norm_num), show ((2 * 1 + 1) * 5 : Nat) = 16 * 0 + 15 from rfl, k_add, show (15 : Nat) = 16 - 1 from rfl, k_sub 1 (by norm_num)]; norm_num

theorem E_1_6 : E 1 6 = -(8 * k 2) := by
  rw [E_pos 1 6 (by norm_num), show ((2 * 1 + 1) * 6 : Nat) = 16 * 1 + 2 from rfl, k_add]; norm_num

theorem E_1_7 : E 1 7 = -(8 * k 5) := by
  rw [E_pos 1 7 (by norm_num), show ((2 * 1 + 1) * 7 : Nat) = 16 * 1 + 5 from rfl, k_add]; norm_num

theorem E_2_1 : E 2 1 = (8 * k 5) := by
  rw [E_pos 2 1 (by norm_num)]

theorem E_2_2 : E 2 2 = -(8 * k 6) := by
  rw [E_pos 2 2 (by norm_num), show ((2 * 2 + 1) * 2 : Nat) = 16 * 0 + 10 from rfl, k_add, show (10 : Nat) = 16 - 6 from rfl, k_sub 6 (by norm_num)]; norm_num

theorem E_2_3 : E 2 3 = -(8 * k 1) := by
  rw [E_pos 2 3 (by norm_num), show ((2 * 2 + 1) * 3 : Nat) = 16 * 0 + 15 from rfl, k_add, show (15 : Nat) = 16 - 1 from rfl, k_sub 1 (by norm_num)]; norm_num

theorem E_2_4 : E 2 4 = -8 := by
  rw [E_pos 2 4 (by norm_num), show ((2 * 2 + 1) * 4 : Nat) = 16 * 1 + 4 from rfl, k_add, k_four]; norm_num

theorem E_2_5 : E 2 5 = (8 * k 7) := by
  rw [E_pos 2 5 (by norm_num), show ((2 * 2 + 1) * 5 : Nat) = 16 * 1 + 9 from rfl, k_add, show (9 : Nat) = 16 - 7 from rfl, k_sub 7 (by norm_num)]; norm_num

theorem E_2_6 : E 2 6 = (8 * k 2) := by
  rw [E_pos 2 6 (by norm_num), show ((2 * 2 + 1) * 6 : Nat) = 16 * 1 + 14 from rfl, k_add, show (14 : Nat) = 16 - 2 from rfl, k_sub 2 (by norm_num)]; norm_num

theorem E_2_7 : E 2 7 = (8 * k 3) := by
  rw [E_pos 2 7 (by norm_num), show ((2 * 2 + 1) * 7 : Nat) = 16 * 2 + 3 from rfl, k_add]; norm_num

theorem E_3_1 : E 3 1 = (8 * k 7) := by
  rw [E_pos 3 1 (by norm_num)]

theorem E_3_2 : E 3 2 = -(8 * k 2) := by
  rw [E_pos 3 2 (by norm_num), show ((2 * 3 + 1) * 2 : Nat) = 16 * 0 + 14 from rfl, k_add, show (14 : Nat) = 16 - 2 from rfl, k_sub 2 (by norm_num)]; norm_num

theorem E_3_3 : E 3 3 = -(8 * k 5) := by
  rw [E_pos 3 3 (by norm_num), show ((2 * 3 + 1) * 3 : Nat) = 16 * 1 + 5 from rfl, k_add]; norm_num

theorem E_3_4 : E 3 4 = 8 := by
  rw [E_pos 3 4 (by norm_num), show ((2 * 3 + 1) * 4 : Nat) = 16 * 1 + 12 from rfl, k_add, show (12 : Nat) = 16 - 4 from rfl, k_sub 4 (by norm_num), k_four]; norm_num

theorem E_3_5 : E 3 5 = (8 * k 3) := by
  rw [E_pos 3 5 (by norm_num), show ((2 * 3 + 1) * 5 : Nat) = 16 * 2 + 3 from rfl, k_add]; norm_num

theorem E_3_6 : E 3 6 = -(8 * k 6) := by
  rw [E_pos 3 6 (by norm_num), show ((2 * 3 + 1) * 6 : Nat) = 16 * 2 + 10 from rfl, k_add, show (10 : Nat) = 16 - 6 from rfl, k_sub 6 (by norm_num)]; norm_num

theorem E_3_7 : E 3 7 = -(8 * k 1) := by
  rw [E_pos 3 7 (by norm_num), show ((2 * 3 + 1) * 7 : Nat) = 16 * 3 + 1 from rfl, k_add]; norm_num

theorem E_4_1 : E 4 1 = -(8 * k 7) := by
  rw [E_pos 4 1 (by norm_num), show ((2 * 4 + 1) * 1 : Nat) = 16 * 0 + 9 from rfl, k_add, show (9 : Nat) = 16 - 7 from rfl, k_sub 7 (by norm_num)]; norm_num

theorem E_4_2 : E 4 2 = -(8 * k 2) := by
  rw [E_pos 4 2 (by norm_num), show ((2 * 4 + 1) * 2 : Nat) = 16 * 1 + 2 from rfl, k_add]; norm_num

theorem E_4_3 : E 4 3 = (8 * k 5) := by
  rw [E_pos 4 3 (by norm_num), show ((2 * 4 + 1) * 3 : Nat) = 16 * 1 + 11 from rfl, k_add, show (11 : Nat) = 16 - 5 from rfl, k_sub 5 (by norm_num)]; norm_num

theorem E_4_4 : E 4 4 = 8 := by
  rw [E_pos 4 4 (by norm_num), show ((2 * 4 + 1) * 4 : Nat) = 16 * 2 + 4 from rfl, k_add, k_four]; norm_num

theorem E_4_5 : E 4 5 = -(8 * k 3) := by
  rw [E_pos 4 5 (by norm_num), show ((2 * 4 + 1) * 5 : Nat) = 16 * 2 + 13 from rfl, k_add, show (13 : Nat) = 16 - 3 from rfl, k_sub 3 (by norm_num)]; norm_num

theorem E_4_6 : E 4 6 = -(8 * k 6) := by
  rw [E_pos 4 6 (by norm_num), show ((2 * 4 + 1) * 6 : Nat) = 16 * 3 + 6 from rfl, k_add]; norm_num

theorem E_4_7 : E 4 7 = (8 * k 1) := by
  rw [E_pos 4 7 (by norm_num), show ((2 * 4 + 1) * 7 : Nat) = 16 * 3 + 15 from rfl, k_add, show (15 : Nat) = 16 - 1 from rfl, k_sub 1 (by norm_num)]; norm_num

theorem E_5_1 : E 5 1 = -(8 * k 5) := by
  rw [E_pos 5 1 (by norm_num), show ((2 * 5 + 1) * 1 : Nat) = 16 * 0 + 11 from rfl, k_add, show (11 : Nat) = 16 - 5 from rfl, k_sub 5 (by norm_num)]; norm_num

theorem E_5_2 : E 5 2 = -(8 * k 6) := by
  rw [E_pos 5 2 (by norm_num), show ((2 * 5 + 1) * 2 : Nat) = 16 * 1 + 6 from rfl, k_add]; norm_num

theorem E_5_3 : E 5 3 = (8 * k 1) := by
  rw [E_pos 5 3 (by norm_num), show ((2 * 5 + 1) * 3 : Nat) = 16 * 2 + 1 from rfl, k_add]; norm_num

theorem E_5_4 : E 5 4 = -8 := by
  rw [E_pos 5 4 (by norm_num), show ((2 * 5 + 1) * 4 : Nat) = 16 * 2 + 12 from rfl, k_add, show (12 : Nat) = 16 - 4 from rfl, k_sub 4 (by norm_num), k_four]; norm_num

theorem E_5_5 : E 5 5 = -(8 * k 7) := by
  rw [E_pos 5 5 (by norm_num), show ((2 * 5 + 1) * 5 : Nat) = 16 * 3 + 7 from rfl, k_add]; norm_num

theorem E_5_6 : E 5 6 = (8 * k 2) := by
  rw [E_pos 5 6 (by norm_num), show ((2 * 5 + 1) * 6 : Nat) = 16 * 4 + 2 from rfl, k_add]; norm_num

theorem E_5_7 : E 5 7 = -(8 * k 3) := by
  rw [E_pos 5 7 (by norm_num), show ((2 * 5 + 1) * 7 : Nat) = 16 * 4 + 13 from rfl, k_add, show (13 : Nat) = 16 - 3 from rfl, k_sub 3 (by norm_num)]; norm_num

theorem E_6_1 : E 6 1 = -(8 * k 3) := by
  rw [E_pos 6 1 (by norm_num), show ((2 * 6 + 1) * 1 : Nat) = 16 * 0 + 13 from rfl, k_add, show (13 : Nat) = 16 - 3 from rfl, k_sub 3 (by norm_num)]; norm_num

theorem E_6_2 : E 6 2 = (8 * k 6) := by
  rw [E_pos 6 2 (by norm_num), show ((2 * 6 + 1) * 2 : Nat) = 16 * 1 + 10 from rfl, k_add, show (10 : Nat) = 16 - 6 from rfl, k_sub 6 (by norm_num)]; norm_num

theorem E_6_3 : E 6 3 = (8 * k 7) := by
  rw [E_pos 6 3 (by norm_num), show ((2 * 6 + 1) * 3 : Nat) = 16 * 2 + 7 from rfl, k_add]; norm_num

theorem E_6_4 : E 6 4 = -8 := by
  rw [E_pos 6 4 (by norm_num), show ((2 * 6 + 1) * 4 : Nat) = 16 * 3 + 4 from rfl, k_add, k_four]; norm_num

theorem E_6_5 : E 6 5 = (8 * k 1) := by
  rw [E_pos 6 5 (by norm_num), show ((2 * 6 + 1) * 5 : Nat) = 16 * 4 + 1 from rfl, k_add]; norm_num

theorem E_6_6 : E 6 6 = -(8 * k 2) := by
  rw [E_pos 6 6 (by norm_num), show ((2 * 6 + 1) * 6 : Nat) = 16 * 4 + 14 from rfl, k_add, show (14 : Nat) = 16 - 2 from rfl, k_sub 2 (by norm_num)]; norm_num

theorem E_6_7 : E 6 7 = (8 * k 5) := by
  rw [E_pos 6 7 (by norm_num), show ((2 * 6 + 1) * 7 : Nat) = 16 * 5 + 11 from rfl, k_add, show (11 : Nat) = 16 - 5 from rfl, k_sub 5 (by norm_num)]; norm_num

theorem E_7_1 : E 7 1 = -(8 * k 1) := by
  rw [E_pos 7 1 (by norm_num), show ((2 * 7 + 1) * 1 : Nat) = 16 * 0 + 15 from rfl, k_add, show (15 : Nat) = 16 - 1 from rfl, k_sub 1 (by norm_num)]; norm_num

theorem E_7_2 : E 7 2 = (8 * k 2) := by
  rw [E_pos 7 2 (by norm_num), show ((2 * 7 + 1) * 2 : Nat) = 16 * 1 + 14 from rfl, k_add, show (14 : Nat) = 16 - 2 from rfl, k_sub 2 (by norm_num)]; norm_num

theorem E_7_3 : E 7 3 = -(8 * k 3) := by
  rw [E_pos 7 3 (by norm_num), show ((2 * 7 + 1) * 3 : Nat) = 16 * 2 + 13 from rfl, k_add, show (13 : Nat) = 16 - 3 from rfl, k_sub 3 (by norm_num)]; norm_num

theorem E_7_4 : E 7 4 = 8 := by
  rw [E_pos 7 4 (by norm_num), show ((2 * 7 + 1) * 4 : Nat) = 16 * 3 + 12 from rfl, k_add, show (12 : Nat) = 16 - 4 from rfl, k_sub 4 (by norm_num), k_four]; norm_num

theorem E_7_5 : E 7 5 = -(8 * k 5) := by
  rw [E_pos 7 5 (by norm_num), show ((2 * 7 + 1) * 5 : Nat) = 16 * 4 + 11 from rfl, k_add, show (11 : Nat) = 16 - 5 from rfl, k_sub 5 (by norm_num)]; norm_num

theorem E_7_6 : E 7 6 = (8 * k 6) := by
  rw [E_pos 7 6 (by norm_num), show ((2 * 7 + 1) * 6 : Nat) = 16 * 5 + 10 from rfl, k_add, show (10 : Nat) = 16 - 6 from rfl, k_sub 6 (by norm_num)]; norm_num

theorem E_7_7 : E 7 7 = -(8 * k 7) := by
  rw [E_pos 7 7 (by norm_num), show ((2 * 7 + 1) * 7 : Nat) = 16 * 6 + 9 from rfl, k_add, show (9 : Nat) = 16 - 7 from rfl, k_sub 7 (by norm_num)]; norm_num

theorem E_zero (x : Nat) : E x 0 = 8 := by
  unfold E cosScale
  have := Real.sqrt_pos.mpr (show (0:ℝ) < 2 by norm_num)
  simp


/-! ### relations -/

theorem k_sq (j : Nat) : k j ^ 2 = 1 + Real.cos (j * Real.pi / 8) := by
  unfold k
  rw [mul_pow, Real.sq_sqrt (by norm_num), Real.cos_sq, show 2 * ((j : ℝ) * Real.pi / 16) = j * Real.pi / 8 by ring]
  ring

theorem k_mul (i j : Nat) : k i * k j = Real.cos ((i + j) * Real.pi / 16) + Real.cos (((i : ℝ) - j) * Real.pi / 16) := by
  unfold k
  have h := Real.mul_self_sqrt (show (0 : ℝ) ≤ 2 by norm_num)
  rw [show ((i : ℝ) + j) * Real.pi / 16 = i * Real.pi / 16 + j * Real.pi / 16 by ring,
    show ((i : ℝ) - j) * Real.pi / 16 = i * Real.pi / 16 - j * Real.pi / 16 by ring, Real.cos_add, Real.cos_sub]
  linear_combination (Real.cos (i * Real.pi / 16) * Real.cos (j * Real.pi / 16)) * h

/-- `c2 = cos(π/8)`, `c6 = cos(3π/8)`, `c4 = cos(π/4)` -/
theorem sq1 : k 1 ^ 2 = 1 + Real.cos (Real.pi / 8) := by rw [k_sq]; norm_num

theorem sq7 : k 7 ^ 2 = 1 - Real.cos (Real.pi / 8) := by
  rw [k_sq, show ((7 : Nat) : ℝ) * Real.pi / 8 = Real.pi - Real.pi / 8 by push_cast; ring, Real.cos_pi_sub]; ring

theorem sq3 : k 3 ^ 2 = 1 + Real.sin (Real.pi / 8) := by
  rw [k_sq, show ((3 : Nat) : ℝ) * Real.pi / 8 = Real.pi / 2 - Real.pi / 8 by push_cast; ring, Real.cos_pi_div_two_sub]

theorem sq5 : k 5 ^ 2 = 1 - Real.sin (Real.pi / 8) := by
  rw [k_sq, show ((5 : Nat) : ℝ) * Real.pi / 8 = Real.pi / 8 + Real.pi / 2 by push_cast; ring, Real.cos_add_pi_div_two]; ring

theorem sq2 : k 2 ^ 2 = 1 + √2 / 2 := by
  rw [k_sq, show ((2 : Nat) : ℝ) * Real.pi / 8 = Real.pi / 4 by push_cast; ring, Real.cos_pi_div_four]

theorem sq6 : k 6 ^ 2 = 1 - √2 / 2 := by
  rw [k_sq, show ((6 : Nat) : ℝ) * Real.pi / 8 = Real.pi - Real.pi / 4 by push_cast; ring, Real.cos_pi_sub,
    Real.cos_pi_div_four]; ring

theorem sum2 : k 2 ^ 2 + k 6 ^ 2 = 2 := by rw [sq2, sq6]; ring

theorem sum4 : k 1 ^ 2 + k 3 ^ 2 + k 5 ^ 2 + k 7 ^ 2 = 4 := by rw [sq1, sq3, sq5, sq7]; ring

theorem cross : k 1 * k 3 - k 3 * k 7 - k 5 * k 1 - k 7 * k 5 = 0 := by
  rw [k_mul, k_mul, k_mul, k_mul]
  push_cast
  rw [show ((1 : ℝ) - 3) * Real.pi / 16 = -(2 * Real.pi / 16) by ring,
    show ((3 : ℝ) - 7) * Real.pi / 16 = -(4 * Real.pi / 16) by ring,
    show ((1 : ℝ) + 3) * Real.pi / 16 = 4 * Real.pi / 16 by ring,
    show ((3 : ℝ) + 7) * Real.pi / 16 = Real.pi - 6 * Real.pi / 16 by ring,
    show ((5 : ℝ) + 1) * Real.pi / 16 = 6 * Real.pi / 16 by ring,
    show ((5 : ℝ) - 1) * Real.pi / 16 = 4 * Real.pi / 16 by ring,
    show ((7 : ℝ) + 5) * Real.pi / 16 = Real.pi - 4 * Real.pi / 16 by ring,
    show ((7 : ℝ) - 5) * Real.pi / 16 = 2 * Real.pi / 16 by ring,
    Real.cos_neg, Real.cos_neg, Real.cos_pi_sub, Real.cos_pi_sub]
  ring

theorem parseval (g : Nat → ℝ) : ∑ x ∈ range 8, (∑ u ∈ range 8, E x u * g u) ^ 2 = 512 * ∑ u ∈ range 8, g u ^ 2 := by
  simp only [Finset.sum_range_succ, Finset.sum_range_zero, zero_add, E_zero, E_0_1, E_0_2, E_0_3, E_0_4, E_0_5, E_0_6,
    E_0_7, E_1_1, E_1_2, E_1_3, E_1_4, E_1_5, E_1_6, E_1_7, E_2_1, E_2_2, E_2_3, E_2_4, E_2_5, E_2_6, E_2_7, E_3_1, E_3_2,
    E_3_3, E_3_4, E_3_5, E_3_6, E_3_7, E_4_1, E_4_2, E_4_3, E_4_4, E_4_5, E_4_6, E_4_7, E_5_1, E_5_2, E_5_3, E_5_4, E_5_5,
    E_5_6, E_5_7, E_6_1, E_6_2, E_6_3, E_6_4, E_6_5, E_6_6, E_6_7, E_7_1, E_7_2, E_7_3, E_7_4, E_7_5, E_7_6, E_7_7]
  have h2 := sum2
  have h4 := sum4
  have hc := cross
  generalize k 1 = k1 at *
  generalize k 2 = k2 at *
  generalize k 3 = k3 at *
  generalize k 5 = k5 at *
  generalize k 6 = k6 at *
  generalize k 7 = k7 at *
  generalize g 0 = g0
  generalize g 1 = g1
  generalize g 2 = g2
  generalize g 3 = g3
  generalize g 4 = g4
  generalize g 5 = g5
  generalize g 6 = g6
  generalize g 7 = g7
  linear_combination (256 * (g2 ^ 2 + g6 ^ 2)) * h2 + (128 * (g1 ^ 2 + g3 ^ 2 + g5 ^ 2 + g7 ^ 2)) * h4 +
    (256 * (g1 * g3 - g1 * g5 - g3 * g7 - g5 * g7)) * hc

/-! ### numeric enclosures -/

theorem enclose {t a b : ℝ} (ht : 0 ≤ t) (hb : 0 ≤ b) (h1 : a ^ 2 ≤ t ^ 2) (h2 : t ^ 2 ≤ b ^ 2) : a ≤ t ∧ t ≤ b :=
  ⟨by
    by_contra hc
    push Not at hc
    nlinarith,
   by
    by_contra hc
    push Not at hc
    nlinarith⟩

theorem k_nonneg (j : Nat) (h : j ≤ 8) : 0 ≤ k j := by
  unfold k
  have hj : (j : ℝ) ≤ 8 := by exact_mod_cast h
  have h0 : (0 : ℝ) ≤ j := by positivity
  have hp := Real.pi_pos
  refine mul_nonneg (Real.sqrt_nonneg _) (Real.cos_nonneg_of_mem_Icc ⟨?_, ?_⟩)
  · have : 0 ≤ (j : ℝ) * Real.pi / 16 := by positivity
    linarith
  · nlinarith

theorem root2 : 1.41421356 ≤ √2 ∧ √2 ≤ 1.41421357 := by
  have h := Real.sq_sqrt (show (0 : ℝ) ≤ 2 by norm_num)
  exact enclose (Real.sqrt_nonneg _) (by norm_num) (by rw [h]; norm_num) (by rw [h]; norm_num)

theorem cos8 : 0.92387950 ≤ Real.cos (Real.pi / 8) ∧ Real.cos (Real.pi / 8) ≤ 0.92387956 := by
  rw [Real.cos_pi_div_eight]
  have hr := root2
  have h := Real.sq_sqrt (show (0 : ℝ) ≤ 2 + √2 by positivity)
  have := enclose (a := 1.84775900) (b := 1.84775912) (Real.sqrt_nonneg (2 + √2)) (by norm_num)
    (by rw [h]; norm_num at *; linarith [hr.1]) (by rw [h]; norm_num at *; linarith [hr.2])
  constructor <;> linarith [this.1, this.2]

theorem sin8 : 0.38268340 ≤ Real.sin (Real.pi / 8) ∧ Real.sin (Real.pi / 8) ≤ 0.38268346 := by
  rw [Real.sin_pi_div_eight]
  have hr := root2
  have h := Real.sq_sqrt (show (0 : ℝ) ≤ 2 - √2 by linarith [hr.2])
  have := enclose (a := 0.76536680) (b := 0.76536692) (Real.sqrt_nonneg (2 - √2)) (by norm_num)
    (by rw [h]; norm_num at *; linarith [hr.2]) (by rw [h]; norm_num at *; linarith [hr.1])
  constructor <;> linarith [this.1, this.2]

theorem k1_bd : 1.387039 ≤ k 1 ∧ k 1 ≤ 1.387040 := by
  have h := cos8
  exact enclose (k_nonneg 1 (by norm_num)) (by norm_num) (by rw [sq1]; norm_num at *; linarith [h.1])
    (by rw [sq1]; norm_num at *; linarith [h.2])

theorem k2_bd : 1.306562 ≤ k 2 ∧ k 2 ≤ 1.306564 := by
  have h := root2
  exact enclose (k_nonneg 2 (by norm_num)) (by norm_num) (by rw [sq2]; norm_num at *; linarith [h.1])
    (by rw [sq2]; norm_num at *; linarith [h.2])

theorem k3_bd : 1.175875 ≤ k 3 ∧ k 3 ≤ 1.175877 := by
  have h := sin8
  exact enclose (k_nonneg 3 (by norm_num)) (by norm_num) (by rw [sq3]; norm_num at *; linarith [h.1])
    (by rw [sq3]; norm_num at *; linarith [h.2])

theorem k5_bd : 0.785694 ≤ k 5 ∧ k 5 ≤ 0.785696 := by
  have h := sin8
  exact enclose (k_nonneg 5 (by norm_num)) (by norm_num) (by rw [sq5]; norm_num at *; linarith [h.2])
    (by rw [sq5]; norm_num at *; linarith [h.1])

theorem k6_bd : 0.541195 ≤ k 6 ∧ k 6 ≤ 0.541197 := by
  have h := root2
  exact enclose (k_nonneg 6 (by norm_num)) (by norm_num) (by rw [sq6]; norm_num at *; linarith [h.2])
    (by rw [sq6]; norm_num at *; linarith [h.1])

theorem k7_bd : 0.275899 ≤ k 7 ∧ k 7 ≤ 0.275900 := by
  have h := cos8
  exact enclose (k_nonneg 7 (by norm_num)) (by norm_num) (by rw [sq7]; norm_num at *; linarith [h.2])
    (by rw [sq7]; norm_num at *; linarith [h.1])

end Mpeg.Video.IdctR
