import Verif.Video.IdctLemmas
import Mathlib.Algebra.BigOperators.Field
import Verif.Video.IdctReal

/-! Distance of the fixed-point inverse DCT from the real one. -/

namespace Mpeg.Video.IdctR

open Finset Mpeg.Video Mpeg.Video.Spec

/-- the fixed-point basis -/
noncomputable def A (x u : Nat) : ℝ := (cosN x u : ℝ) / 65536

set_option maxHeartbeats 2000000 in
theorem A_sub_E (x u : Nat) (hx : x < 8) (hu : u < 8) : |A x u - E x u| ≤ 201 / 100000 := by
  have h1 := k1_bd
  have h2 := k2_bd
  have h3 := k3_bd
  have h5 := k5_bd
  have h6 := k6_bd
  have h7 := k7_bd
  rw [abs_le]
  interval_cases x <;> interval_cases u <;>
    simp only [E_zero, E_0_1, E_0_2, E_0_3, E_0_4, E_0_5, E_0_6,
    E_0_7, E_1_1, E_1_2, E_1_3, E_1_4, E_1_5, E_1_6, E_1_7, E_2_1, E_2_2, E_2_3, E_2_4, E_2_5, E_2_6, E_2_7, E_3_1, E_3_2,
    E_3_3, E_3_4, E_3_5, E_3_6, E_3_7, E_4_1, E_4_2, E_4_3, E_4_4, E_4_5, E_4_6, E_4_7, E_5_1, E_5_2, E_5_3, E_5_4, E_5_5,
    E_5_6, E_5_7, E_6_1, E_6_2, E_6_3, E_6_4, E_6_5, E_6_6, E_6_7, E_7_1, E_7_2, E_7_3, E_7_4, E_7_5, E_7_6, E_7_7,
    A, cosN, List.getD_cons_zero, List.getD_cons_succ] <;>
    norm_num <;> norm_num at h1 h2 h3 h5 h6 h7 <;> constructor <;> linarith [h1.1, h1.2, h2.1, h2.2, h3.1, h3.2, h5.1, h5.2,
      h6.1, h6.2, h7.1, h7.2]

theorem A_le (x u : Nat) (hx : x < 8) (hu : u < 8) : |A x u| ≤ 12 := by
  rw [abs_le]
  interval_cases x <;> interval_cases u <;>
    simp only [A, cosN, List.getD_cons_zero, List.getD_cons_succ] <;> norm_num

theorem lin_sum (x : Nat) (s : Nat → Int) : ((lin x s : Int) : ℝ) = ∑ u ∈ range 8, (cosN x u : ℝ) * (s u : ℝ) := by
  simp only [Finset.sum_range_succ, Finset.sum_range_zero, zero_add, lin]
  push_cast
  ring

theorem rowZ_A (s : Nat → Int) (x : Nat) (hx : x < 8) :
    |(rowZ s x : ℝ) - ∑ u ∈ range 8, A x u * (s u : ℝ)| ≤ 32896 / 65536 := by
  have h := rowZ_lin s x hx
  have e : ∑ u ∈ range 8, A x u * (s u : ℝ) = ((lin x s : Int) : ℝ) / 65536 := by
    rw [lin_sum, Finset.sum_div]
    exact Finset.sum_congr rfl fun u _ => by unfold A; ring
  rw [e, abs_le]
  have h1 : ((-32896 : Int) : ℝ) ≤ ((65536 * rowZ s x - lin x s : Int) : ℝ) := by exact_mod_cast h.1
  have h2 : ((65536 * rowZ s x - lin x s : Int) : ℝ) ≤ ((32896 : Int) : ℝ) := by exact_mod_cast h.2
  push_cast at h1 h2
  constructor <;> linarith

theorem colZ_A (s : Nat → Int) (x : Nat) (hx : x < 8) :
    |(colZ s x : ℝ) - (∑ u ∈ range 8, A x u * (s u : ℝ)) / 512| ≤ 5003 / 10000 := by
  have h := colZ_lin s x hx
  have e : ∑ u ∈ range 8, A x u * (s u : ℝ) = ((lin x s : Int) : ℝ) / 65536 := by
    rw [lin_sum, Finset.sum_div]
    exact Finset.sum_congr rfl fun u _ => by unfold A; ring
  rw [e, abs_le]
  have h1 : ((-16785000 : Int) : ℝ) ≤ ((33554432 * colZ s x - lin x s : Int) : ℝ) := by exact_mod_cast h.1
  have h2 : ((33554432 * colZ s x - lin x s : Int) : ℝ) ≤ ((16785000 : Int) : ℝ) := by exact_mod_cast h.2
  push_cast at h1 h2
  constructor <;> linarith

theorem sum_mul_le {c : ℝ} {a g : Nat → ℝ} (h : ∀ u < 8, |a u| ≤ c) :
    |∑ u ∈ range 8, a u * g u| ≤ c * ∑ u ∈ range 8, |g u| := by
  rw [Finset.mul_sum]
  refine (Finset.abs_sum_le_sum_abs _ _).trans (Finset.sum_le_sum fun u hu => ?_)
  rw [abs_mul]
  exact mul_le_mul_of_nonneg_right (h u (Finset.mem_range.mp hu)) (abs_nonneg _)

/-- transform along the columns, along the rows -/
noncomputable def G (F : Nat → Int) (y u : Nat) : ℝ := ∑ v ∈ range 8, E y v * (F (8 * v + u) : ℝ)
noncomputable def H (F : Nat → Int) (x v : Nat) : ℝ := ∑ u ∈ range 8, E x u * (F (8 * v + u) : ℝ)

theorem real_E (F : Nat → Int) (y x : Nat) :
    512 * realIdct F y x = ∑ v ∈ range 8, ∑ u ∈ range 8, E y v * E x u * (F (8 * v + u) : ℝ) := by
  unfold realIdct
  rw [← mul_assoc, Finset.mul_sum]
  refine Finset.sum_congr rfl fun v _ => ?_
  rw [Finset.mul_sum]
  refine Finset.sum_congr rfl fun u _ => ?_
  unfold E
  have h := Real.mul_self_sqrt (show (0 : ℝ) ≤ 2 by norm_num)
  linear_combination (-64 * cosScale u * cosScale v * (F (8 * v + u) : ℝ) *
    Real.cos ((2 * x + 1) * u * Real.pi / 16) * Real.cos ((2 * y + 1) * v * Real.pi / 16)) * h

theorem real_G (F : Nat → Int) (y x : Nat) : 512 * realIdct F y x = ∑ u ∈ range 8, E x u * G F y u := by
  rw [real_E, Finset.sum_comm]
  refine Finset.sum_congr rfl fun u _ => ?_
  unfold G
  rw [Finset.mul_sum]
  exact Finset.sum_congr rfl fun v _ => by ring

theorem real_H (F : Nat → Int) (y x : Nat) : 512 * realIdct F y x = ∑ v ∈ range 8, E y v * H F x v := by
  rw [real_E]
  refine Finset.sum_congr rfl fun v _ => ?_
  unfold H
  rw [Finset.mul_sum]
  exact Finset.sum_congr rfl fun u _ => by ring

/-- The distance of the transform without wrap-around from the real one, for every block. -/
theorem idctZ_near (F : Nat → Int) (y x : Nat) (hy : y < 8) (hx : x < 8) :
    |(idctZ F (8 * y + x) : ℝ) - realIdct F y x| ≤ 5003 / 10000 + 95 / 1000 +
      201 / 100000 / 512 * (∑ u ∈ range 8, |G F y u| + ∑ v ∈ range 8, |H F x v|) +
      (201 / 100000) ^ 2 / 512 * ∑ v ∈ range 8, ∑ u ∈ range 8, |(F (8 * v + u) : ℝ)| := by
  let t : Nat → Int := fun v => rowZ (fun u => F (8 * v + u)) x
  have ht : idctZ F (8 * y + x) = colZ t y := by
    unfold idctZ colsZ rowsZ
    rw [show (8 * y + x) % 8 = x by omega, show (8 * y + x) / 8 = y by omega]
    congr 1
    funext v
    rw [show (8 * v + x) % 8 = x by omega, show (8 * v + x) / 8 = v by omega]
  have hc := colZ_A t y hy
  rw [← ht] at hc
  let ρ : Nat → ℝ := fun v => (t v : ℝ) - ∑ u ∈ range 8, A x u * (F (8 * v + u) : ℝ)
  have hρ : ∀ v < 8, |ρ v| ≤ 32896 / 65536 := fun v _ => rowZ_A _ x hx
  let θ : Nat → Nat → ℝ := fun x u => A x u - E x u
  have hθ : ∀ x < 8, ∀ u < 8, |θ x u| ≤ 201 / 100000 := fun x hx u hu => A_sub_E x u hx hu
  have split : ∑ v ∈ range 8, A y v * (t v : ℝ) = 512 * realIdct F y x + ∑ v ∈ range 8, A y v * ρ v +
      ∑ u ∈ range 8, θ x u * G F y u + ∑ v ∈ range 8, θ y v * H F x v +
      ∑ v ∈ range 8, θ y v * ∑ u ∈ range 8, θ x u * (F (8 * v + u) : ℝ) := by
    have e1 : ∑ u ∈ range 8, θ x u * G F y u = ∑ v ∈ range 8, ∑ u ∈ range 8, E y v * θ x u * (F (8 * v + u) : ℝ) := by
      rw [Finset.sum_comm]
      refine Finset.sum_congr rfl fun u _ => ?_
      unfold G
      rw [Finset.mul_sum]
      exact Finset.sum_congr rfl fun v _ => by ring
    rw [e1, real_E, ← Finset.sum_add_distrib, ← Finset.sum_add_distrib, ← Finset.sum_add_distrib, ← Finset.sum_add_distrib]
    refine Finset.sum_congr rfl fun v _ => ?_
    have e2 : (t v : ℝ) = ρ v + ∑ u ∈ range 8, A x u * (F (8 * v + u) : ℝ) := by simp [ρ]
    rw [e2]
    unfold H
    rw [mul_add, Finset.mul_sum, Finset.mul_sum, Finset.mul_sum]
    have : ∑ u ∈ range 8, A y v * (A x u * (F (8 * v + u) : ℝ)) =
        ∑ u ∈ range 8, E y v * E x u * (F (8 * v + u) : ℝ) + ∑ u ∈ range 8, E y v * θ x u * (F (8 * v + u) : ℝ) +
        ∑ u ∈ range 8, θ y v * (E x u * (F (8 * v + u) : ℝ)) + ∑ u ∈ range 8, θ y v * (θ x u * (F (8 * v + u) : ℝ)) := by
      rw [← Finset.sum_add_distrib, ← Finset.sum_add_distrib, ← Finset.sum_add_distrib]
      exact Finset.sum_congr rfl fun u _ => by simp only [θ]; ring
    rw [this]
    ring
  have b1 : |∑ v ∈ range 8, A y v * ρ v| ≤ 12 * (8 * (32896 / 65536)) := by
    refine (sum_mul_le fun v hv => A_le y v hy hv).trans ?_
    refine mul_le_mul_of_nonneg_left ?_ (by norm_num)
    refine (Finset.sum_le_sum fun v hv => hρ v (Finset.mem_range.mp hv)).trans ?_
    simp
  have b2 := sum_mul_le (g := G F y) (hθ x hx)
  have b3 := sum_mul_le (g := H F x) (hθ y hy)
  have b4 := sum_mul_le (g := fun v => ∑ u ∈ range 8, θ x u * (F (8 * v + u) : ℝ)) (hθ y hy)
  have b5 : ∑ v ∈ range 8, |∑ u ∈ range 8, θ x u * (F (8 * v + u) : ℝ)| ≤
      201 / 100000 * ∑ v ∈ range 8, ∑ u ∈ range 8, |(F (8 * v + u) : ℝ)| := by
    rw [Finset.mul_sum]
    exact Finset.sum_le_sum fun v _ => sum_mul_le (g := fun u => (F (8 * v + u) : ℝ)) (hθ x hx)
  rw [split] at hc
  rw [abs_le] at *
  constructor
  · linarith [hc.1, b1.1, b2.1, b3.1, b4.1]
  · linarith [hc.2, b1.2, b2.2, b3.2, b4.2]

end Mpeg.Video.IdctR
