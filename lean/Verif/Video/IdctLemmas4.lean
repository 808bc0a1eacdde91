import Mathlib.LinearAlgebra.Matrix.NonsingularInverse
import Mathlib.Algebra.Order.Round
import Verif.Video.IdctProps

/-! Blocks around mid grey: accuracy and absence of overflow; the forward transform is the inverse of the inverse
transform; rounded coefficients. -/

namespace Mpeg.Video.IdctR

open Finset Mpeg.Video Mpeg.Video.Spec

/-! ### adding a constant -/

/-- The block with 1024 added to the DC coefficient. -/
def lift128 (F : Nat → Int) : Nat → Int := fun i => if i = 0 then F 0 + 1024 else F i

theorem rowZ_shift (s : Nat → Int) (n : Int) (x : Nat) :
    rowZ (fun u => if u = 0 then s 0 + 1024 * n else s u) x = rowZ s x + 8192 * n := by
  unfold rowZ
  simp only [if_pos trivial, show (1 : Nat) ≠ 0 by decide, show (2 : Nat) ≠ 0 by decide, show (3 : Nat) ≠ 0 by decide,
    show (4 : Nat) ≠ 0 by decide, show (5 : Nat) ≠ 0 by decide, show (6 : Nat) ≠ 0 by decide, show (7 : Nat) ≠ 0 by decide,
    if_false]
  split
  · simp only []; omega
  · simp only []
    generalize (181 * (565 * (s 1 + s 7) + 2276 * s 1 - (2408 * (s 5 + s 3) - 799 * s 5) +
      (565 * (s 1 + s 7) - 3406 * s 7 - (2408 * (s 5 + s 3) - 4017 * s 3))) + 128) / 256 = p
    generalize (181 * (565 * (s 1 + s 7) + 2276 * s 1 - (2408 * (s 5 + s 3) - 799 * s 5) -
      (565 * (s 1 + s 7) - 3406 * s 7 - (2408 * (s 5 + s 3) - 4017 * s 3))) + 128) / 256 = q
    repeat' split
    all_goals omega

theorem colZ_shift (s : Nat → Int) (n : Int) (x : Nat) :
    colZ (fun u => if u = 0 then s 0 + 8192 * n else s u) x = colZ s x + 128 * n := by
  unfold colZ
  simp only [if_pos trivial, show (1 : Nat) ≠ 0 by decide, show (2 : Nat) ≠ 0 by decide, show (3 : Nat) ≠ 0 by decide,
    show (4 : Nat) ≠ 0 by decide, show (5 : Nat) ≠ 0 by decide, show (6 : Nat) ≠ 0 by decide, show (7 : Nat) ≠ 0 by decide,
    if_false]
  generalize (565 * (s 1 + s 7) + 4 + 2276 * s 1) / 8 = A4
  generalize (565 * (s 1 + s 7) + 4 - 3406 * s 7) / 8 = A5
  generalize (2408 * (s 5 + s 3) + 4 - 799 * s 5) / 8 = A6
  generalize (2408 * (s 5 + s 3) + 4 - 4017 * s 3) / 8 = A7
  generalize (1108 * (s 2 + s 6) + 4 - 3784 * s 6) / 8 = C2
  generalize (1108 * (s 2 + s 6) + 4 + 1568 * s 2) / 8 = C3
  generalize (181 * (A4 - A6 + (A5 - A7)) + 128) / 256 = p
  generalize (181 * (A4 - A6 - (A5 - A7)) + 128) / 256 = q
  repeat' split
  all_goals omega

variable {F : Nat → Int}

theorem lift_row0 (F : Nat → Int) : (fun u => lift128 F (8 * 0 + u)) = fun u => if u = 0 then F (8 * 0 + 0) + 1024 * 1 else F (8 * 0 + u) := by
  funext u
  unfold lift128
  by_cases h : u = 0
  · subst h; simp
  · simp [h]

theorem lift_row (F : Nat → Int) {v : Nat} (hv : v ≠ 0) : (fun u => lift128 F (8 * v + u)) = fun u => F (8 * v + u) := by
  funext u
  unfold lift128
  rw [if_neg (by omega)]

theorem rowZ_lift (F : Nat → Int) (v x : Nat) :
    rowZ (fun u => lift128 F (8 * v + u)) x = if v = 0 then rowZ (fun u => F (8 * 0 + u)) x + 8192 * 1 else rowZ (fun u => F (8 * v + u)) x := by
  by_cases h : v = 0
  · subst h
    rw [lift_row0, if_pos rfl]
    exact rowZ_shift (fun u => F (8 * 0 + u)) 1 x
  · rw [if_neg h, lift_row F h]

theorem idctZ_lift (F : Nat → Int) (y x : Nat) (hx : x < 8) : idctZ (lift128 F) (8 * y + x) = idctZ F (8 * y + x) + 128 := by
  unfold idctZ colsZ rowsZ
  rw [show (8 * y + x) % 8 = x by omega, show (8 * y + x) / 8 = y by omega]
  have e : ∀ b : Nat → Int, (fun v => rowZ (fun u => b (8 * ((8 * v + x) / 8) + u)) ((8 * v + x) % 8)) =
      fun v => rowZ (fun u => b (8 * v + u)) x := by
    intro b
    funext v
    rw [show (8 * v + x) % 8 = x by omega, show (8 * v + x) / 8 = v by omega]
  rw [e, e]
  have e2 : (fun v => rowZ (fun u => lift128 F (8 * v + u)) x) =
      fun v => if v = 0 then rowZ (fun u => F (8 * 0 + u)) x + 8192 * 1 else rowZ (fun u => F (8 * v + u)) x := by
    funext v; exact rowZ_lift F v x
  rw [e2, colZ_shift (fun v => rowZ (fun u => F (8 * v + u)) x) 1 y]
  omega

/-- the same, as 32-bit computations -/
theorem idct_lift (h : Residual F) (y x : Nat) (hx : x < 8) :
    idct (lift128 F) (8 * y + x) = idctZ (lift128 F) (8 * y + x) := by
  have hrow : ∀ v, v < 8 → idctRow (fun u => lift128 F (8 * v + u)) = rowZ (fun u => lift128 F (8 * v + u)) := by
    intro v hv
    by_cases h0 : v = 0
    · subst h0
      have q := F_sq h 0 hv
      apply idctRow_exact
      · intro u hu
        have t := term_le q u hu
        have := int_of_abs (z := F (8 * 0 + u)) (B := 2040) (abs_le_of (by norm_num) (by norm_num at t ⊢; linarith))
        unfold lift128
        by_cases h0 : 8 * 0 + u = 0
        · rw [if_pos h0]; rw [h0] at this; omega
        · rw [if_neg h0]; omega
      · have := pair_le 3406 (-799) (-4017) (-2276) (fun u => (F (8 * 0 + u) : ℝ)) (by norm_num) (B := 11864000)
          (by norm_num) q (by norm_num)
        have := int_of_abs (z := 3406 * F (8 * 0 + 1) - 799 * F (8 * 0 + 3) - 4017 * F (8 * 0 + 5) - 2276 * F (8 * 0 + 7))
          (B := 11864000) (by push_cast; convert this using 2; ring)
        exact this
      · have := pair_le 2276 (-4017) 799 3406 (fun u => (F (8 * 0 + u) : ℝ)) (by norm_num) (B := 11864000)
          (by norm_num) q (by norm_num)
        have := int_of_abs (z := 2276 * F (8 * 0 + 1) - 4017 * F (8 * 0 + 3) + 799 * F (8 * 0 + 5) + 3406 * F (8 * 0 + 7))
          (B := 11864000) (by push_cast; convert this using 2; ring)
        exact this
    · rw [lift_row F h0]
      exact row_exact h v hv
  have hcol : idctCol (fun v => rowZ (fun u => lift128 F (8 * v + u)) x) = colZ (fun v => rowZ (fun u => lift128 F (8 * v + u)) x) := by
    have q := H_sq h x hx
    have n : ∀ v < 8, |((rowZ (fun u => F (8 * v + u)) x : Int) : ℝ) - H F x v| ≤ 122 / 10 := fun v hv => row_near h x v hx hv
    have e2 : (fun v => rowZ (fun u => lift128 F (8 * v + u)) x) =
        fun v => if v = 0 then rowZ (fun u => F (8 * 0 + u)) x + 8192 * 1 else rowZ (fun u => F (8 * v + u)) x := by
      funext v; exact rowZ_lift F v x
    rw [e2]
    have big : ∀ a b c d : ℝ, a ^ 2 + b ^ 2 + c ^ 2 + d ^ 2 = 33555702 → |a| + |b| + |c| + |d| ≤ 10498 →
        |a * (rowZ (fun u => F (8 * 1 + u)) x : Int) + b * (rowZ (fun u => F (8 * 3 + u)) x : Int) +
          c * (rowZ (fun u => F (8 * 5 + u)) x : Int) + d * (rowZ (fun u => F (8 * 7 + u)) x : Int)| ≤ 94912000 := by
      generalize hT : (fun v => rowZ (fun u => F (8 * v + u)) x) = T
      have hT' : ∀ v, rowZ (fun u => F (8 * v + u)) x = T v := fun v => by rw [← hT]
      simp only [hT'] at n ⊢
      intro a b c d w l
      have p := pair_le a b c d (H F x) w (B := 94540000) (by norm_num) q (by norm_num)
      have s : ∀ (k : ℝ) (v : Nat), v < 8 → |k * T v - k * H F x v| ≤ |k| * (122 / 10) := by
        intro k v hv
        rw [← mul_sub, abs_mul]
        exact mul_le_mul_of_nonneg_left (n v hv) (abs_nonneg _)
      have s1 := s a 1 (by norm_num)
      have s3 := s b 3 (by norm_num)
      have s5 := s c 5 (by norm_num)
      have s7 := s d 7 (by norm_num)
      clear s n
      rw [abs_le] at s1 s3 s5 s7 p
      rw [abs_le]
      constructor
      · linarith [s1.1, s3.1, s5.1, s7.1, p.1]
      · linarith [s1.2, s3.2, s5.2, s7.2, p.2]
    apply idctCol_exact
    · intro v hv
      have t := abs_le_of (b := 16320) (by norm_num) ((term_le q v hv).trans (by norm_num))
      have m := n v hv
      have := int_of_abs (z := rowZ (fun u => F (8 * v + u)) x) (B := 30000) (by
        rw [abs_le] at *
        push_cast
        constructor <;> linarith [t.1, t.2, m.1, m.2])
      by_cases h0 : v = 0
      · subst h0; rw [if_pos rfl]; omega
      · rw [if_neg h0]; omega
    · have := big 3406 (-799) (-4017) (-2276) (by norm_num) (by norm_num)
      have := int_of_abs (z := 3406 * rowZ (fun u => F (8 * 1 + u)) x - 799 * rowZ (fun u => F (8 * 3 + u)) x -
        4017 * rowZ (fun u => F (8 * 5 + u)) x - 2276 * rowZ (fun u => F (8 * 7 + u)) x)
        (B := 94912000) (by push_cast; convert this using 2; ring)
      exact this
    · have := big 2276 (-4017) 799 3406 (by norm_num) (by norm_num)
      have := int_of_abs (z := 2276 * rowZ (fun u => F (8 * 1 + u)) x - 4017 * rowZ (fun u => F (8 * 3 + u)) x +
        799 * rowZ (fun u => F (8 * 5 + u)) x + 3406 * rowZ (fun u => F (8 * 7 + u)) x)
        (B := 94912000) (by push_cast; convert this using 2; ring)
      exact this
  unfold idct idctZ idctCols colsZ
  rw [show (8 * y + x) % 8 = x by omega, show (8 * y + x) / 8 = y by omega]
  have e : ∀ v, rowsZ (lift128 F) (8 * v + x) = rowZ (fun u => lift128 F (8 * v + u)) x := by
    intro v
    unfold rowsZ
    rw [show (8 * v + x) % 8 = x by omega, show (8 * v + x) / 8 = v by omega]
  have e' : ∀ v, v < 8 → idctRows (lift128 F) (8 * v + x) = rowZ (fun u => lift128 F (8 * v + u)) x := by
    intro v hv
    unfold idctRows
    rw [show (8 * v + x) % 8 = x by omega, show (8 * v + x) / 8 = v by omega, hrow v hv]
  simp only [e]
  rw [← hcol]
  have congr : ∀ {s t : Nat → Int} {i : Nat}, (∀ v, v < 8 → s v = t v) → idctCol s i = idctCol t i := by
    intro s t i h
    unfold idctCol
    rw [h 0 (by omega), h 1 (by omega), h 2 (by omega), h 3 (by omega), h 4 (by omega), h 5 (by omega), h 6 (by omega),
      h 7 (by omega)]
  exact congr e'

theorem real_lift (F : Nat → Int) (y x : Nat) : realIdct (lift128 F) y x = realIdct F y x + 128 := by
  have h1 := real_E (lift128 F) y x
  have h2 := real_E F y x
  have : ∑ v ∈ range 8, ∑ u ∈ range 8, E y v * E x u * (lift128 F (8 * v + u) : ℝ) =
      ∑ v ∈ range 8, ∑ u ∈ range 8, E y v * E x u * (F (8 * v + u) : ℝ) + 65536 := by
    rw [Finset.sum_range_succ' (n := 7), Finset.sum_range_succ' (n := 7) (f := fun v => ∑ u ∈ range 8, E y v * E x u * (F (8 * v + u) : ℝ)),
      Finset.sum_range_succ' (n := 7) (f := fun u => E y 0 * E x u * (lift128 F (8 * 0 + u) : ℝ)),
      Finset.sum_range_succ' (n := 7) (f := fun u => E y 0 * E x u * (F (8 * 0 + u) : ℝ))]
    have a : ∀ v u, lift128 F (8 * (v + 1) + u) = F (8 * (v + 1) + u) := fun v u => if_neg (by omega)
    have b : ∀ u, lift128 F (8 * 0 + (u + 1)) = F (8 * 0 + (u + 1)) := fun u => if_neg (by omega)
    have c : lift128 F (8 * 0 + 0) = F (8 * 0 + 0) + 1024 := if_pos rfl
    simp only [a, b, c, E_zero]
    push_cast
    ring
  linarith

/-- the distance for blocks with small samples -/
theorem idctZ_within {R : ℝ} (hR : 0 ≤ R) (h : ∀ y < 8, ∀ x < 8, |realIdct F y x| ≤ R) (y x : Nat) (hy : y < 8) (hx : x < 8) :
    |(idctZ F (8 * y + x) : ℝ) - realIdct F y x| ≤ 5954 / 10000 + 1435 / 1000000 * R := by
  have n := idctZ_near F y x hy hx
  have hG : ∀ y < 8, ∑ u ∈ range 8, G F y u ^ 2 ≤ 4096 * R ^ 2 := by
    intro y hy
    have p := parseval (G F y)
    have : ∑ x ∈ range 8, (∑ u ∈ range 8, E x u * G F y u) ^ 2 ≤ ∑ x ∈ range 8, (512 * R : ℝ) ^ 2 := by
      refine Finset.sum_le_sum fun x hx => ?_
      rw [← real_G]
      apply sq_le_of
      rw [abs_mul, abs_of_pos (by norm_num : (0 : ℝ) < 512)]
      exact mul_le_mul_of_nonneg_left (h y hy x (Finset.mem_range.mp hx)) (by norm_num)
    simp only [Finset.sum_const, Finset.card_range, nsmul_eq_mul] at this
    norm_num at this
    nlinarith
  have hH : ∀ x < 8, ∑ v ∈ range 8, H F x v ^ 2 ≤ 4096 * R ^ 2 := by
    intro x hx
    have p := parseval (H F x)
    have : ∑ y ∈ range 8, (∑ v ∈ range 8, E y v * H F x v) ^ 2 ≤ ∑ y ∈ range 8, (512 * R : ℝ) ^ 2 := by
      refine Finset.sum_le_sum fun y hy => ?_
      rw [← real_H]
      apply sq_le_of
      rw [abs_mul, abs_of_pos (by norm_num : (0 : ℝ) < 512)]
      exact mul_le_mul_of_nonneg_left (h y (Finset.mem_range.mp hy) x hx) (by norm_num)
    simp only [Finset.sum_const, Finset.card_range, nsmul_eq_mul] at this
    norm_num at this
    nlinarith
  have hF : ∀ v < 8, ∑ u ∈ range 8, (F (8 * v + u) : ℝ) ^ 2 ≤ 64 * R ^ 2 := by
    intro v hv
    have p := parseval fun u => (F (8 * v + u) : ℝ)
    have e : ∀ x, ∑ u ∈ range 8, E x u * (F (8 * v + u) : ℝ) = H F x v := fun x => rfl
    simp only [e] at p
    have : ∑ x ∈ range 8, H F x v ^ 2 ≤ ∑ x ∈ range 8, (4096 * R ^ 2 : ℝ) :=
      Finset.sum_le_sum fun x hx => term_le (hH x (Finset.mem_range.mp hx)) v hv
    simp only [Finset.sum_const, Finset.card_range, nsmul_eq_mul] at this
    norm_num at this
    linarith
  have g := sum_abs_le (B := 182 * R) (by linarith) (hG y hy) (by nlinarith)
  have k := sum_abs_le (B := 182 * R) (by linarith) (hH x hx) (by nlinarith)
  have f : ∑ v ∈ range 8, ∑ u ∈ range 8, |(F (8 * v + u) : ℝ)| ≤ ∑ v ∈ range 8, (23 * R : ℝ) :=
    Finset.sum_le_sum fun v hv => sum_abs_le (by linarith) (hF v (Finset.mem_range.mp hv)) (by nlinarith)
  simp only [Finset.sum_const, Finset.card_range, nsmul_eq_mul] at f
  norm_num at f n ⊢
  nlinarith

/-! ### the forward transform -/

/-- the rows of the basis are orthogonal, too -/
theorem ortho_rows (x x' : Nat) (hx : x < 8) (hx' : x' < 8) :
    ∑ u ∈ range 8, E x u * E x' u = if x = x' then 512 else 0 := by
  let M : _root_.Matrix (Fin 8) (Fin 8) ℝ := fun a b => E a b
  have pf : ∀ g : Fin 8 → ℝ, ∑ a, (∑ b, M a b * g b) ^ 2 = 512 * ∑ b, g b ^ 2 := by
    intro g
    have p := parseval fun n => if h : n < 8 then g ⟨n, h⟩ else 0
    simp only [Finset.sum_range] at p
    simpa [M] using p
  have cols : ∀ i j, ∑ a, M a i * M a j = if i = j then 512 else 0 := by
    intro i j
    have h1 := pf (fun b => (if b = i then 1 else 0) + (if b = j then 1 else 0))
    have h2 := pf (fun b => if b = i then 1 else 0)
    have h3 := pf (fun b => if b = j then 1 else 0)
    simp only [mul_add, Finset.sum_add_distrib, mul_ite, mul_one, mul_zero, Finset.sum_ite_eq', Finset.mem_univ, if_true] at h1 h2 h3
    have e : ∑ a, (M a i + M a j) ^ 2 = ∑ a, M a i ^ 2 + ∑ a, M a j ^ 2 + 2 * ∑ a, M a i * M a j := by
      rw [Finset.mul_sum, ← Finset.sum_add_distrib, ← Finset.sum_add_distrib]
      exact Finset.sum_congr rfl fun a _ => by ring
    rw [e] at h1
    have q : ∀ k : Fin 8, ∑ b : Fin 8, (if b = k then (1 : ℝ) else 0) ^ 2 = 1 := by
      intro k
      simp
    rw [q] at h2 h3
    by_cases hij : i = j
    · subst hij
      rw [if_pos rfl]
      have : ∑ a, M a i * M a i = ∑ a, M a i ^ 2 := Finset.sum_congr rfl fun a _ => by ring
      rw [this]; linarith
    · rw [if_neg hij]
      have q2 : ∑ b : Fin 8, ((if b = i then (1 : ℝ) else 0) + (if b = j then 1 else 0)) ^ 2 = 2 := by
        have : ∀ b : Fin 8, ((if b = i then (1 : ℝ) else 0) + (if b = j then 1 else 0)) ^ 2 =
            (if b = i then (1 : ℝ) else 0) ^ 2 + (if b = j then (1 : ℝ) else 0) ^ 2 := by
          intro b
          by_cases h1 : b = i
          · have : b ≠ j := fun h => hij (h1.symm.trans h)
            simp [h1, hij]
          · simp [h1]
        rw [Finset.sum_congr rfl fun b _ => this b, Finset.sum_add_distrib, q, q]
        norm_num
      rw [q2] at h1
      linarith
  have m1 : ((1 / 512 : ℝ) • M.transpose) * M = 1 := by
    ext i j
    rw [_root_.Matrix.smul_mul, _root_.Matrix.smul_apply, _root_.Matrix.mul_apply, _root_.Matrix.one_apply]
    simp only [_root_.Matrix.transpose_apply, cols, smul_eq_mul]
    split <;> norm_num
  have m2 := _root_.mul_eq_one_comm.mp m1
  have m3 := congrFun (congrFun m2 ⟨x, hx⟩) ⟨x', hx'⟩
  rw [_root_.Matrix.mul_smul, _root_.Matrix.smul_apply, _root_.Matrix.mul_apply, _root_.Matrix.one_apply] at m3
  simp only [_root_.Matrix.transpose_apply, smul_eq_mul, Fin.mk.injEq] at m3
  change 1 / 512 * ∑ i : Fin 8, E x i * E x' i = _ at m3
  rw [Finset.sum_range]
  by_cases h : x = x'
  · rw [if_pos h] at m3 ⊢; linarith
  · rw [if_neg h] at m3 ⊢; linarith

/-- the coefficient with frequencies `v`, `u` of the samples `p` -/
noncomputable def dct (p : Nat → Nat → ℝ) (v u : Nat) : ℝ := (∑ y ∈ range 8, ∑ x ∈ range 8, E y v * E x u * p y x) / 512

/-- The inverse transform takes the coefficients back to the samples. -/
theorem dct_inv (p : Nat → Nat → ℝ) (y x : Nat) (hy : y < 8) (hx : x < 8) :
    ∑ v ∈ range 8, ∑ u ∈ range 8, E y v * E x u * dct p v u = 512 * p y x := by
  have e : ∑ v ∈ range 8, ∑ u ∈ range 8, E y v * E x u * dct p v u =
      (∑ y' ∈ range 8, ∑ x' ∈ range 8, (∑ v ∈ range 8, E y v * E y' v) * (∑ u ∈ range 8, E x u * E x' u) * p y' x') / 512 := by
    have l : ∀ v u, E y v * E x u * dct p v u = ∑ y' ∈ range 8, ∑ x' ∈ range 8, E y v * E y' v * (E x u * E x' u) * p y' x' / 512 := by
      intro v u
      unfold dct
      rw [mul_div_assoc', Finset.mul_sum, Finset.sum_div]
      refine Finset.sum_congr rfl fun y' _ => ?_
      rw [Finset.mul_sum, Finset.sum_div]
      exact Finset.sum_congr rfl fun x' _ => by ring
    have r : ∀ y' x', (∑ v ∈ range 8, E y v * E y' v) * (∑ u ∈ range 8, E x u * E x' u) * p y' x' / 512 =
        ∑ v ∈ range 8, ∑ u ∈ range 8, E y v * E y' v * (E x u * E x' u) * p y' x' / 512 := by
      intro y' x'
      rw [Finset.sum_mul_sum, Finset.sum_mul, Finset.sum_div]
      refine Finset.sum_congr rfl fun v _ => ?_
      rw [Finset.sum_mul, Finset.sum_div]
    rw [Finset.sum_div]
    simp only [l, Finset.sum_div, r]
    have s1 : ∀ v, ∑ u ∈ range 8, ∑ y' ∈ range 8, ∑ x' ∈ range 8, E y v * E y' v * (E x u * E x' u) * p y' x' / 512 =
        ∑ y' ∈ range 8, ∑ x' ∈ range 8, ∑ u ∈ range 8, E y v * E y' v * (E x u * E x' u) * p y' x' / 512 := by
      intro v
      rw [Finset.sum_comm]
      exact Finset.sum_congr rfl fun y' _ => Finset.sum_comm
    simp only [s1]
    rw [Finset.sum_comm]
    exact Finset.sum_congr rfl fun y' _ => Finset.sum_comm
  rw [e]
  have e1 : ∀ y' ∈ range 8, ∑ x' ∈ range 8, (∑ v ∈ range 8, E y v * E y' v) * (∑ u ∈ range 8, E x u * E x' u) * p y' x' =
      if y = y' then 262144 * p y' x else 0 := by
    intro y' hy'
    have i1 : ∀ x' ∈ range 8, (∑ v ∈ range 8, E y v * E y' v) * (∑ u ∈ range 8, E x u * E x' u) * p y' x' =
        if x = x' then (if y = y' then 262144 * p y' x' else 0) else 0 := by
      intro x' hx'
      rw [ortho_rows y y' hy (Finset.mem_range.mp hy'), ortho_rows x x' hx (Finset.mem_range.mp hx')]
      split <;> split <;> ring
    rw [Finset.sum_congr rfl i1, Finset.sum_ite_eq, if_pos (Finset.mem_range.mpr hx)]
  rw [Finset.sum_congr rfl e1, Finset.sum_ite_eq, if_pos (Finset.mem_range.mpr hy)]
  ring

/-- Coefficients within `e` of those of `p` give samples near `p`. -/
theorem near_of_coeffs (p : Nat → Nat → ℝ) (F : Nat → Int) {s : ℝ}
    (h : ∑ v ∈ range 8, ∑ u ∈ range 8, ((F (8 * v + u) : ℝ) - dct p v u) ^ 2 ≤ s) (y x : Nat) (hy : y < 8) (hx : x < 8) :
    (realIdct F y x - p y x) ^ 2 ≤ s := by
  have e : 512 * (realIdct F y x - p y x) = ∑ v ∈ range 8, E y v * ∑ u ∈ range 8, E x u * ((F (8 * v + u) : ℝ) - dct p v u) := by
    rw [mul_sub, real_E, ← dct_inv p y x hy hx, ← Finset.sum_sub_distrib]
    refine Finset.sum_congr rfl fun v _ => ?_
    rw [← Finset.sum_sub_distrib, Finset.mul_sum]
    exact Finset.sum_congr rfl fun u _ => by ring
  have oy := ortho_rows y y hy hy
  have ox := ortho_rows x x hx hx
  rw [if_pos rfl] at oy ox
  have c1 := Finset.sum_mul_sq_le_sq_mul_sq (range 8) (fun v => E y v) (fun v => ∑ u ∈ range 8, E x u * ((F (8 * v + u) : ℝ) - dct p v u))
  have c2 : ∀ v ∈ range 8, (∑ u ∈ range 8, E x u * ((F (8 * v + u) : ℝ) - dct p v u)) ^ 2 ≤
      512 * ∑ u ∈ range 8, ((F (8 * v + u) : ℝ) - dct p v u) ^ 2 := by
    intro v _
    have := Finset.sum_mul_sq_le_sq_mul_sq (range 8) (fun u => E x u) (fun u => (F (8 * v + u) : ℝ) - dct p v u)
    have q : ∑ u ∈ range 8, E x u ^ 2 = 512 := by rw [← ox]; exact Finset.sum_congr rfl fun u _ => by ring
    rw [q] at this
    exact this
  have c3 := Finset.sum_le_sum c2
  rw [← Finset.mul_sum] at c3
  have q : ∑ u ∈ range 8, E y u ^ 2 = 512 := by rw [← oy]; exact Finset.sum_congr rfl fun u _ => by ring
  rw [q, ← e] at c1
  nlinarith

/-- The squares of the coefficients add up to those of the samples. -/
theorem dct_sq (p : Nat → Nat → ℝ) {B : ℝ} (hB : 0 ≤ B) (h : ∀ y < 8, ∀ x < 8, |p y x| ≤ B) (v u : Nat) (hv : v < 8) (hu : u < 8) :
    |dct p v u| ≤ 8 * B := by
  have cv : ∀ v < 8, ∑ y ∈ range 8, E y v ^ 2 = 512 := by
    intro v hv
    have p := parseval fun n => if n = v then 1 else 0
    simp only [mul_ite, mul_one, mul_zero, Finset.sum_ite_eq', Finset.mem_range, if_pos hv] at p
    rw [p]
    have : ∀ n, (if n = v then (1 : ℝ) else 0) ^ 2 = if n = v then 1 else 0 := fun n => by split <;> norm_num
    simp only [this, Finset.sum_ite_eq', Finset.mem_range, if_pos hv]
    norm_num
  have e : 512 * dct p v u = ∑ y ∈ range 8, E y v * ∑ x ∈ range 8, E x u * p y x := by
    unfold dct
    rw [mul_div_cancel₀ _ (by norm_num : (512 : ℝ) ≠ 0)]
    refine Finset.sum_congr rfl fun y _ => ?_
    rw [Finset.mul_sum]
    exact Finset.sum_congr rfl fun x _ => by ring
  have c1 := Finset.sum_mul_sq_le_sq_mul_sq (range 8) (fun y => E y v) (fun y => ∑ x ∈ range 8, E x u * p y x)
  have c2 : ∀ y ∈ range 8, (∑ x ∈ range 8, E x u * p y x) ^ 2 ≤ 512 * (8 * B ^ 2) := by
    intro y hy
    have := Finset.sum_mul_sq_le_sq_mul_sq (range 8) (fun x => E x u) (fun x => p y x)
    rw [cv u hu] at this
    have s : ∑ x ∈ range 8, p y x ^ 2 ≤ ∑ x ∈ range 8, B ^ 2 :=
      Finset.sum_le_sum fun x hx => sq_le_of (h y (Finset.mem_range.mp hy) x (Finset.mem_range.mp hx))
    simp only [Finset.sum_const, Finset.card_range, nsmul_eq_mul] at s
    norm_num at s
    linarith
  have c3 := Finset.sum_le_sum c2
  simp only [Finset.sum_const, Finset.card_range, nsmul_eq_mul] at c3
  rw [cv v hv, ← e] at c1
  norm_num at c3
  apply abs_le_of (by linarith)
  nlinarith

/-! ### a block of samples -/

/-- the nearest integer on the other side -/
noncomputable def other (x : ℝ) : Int := if (round x : ℝ) ≤ x then round x + 1 else round x - 1

theorem other_near (x : ℝ) : |(other x : ℝ) - x| ≤ 1 := by
  have h := abs_sub_round x
  unfold other
  rw [abs_le] at h ⊢
  split <;> push_cast <;> constructor <;> linarith [h.1, h.2]

theorem other_parity (x : ℝ) : (other x - round x) % 2 = 1 := by
  unfold other
  split <;> omega

theorem round_le {x : ℝ} {n : Int} (h : |x| ≤ n) : -n ≤ round x ∧ round x ≤ n := by
  have h1 := abs_sub_round x
  rw [abs_le] at h h1
  constructor
  · have : ((-n - 1 : Int) : ℝ) < (round x : ℝ) := by push_cast; linarith [h.1, h1.2]
    have : -n - 1 < round x := by exact_mod_cast this
    omega
  · have : ((round x : Int) : ℝ) < ((n + 1 : Int) : ℝ) := by push_cast; linarith [h.2, h1.1]
    have : round x < n + 1 := by exact_mod_cast this
    omega

/-- the rounded coefficients of the samples `p` -/
noncomputable def rounded (p : Nat → Nat → ℝ) (i : Nat) : Int := if i < 64 then round (dct p (i / 8) (i % 8)) else 0

/-- the same with an odd sum: the last one may be rounded to the other side -/
noncomputable def fitted (p : Nat → Nat → ℝ) (i : Nat) : Int :=
  if i = 63 ∧ ((List.range 64).map (rounded p)).sum % 2 = 0 then other (dct p 7 7) else rounded p i

theorem fitted_odd (p : Nat → Nat → ℝ) : ((List.range 64).map (fitted p)).sum % 2 = 1 := by
  have split : ∀ f : Nat → Int, ((List.range 64).map f).sum = ((List.range 63).map f).sum + f 63 := by
    intro f
    rw [show (64 : Nat) = 63 + 1 from rfl, List.range_succ, List.map_append, List.sum_append]
    simp
  have low : (List.range 63).map (fitted p) = (List.range 63).map (rounded p) := by
    apply List.map_congr_left
    intro i hi
    have := List.mem_range.mp hi
    exact if_neg (by omega)
  by_cases h : ((List.range 64).map (rounded p)).sum % 2 = 0
  · have e : fitted p 63 = other (dct p 7 7) := if_pos ⟨rfl, h⟩
    have r : rounded p 63 = round (dct p 7 7) := if_pos (by omega)
    have := other_parity (dct p 7 7)
    rw [split] at h ⊢
    rw [low, e]
    rw [r] at h
    omega
  · have e : fitted p 63 = rounded p 63 := if_neg fun hh => h hh.2
    rw [split] at h ⊢
    rw [low, e]
    omega

theorem fitted_high (p : Nat → Nat → ℝ) {i : Nat} (h : 64 ≤ i) : fitted p i = 0 := by
  unfold fitted rounded
  rw [if_neg (by omega), if_neg (by omega)]

theorem fitted_near (p : Nat → Nat → ℝ) :
    ∑ v ∈ range 8, ∑ u ∈ range 8, ((fitted p (8 * v + u) : ℝ) - dct p v u) ^ 2 ≤ 67 / 4 := by
  have h : ∀ v ∈ range 8, ∑ u ∈ range 8, ((fitted p (8 * v + u) : ℝ) - dct p v u) ^ 2 ≤
      ∑ u ∈ range 8, (if v = 7 ∧ u = 7 then (1 : ℝ) else 1 / 4) := by
    intro v hv
    refine Finset.sum_le_sum fun u hu => ?_
    have hv := Finset.mem_range.mp hv
    have hu := Finset.mem_range.mp hu
    have r : rounded p (8 * v + u) = round (dct p v u) := by
      unfold rounded
      rw [if_pos (by omega), show (8 * v + u) / 8 = v by omega, show (8 * v + u) % 8 = u by omega]
    have near := abs_sub_round (dct p v u)
    rw [abs_sub_comm] at near
    have q : ((round (dct p v u) : ℝ) - dct p v u) ^ 2 ≤ 1 / 4 := by
      have := sq_le_of near
      norm_num at this ⊢
      exact this
    unfold fitted
    by_cases h7 : v = 7 ∧ u = 7
    · obtain ⟨rfl, rfl⟩ := h7
      rw [if_pos (show (7 : Nat) = 7 ∧ (7 : Nat) = 7 from ⟨rfl, rfl⟩)]
      split
      · have := sq_le_of (other_near (dct p 7 7))
        norm_num at this ⊢
        exact this
      · rw [r]; linarith
    · rw [if_neg h7, if_neg (by omega), r]
      exact q
  refine (Finset.sum_le_sum h).trans ?_
  simp only [Finset.sum_range_succ, Finset.sum_range_zero]
  norm_num

/-- Every block of samples is the inverse transform, in the arithmetic of the source and within 4, of integer coefficients
in the range of the syntax whose sum is odd. -/
theorem block_fits (p : Nat → Nat → Nat) (hp : ∀ y < 8, ∀ x < 8, p y x ≤ 255) :
    ∃ F : Nat → Int, (0 ≤ F 0 ∧ F 0 ≤ 2040) ∧ (∀ i, -2041 ≤ F i ∧ F i ≤ 2041) ∧ (∀ i, 64 ≤ i → F i = 0) ∧
      ((List.range 64).map F).sum % 2 = 1 ∧
      ∀ y < 8, ∀ x < 8, (p y x : Int) - 4 ≤ idct F (8 * y + x) ∧ idct F (8 * y + x) ≤ p y x + 4 := by
  let P : Nat → Nat → ℝ := fun y x => (p y x : ℝ)
  have hP : ∀ y < 8, ∀ x < 8, 0 ≤ P y x ∧ P y x ≤ 255 := fun y hy x hx => ⟨Nat.cast_nonneg _, by
    have : (p y x : ℝ) ≤ 255 := by exact_mod_cast hp y hy x hx
    exact this⟩
  have hd : ∀ v < 8, ∀ u < 8, |dct P v u| ≤ 2040 := by
    intro v hv u hu
    have := dct_sq P (B := 255) (by norm_num) (fun y hy x hx => by
      have := hP y hy x hx
      rw [abs_le]; constructor <;> linarith [this.1, this.2]) v u hv hu
    linarith
  have hr : ∀ i, -2040 ≤ rounded P i ∧ rounded P i ≤ 2040 := by
    intro i
    unfold rounded
    split
    · exact round_le (n := 2040) (by push_cast; exact hd _ (by omega) _ (by omega))
    · omega
  refine ⟨fitted P, ?_, ?_, fun i hi => fitted_high P hi, fitted_odd P, ?_⟩
  · have e : fitted P 0 = round (dct P 0 0) := by
      unfold fitted rounded
      rw [if_neg (by omega), if_pos (by omega)]
    have r0 : rounded P 0 = round (dct P 0 0) := if_pos (by omega)
    have := hr 0
    rw [r0] at this
    rw [e]
    refine ⟨?_, this.2⟩
    have nn : 0 ≤ dct P 0 0 := by
      unfold dct
      apply div_nonneg _ (by norm_num)
      refine Finset.sum_nonneg fun y hy => Finset.sum_nonneg fun x hx => ?_
      rw [E_zero, E_zero]
      have := hP y (Finset.mem_range.mp hy) x (Finset.mem_range.mp hx)
      nlinarith [this.1]
    have h1 := abs_sub_round (dct P 0 0)
    rw [abs_le] at h1
    have : ((-1 : Int) : ℝ) < (round (dct P 0 0) : ℝ) := by push_cast; linarith [h1.2]
    have : -1 < round (dct P 0 0) := by exact_mod_cast this
    omega
  · intro i
    unfold fitted
    split
    · have h1 := other_near (dct P 7 7)
      have h2 := hd 7 (by omega) 7 (by omega)
      rw [abs_le] at h1 h2
      constructor
      · have : ((-2042 : Int) : ℝ) < (other (dct P 7 7) : ℝ) := by push_cast; linarith [h1.1, h2.1]
        have : -2042 < other (dct P 7 7) := by exact_mod_cast this
        omega
      · have : (other (dct P 7 7) : ℝ) < ((2042 : Int) : ℝ) := by push_cast; linarith [h1.2, h2.2]
        have : other (dct P 7 7) < 2042 := by exact_mod_cast this
        omega
    · have := hr i
      omega
  · intro y hy x hx
    let F' : Nat → Int := fun i => if i = 0 then fitted P 0 - 1024 else fitted P i
    have lift : lift128 F' = fitted P := by
      funext i
      unfold lift128
      by_cases h : i = 0
      · subst h; simp [F']
      · simp [F', h]
    have near : ∀ y < 8, ∀ x < 8, |realIdct (fitted P) y x - P y x| ≤ 4093 / 1000 := by
      intro y hy x hx
      have := near_of_coeffs P (fitted P) (fitted_near P) y x hy hx
      exact abs_le_of (by norm_num) (this.trans (by norm_num))
    have small : ∀ y < 8, ∀ x < 8, |realIdct F' y x| ≤ 1321 / 10 := by
      intro y hy x hx
      have e := real_lift F' y x
      rw [lift] at e
      have n := near y hy x hx
      have b := hP y hy x hx
      rw [abs_le] at n ⊢
      constructor <;> linarith [n.1, n.2, b.1, b.2]
    have res : Residual F' := fun y hy x hx => (small y hy x hx).trans (by norm_num)
    have w := idctZ_within (by norm_num) small y x hy hx
    have e1 := idct_lift res y x hx
    have e2 := idctZ_lift F' y x hx
    have e3 := real_lift F' y x
    rw [lift] at e1 e2 e3
    have n := near y hy x hx
    have c : (idct (fitted P) (8 * y + x) : ℝ) = (idctZ F' (8 * y + x) : ℝ) + 128 := by
      rw [e1, e2]; push_cast; ring
    rw [abs_le] at n w
    have l : (((p y x : Int) - 5 : Int) : ℝ) < (idct (fitted P) (8 * y + x) : ℝ) := by
      rw [c]; push_cast
      have : P y x = (p y x : ℝ) := rfl
      linarith [n.1, n.2, w.1, w.2]
    have u : (idct (fitted P) (8 * y + x) : ℝ) < (((p y x : Int) + 5 : Int) : ℝ) := by
      rw [c]; push_cast
      have : P y x = (p y x : ℝ) := rfl
      linarith [n.1, n.2, w.1, w.2]
    have l : (p y x : Int) - 5 < idct (fitted P) (8 * y + x) := by exact_mod_cast l
    have u : idct (fitted P) (8 * y + x) < (p y x : Int) + 5 := by exact_mod_cast u
    omega

end Mpeg.Video.IdctR
