import Verif.Video.IdctLemmas2

/-! Blocks whose exact inverse transform is a difference of samples: bounds on all intermediate results. -/

namespace Mpeg.Video.IdctR

open Finset Mpeg.Video Mpeg.Video.Spec

theorem sq_le_of {a b : ℝ} (ha : |a| ≤ b) : a ^ 2 ≤ b ^ 2 := by
  rw [← sq_abs]
  exact pow_le_pow_left₀ (abs_nonneg _) ha 2

theorem abs_le_of {a b : ℝ} (hb : 0 ≤ b) (h : a ^ 2 ≤ b ^ 2) : |a| ≤ b := abs_le_of_sq_le_sq h hb

theorem sum_abs_le {g : Nat → ℝ} {c B : ℝ} (hB : 0 ≤ B) (h : ∑ u ∈ range 8, g u ^ 2 ≤ c) (hc : 8 * c ≤ B ^ 2) :
    ∑ u ∈ range 8, |g u| ≤ B := by
  have := sq_sum_le_card_mul_sum_sq (s := range 8) (f := fun u => |g u|)
  simp only [sq_abs, Finset.card_range, Nat.cast_ofNat] at this
  exact le_of_sq_le_sq (by linarith) hB
where
  le_of_sq_le_sq {a b : ℝ} (h : a ^ 2 ≤ b ^ 2) (hb : 0 ≤ b) : a ≤ b := (abs_le_of_sq_le_sq' h hb).2

theorem term_le {g : Nat → ℝ} {c : ℝ} (h : ∑ u ∈ range 8, g u ^ 2 ≤ c) (u : Nat) (hu : u < 8) : g u ^ 2 ≤ c :=
  (Finset.single_le_sum (f := fun u => g u ^ 2) (fun i _ => sq_nonneg _) (Finset.mem_range.mpr hu)).trans h

/-- the odd terms -/
theorem odd_le {g : Nat → ℝ} {c : ℝ} (h : ∑ u ∈ range 8, g u ^ 2 ≤ c) :
    g 1 ^ 2 + g 3 ^ 2 + g 5 ^ 2 + g 7 ^ 2 ≤ c := by
  simp only [Finset.sum_range_succ, Finset.sum_range_zero, zero_add] at h
  nlinarith [sq_nonneg (g 0), sq_nonneg (g 2), sq_nonneg (g 4), sq_nonneg (g 6)]

theorem cauchy4 (a b c d p q r s : ℝ) :
    (a * p + b * q + c * r + d * s) ^ 2 ≤ (a ^ 2 + b ^ 2 + c ^ 2 + d ^ 2) * (p ^ 2 + q ^ 2 + r ^ 2 + s ^ 2) := by
  nlinarith [sq_nonneg (a * q - b * p), sq_nonneg (a * r - c * p), sq_nonneg (a * s - d * p), sq_nonneg (b * r - c * q),
    sq_nonneg (b * s - d * q), sq_nonneg (c * s - d * r)]

variable {F : Nat → Int}

/-- every exact sample is a difference of two bytes -/
def Residual (F : Nat → Int) : Prop := ∀ y < 8, ∀ x < 8, |realIdct F y x| ≤ 255

theorem G_sq (h : Residual F) (y : Nat) (hy : y < 8) : ∑ u ∈ range 8, G F y u ^ 2 ≤ 266342400 := by
  have p := parseval (G F y)
  have : ∑ x ∈ range 8, (∑ u ∈ range 8, E x u * G F y u) ^ 2 ≤ ∑ x ∈ range 8, (512 * 255 : ℝ) ^ 2 := by
    refine Finset.sum_le_sum fun x hx => ?_
    rw [← real_G]
    apply sq_le_of
    rw [abs_mul, abs_of_pos (by norm_num : (0 : ℝ) < 512)]
    exact mul_le_mul_of_nonneg_left (h y hy x (Finset.mem_range.mp hx)) (by norm_num)
  simp only [Finset.sum_const, Finset.card_range, nsmul_eq_mul] at this
  norm_num at this
  linarith

theorem H_sq (h : Residual F) (x : Nat) (hx : x < 8) : ∑ v ∈ range 8, H F x v ^ 2 ≤ 266342400 := by
  have p := parseval (H F x)
  have : ∑ y ∈ range 8, (∑ v ∈ range 8, E y v * H F x v) ^ 2 ≤ ∑ y ∈ range 8, (512 * 255 : ℝ) ^ 2 := by
    refine Finset.sum_le_sum fun y hy => ?_
    rw [← real_H]
    apply sq_le_of
    rw [abs_mul, abs_of_pos (by norm_num : (0 : ℝ) < 512)]
    exact mul_le_mul_of_nonneg_left (h y (Finset.mem_range.mp hy) x hx) (by norm_num)
  simp only [Finset.sum_const, Finset.card_range, nsmul_eq_mul] at this
  norm_num at this
  linarith

/-- the coefficients of one row -/
theorem F_sq (h : Residual F) (v : Nat) (hv : v < 8) : ∑ u ∈ range 8, (F (8 * v + u) : ℝ) ^ 2 ≤ 4161600 := by
  have p := parseval fun u => (F (8 * v + u) : ℝ)
  have e : ∀ x, ∑ u ∈ range 8, E x u * (F (8 * v + u) : ℝ) = H F x v := fun x => rfl
  simp only [e] at p
  have : ∑ x ∈ range 8, H F x v ^ 2 ≤ ∑ x ∈ range 8, (266342400 : ℝ) :=
    Finset.sum_le_sum fun x hx => term_le (H_sq h x (Finset.mem_range.mp hx)) v hv
  simp only [Finset.sum_const, Finset.card_range, nsmul_eq_mul] at this
  norm_num at this
  linarith

theorem F_abs (h : Residual F) (v : Nat) (hv : v < 8) : ∑ u ∈ range 8, |(F (8 * v + u) : ℝ)| ≤ 5770 :=
  sum_abs_le (by norm_num) (F_sq h v hv) (by norm_num)

/-- The transform without wrap-around is within 1. -/
theorem idctZ_residual (h : Residual F) (y x : Nat) (hy : y < 8) (hx : x < 8) :
    |(idctZ F (8 * y + x) : ℝ) - realIdct F y x| < 1 := by
  have n := idctZ_near F y x hy hx
  have g := sum_abs_le (B := 46160) (by norm_num) (G_sq h y hy) (by norm_num)
  have k := sum_abs_le (B := 46160) (by norm_num) (H_sq h x hx) (by norm_num)
  have f : ∑ v ∈ range 8, ∑ u ∈ range 8, |(F (8 * v + u) : ℝ)| ≤ ∑ v ∈ range 8, (5770 : ℝ) :=
    Finset.sum_le_sum fun v hv => F_abs h v (Finset.mem_range.mp hv)
  simp only [Finset.sum_const, Finset.card_range, nsmul_eq_mul] at f
  norm_num at f n
  linarith

theorem pair_le (a b c d : ℝ) (g : Nat → ℝ) (w : a ^ 2 + b ^ 2 + c ^ 2 + d ^ 2 = 33555702) {s B : ℝ} (hB : 0 ≤ B)
    (h : ∑ u ∈ range 8, g u ^ 2 ≤ s) (hs : 33555702 * s ≤ B ^ 2) : |a * g 1 + b * g 3 + c * g 5 + d * g 7| ≤ B := by
  apply abs_le_of hB
  have c4 := cauchy4 a b c d (g 1) (g 3) (g 5) (g 7)
  rw [w] at c4
  have := odd_le h
  nlinarith

theorem int_of_abs {z : Int} {B : Int} (h : |(z : ℝ)| ≤ (B : ℝ)) : -B ≤ z ∧ z ≤ B := by
  rw [abs_le] at h
  exact ⟨by exact_mod_cast h.1, by exact_mod_cast h.2⟩

/-- No row overflows. -/
theorem row_exact (h : Residual F) (v : Nat) (hv : v < 8) :
    idctRow (fun u => F (8 * v + u)) = rowZ (fun u => F (8 * v + u)) := by
  have q := F_sq h v hv
  apply idctRow_exact
  · intro u hu
    have t := term_le q u hu
    have := int_of_abs (z := F (8 * v + u)) (B := 2040) (abs_le_of (by norm_num) (by norm_num; linarith))
    constructor <;> linarith [this.1, this.2]
  · have := pair_le 3406 (-799) (-4017) (-2276) (fun u => (F (8 * v + u) : ℝ)) (by norm_num) (B := 11864000)
      (by norm_num) q (by norm_num)
    have := int_of_abs (z := 3406 * F (8 * v + 1) - 799 * F (8 * v + 3) - 4017 * F (8 * v + 5) - 2276 * F (8 * v + 7))
      (B := 11864000) (by push_cast; convert this using 2; ring)
    exact this
  · have := pair_le 2276 (-4017) 799 3406 (fun u => (F (8 * v + u) : ℝ)) (by norm_num) (B := 11864000)
      (by norm_num) q (by norm_num)
    have := int_of_abs (z := 2276 * F (8 * v + 1) - 4017 * F (8 * v + 3) + 799 * F (8 * v + 5) + 3406 * F (8 * v + 7))
      (B := 11864000) (by push_cast; convert this using 2; ring)
    exact this

/-- the result of the first pass is close to the exact one -/
theorem row_near (h : Residual F) (x v : Nat) (hx : x < 8) (hv : v < 8) :
    |(rowZ (fun u => F (8 * v + u)) x : ℝ) - H F x v| ≤ 122 / 10 := by
  have r := rowZ_A (fun u => F (8 * v + u)) x hx
  have s := sum_mul_le (g := fun u => (F (8 * v + u) : ℝ)) (fun u hu => A_sub_E x u hx hu)
  have f := F_abs h v hv
  have e : ∑ u ∈ range 8, (A x u - E x u) * (F (8 * v + u) : ℝ) =
      ∑ u ∈ range 8, A x u * (F (8 * v + u) : ℝ) - H F x v := by
    unfold H
    rw [← Finset.sum_sub_distrib]
    exact Finset.sum_congr rfl fun u _ => by ring
  rw [e] at s
  rw [abs_le] at *
  constructor <;> linarith [r.1, r.2, s.1, s.2]

/-- No column overflows. -/
theorem col_exact (h : Residual F) (x : Nat) (hx : x < 8) :
    idctCol (fun v => rowZ (fun u => F (8 * v + u)) x) = colZ (fun v => rowZ (fun u => F (8 * v + u)) x) := by
  have q := H_sq h x hx
  have n : ∀ v < 8, _ := fun v hv => row_near h x v hx hv
  generalize hT : (fun v => rowZ (fun u => F (8 * v + u)) x) = T
  have n : ∀ v < 8, |(T v : ℝ) - H F x v| ≤ 122 / 10 := by subst hT; exact n
  have big : ∀ a b c d : ℝ, a ^ 2 + b ^ 2 + c ^ 2 + d ^ 2 = 33555702 → |a| + |b| + |c| + |d| ≤ 10498 →
      |a * T 1 + b * T 3 + c * T 5 + d * T 7| ≤ 94912000 := by
    intro a b c d w l
    have p := pair_le a b c d (H F x) w (B := 94540000) (by norm_num) q (by norm_num)
    have s : ∀ (k : ℝ) (v : Nat), v < 8 → |k * T v - k * H F x v| ≤ |k| * (122 / 10) := by
      intro k v hv
      rw [← mul_sub, abs_mul]
      exact mul_le_mul_of_nonneg_left (n v hv) (abs_nonneg _)
    have s1 := s a 1 (by norm_num)
    have s3 := s b 3 (by norm_num)
    have s5 := s c 5 (by norm_num)
    have s7 := s d 7 (by norm_num)
    clear s n
    rw [abs_le] at s1 s3 s5 s7 p
    rw [abs_le]
    constructor
    · linarith [s1.1, s3.1, s5.1, s7.1, p.1]
    · linarith [s1.2, s3.2, s5.2, s7.2, p.2]
  apply idctCol_exact
  · intro v hv
    have t := abs_le_of (b := 16320) (by norm_num) ((term_le q v hv).trans (by norm_num))
    have m := n v hv
    have := int_of_abs (z := T v) (B := 40000) (by
      rw [abs_le] at *
      push_cast
      constructor <;> linarith [t.1, t.2, m.1, m.2])
    exact this
  · have := big 3406 (-799) (-4017) (-2276) (by norm_num) (by norm_num)
    have := int_of_abs (z := 3406 * T 1 - 799 * T 3 - 4017 * T 5 - 2276 * T 7)
      (B := 94912000) (by push_cast; convert this using 2; ring)
    exact this
  · have := big 2276 (-4017) 799 3406 (by norm_num) (by norm_num)
    have := int_of_abs (z := 2276 * T 1 - 4017 * T 3 + 799 * T 5 + 3406 * T 7)
      (B := 94912000) (by push_cast; convert this using 2; ring)
    exact this

/-- No step of the transform overflows. -/
theorem idct_exact (h : Residual F) (y x : Nat) (hy : y < 8) (hx : x < 8) :
    idct F (8 * y + x) = idctZ F (8 * y + x) := by
  unfold idct idctZ idctCols colsZ
  rw [show (8 * y + x) % 8 = x by omega, show (8 * y + x) / 8 = y by omega]
  have e : ∀ v, rowsZ F (8 * v + x) = rowZ (fun u => F (8 * v + u)) x := by
    intro v
    unfold rowsZ
    rw [show (8 * v + x) % 8 = x by omega, show (8 * v + x) / 8 = v by omega]
  have e' : ∀ v, v < 8 → idctRows F (8 * v + x) = rowZ (fun u => F (8 * v + u)) x := by
    intro v hv
    unfold idctRows
    rw [show (8 * v + x) % 8 = x by omega, show (8 * v + x) / 8 = v by omega, row_exact h v hv]
  have c := col_exact h x hx
  simp only [e]
  rw [← c]
  apply idctCol_congr
  exact e'
where
  idctCol_congr {s t : Nat → Int} {i : Nat} (h : ∀ v, v < 8 → s v = t v) : idctCol s i = idctCol t i := by
    unfold idctCol
    rw [h 0 (by omega), h 1 (by omega), h 2 (by omega), h 3 (by omega), h 4 (by omega), h 5 (by omega), h 6 (by omega),
      h 7 (by omega)]

/-- A cruder bound that holds for every block. -/
theorem idctZ_near_l1 (F : Nat → Int) (y x : Nat) (hy : y < 8) (hx : x < 8) :
    |(idctZ F (8 * y + x) : ℝ) - realIdct F y x| ≤ 6 / 10 +
      2 / 10000 * ∑ v ∈ range 8, ∑ u ∈ range 8, |(F (8 * v + u) : ℝ)| := by
  have n := idctZ_near F y x hy hx
  have hE : ∀ x < 8, ∀ u < 8, |E x u| ≤ 13 := by
    intro x hx u hu
    have a := A_sub_E x u hx hu
    have b := A_le x u hx hu
    rw [abs_le] at *
    constructor <;> linarith [a.1, a.2, b.1, b.2]
  have g : ∑ u ∈ range 8, |G F y u| ≤ 13 * ∑ v ∈ range 8, ∑ u ∈ range 8, |(F (8 * v + u) : ℝ)| := by
    rw [Finset.sum_comm, Finset.mul_sum]
    exact Finset.sum_le_sum fun u _ => sum_mul_le (g := fun v => (F (8 * v + u) : ℝ)) (hE y hy)
  have k : ∑ v ∈ range 8, |H F x v| ≤ 13 * ∑ v ∈ range 8, ∑ u ∈ range 8, |(F (8 * v + u) : ℝ)| := by
    rw [Finset.mul_sum]
    exact Finset.sum_le_sum fun v _ => sum_mul_le (g := fun u => (F (8 * v + u) : ℝ)) (hE x hx)
  have p : 0 ≤ ∑ v ∈ range 8, ∑ u ∈ range 8, |(F (8 * v + u) : ℝ)| :=
    Finset.sum_nonneg fun v _ => Finset.sum_nonneg fun u _ => abs_nonneg _
  norm_num at n
  linarith

end Mpeg.Video.IdctR
