/-
Property C98, predictions: the vectors on which motion compensation panics.
-/
import Verif.Video.FrameProps
import Verif.Video.PanicSpec2
import Mathlib.Tactic.Ring
import Mathlib.Tactic.Linarith
set_option linter.all false
namespace Mpeg.Video
open Spec

theorem optAll_none {n : Nat} {f : Nat → Option Int} : optAll n f = none ↔ ∃ k, k < n ∧ f k = none := by
  constructor
  · intro h
    by_contra hn
    have : ∀ k, k < n → f k = some ((f k).getD 0) := by
      intro k hk
      cases hf : f k with
      | none => exact absurd ⟨k, hk, hf⟩ hn
      | some x => rfl
    obtain ⟨r, hr, _⟩ := optAll_some this
    rw [h] at hr
    cases hr
  · rintro ⟨k, hk, hf⟩
    cases h : optAll n f with
    | none => rfl
    | some r =>
      have := optAll_inv h k hk
      rw [hf] at this
      cases this

theorem at_none {p : Plane} {k : Int} : p.at? k = none ↔ ¬ (0 ≤ k ∧ k < p.len) := by
  unfold Plane.at?
  split <;> simp [*]

theorem at_isSome {p : Plane} {k : Int} (h : 0 ≤ k ∧ k < p.len) : ∃ x, p.at? k = some x := ⟨_, by unfold Plane.at?; rw [if_pos h]⟩

/-- one sample -/
theorem sample_none {p : Plane} {S : Nat} {k : Int} {a b : Bool} :
    mcSample p S k a b = none ↔ ¬ (0 ≤ k ∧ k + (if b then (S : Int) else 0) + (if a then 1 else 0) < p.len) := by
  constructor
  · intro h hin
    obtain ⟨h0, h1⟩ := hin
    cases a <;> cases b <;> simp only [mcSample, Bool.false_eq_true, ↓reduceIte, Int.add_zero] at h h1
    · obtain ⟨x, hx⟩ := at_isSome (p := p) (k := k) ⟨h0, h1⟩
      rw [hx] at h; cases h
    · obtain ⟨x, hx⟩ := at_isSome (p := p) (k := k) ⟨h0, by omega⟩
      obtain ⟨y, hy⟩ := at_isSome (p := p) (k := k + S) ⟨by omega, h1⟩
      rw [hx, hy] at h; cases h
    · obtain ⟨x, hx⟩ := at_isSome (p := p) (k := k) ⟨h0, by omega⟩
      obtain ⟨y, hy⟩ := at_isSome (p := p) (k := k + 1) ⟨by omega, h1⟩
      rw [hx, hy] at h; cases h
    · obtain ⟨x, hx⟩ := at_isSome (p := p) (k := k) ⟨h0, by omega⟩
      obtain ⟨y, hy⟩ := at_isSome (p := p) (k := k + 1) ⟨by omega, by omega⟩
      obtain ⟨z, hz⟩ := at_isSome (p := p) (k := k + S) ⟨by omega, by omega⟩
      obtain ⟨w, hw⟩ := at_isSome (p := p) (k := k + S + 1) ⟨by omega, h1⟩
      rw [hx, hy, hz, hw] at h; cases h
  · intro h
    by_cases h0 : 0 ≤ k ∧ k < p.len
    · obtain ⟨x, hx⟩ := at_isSome h0
      cases a <;> cases b <;> simp only [mcSample, Bool.false_eq_true, ↓reduceIte, Int.add_zero] at h ⊢
      · exact absurd h0 h
      · rw [hx, at_none.2 (by omega)]; rfl
      · rw [hx, at_none.2 (by omega)]; rfl
      · rw [(at_none (p := p) (k := k + S + 1)).2 (by omega)]
        cases p.at? k <;> cases p.at? (k + 1) <;> cases p.at? (k + S) <;> rfl
    · have := at_none.2 h0
      cases a <;> cases b <;> simp only [mcSample, this] <;> rfl

/-- one reference -/
theorem predict_none {f : Frame} {W H i row addr : Nat} (g : Geometry f W H) (hi : i < 6) (m : Vec) :
    (∃ k, k < 64 ∧ mcPredict f i row addr m (k / 8) (k % 8) = none) ↔ ¬ PredFits W H i row addr m.h m.v := by
  obtain ⟨p, hp, hl, -⟩ := plane_pix g hi
  have key : ∀ v u, mcPredict f i row addr m v u = mcSample p (compSize i W) (((blockY i row : Int) + blockVec i m.v / 2) *
      compSize i W + (blockX i addr + blockVec i m.h / 2) + v * compSize i W + u) (blockVec i m.h % 2 = 1) (blockVec i m.v % 2 = 1) := by
    intro v u
    rw [mcPredict, hp]
    simp only [Option.bind_eq_bind, Option.bind_some]
    rw [index_pix hi, vec_scaled hi]
  unfold PredFits
  have hlen : (p.len : Int) = compSize i W * compSize i H := by rw [hl]; push_cast; rfl
  rw [← hlen]
  simp only [key, sample_none]
  generalize (blockY i row : Int) + blockVec i m.v / 2 = Y
  generalize (blockX i addr : Int) + blockVec i m.h / 2 = X
  generalize compSize i W = S
  have hb : ∀ x : Int, (if decide (x % 2 = 1) = true then (1 : Int) else 0) = x % 2 := by
    intro x
    by_cases hx : x % 2 = 1
    · simp [hx]
    · rw [if_neg (by simpa using hx)]; omega
  have hs : (if decide (blockVec i m.v % 2 = 1) = true then (S : Int) else 0) = blockVec i m.v % 2 * S := by
    rw [← hb]; split <;> simp
  rw [hs, hb]
  have hv : 0 ≤ blockVec i m.v % 2 := by omega
  have hh : 0 ≤ blockVec i m.h % 2 := by omega
  generalize blockVec i m.v % 2 = b at *
  generalize blockVec i m.h % 2 = a at *
  have hS : (0 : Int) ≤ S := Int.natCast_nonneg _
  have e : (Y + 7 + b) * S + (X + 7 + a) = Y * S + X + 7 * S + 7 + b * S + a := by ring
  rw [e]
  constructor
  · rintro ⟨k, hk, h⟩ ⟨h0, h1⟩
    refine h ⟨?_, ?_⟩
    · have : (0 : Int) ≤ ((k / 8 : Nat) : Int) * S := by positivity
      omega
    · have : ((k / 8 : Nat) : Int) * S ≤ 7 * S := by
        apply mul_le_mul_of_nonneg_right _ hS
        omega
      have : ((k % 8 : Nat) : Int) ≤ 7 := by omega
      omega
  · intro h
    by_cases h0 : 0 ≤ Y * S + X
    · refine ⟨63, by omega, fun h' => h ⟨h0, ?_⟩⟩
      have := h'.2
      norm_num at this
      omega
    · refine ⟨0, by omega, fun h' => h0 ?_⟩
      have := h'.1
      norm_num at this
      exact this

/-- **C98**, predictions: motion compensation of a block panics exactly if a reference that is used has not all the samples needed,
counted through the lines of the component: vectors beyond the upper and lower edges panic, those beyond the left and right edges
only in the first and last lines; elsewhere they take samples from the neighbouring lines. -/
theorem C98_prediction {f g : Frame} {W H i row addr : Nat} (gf : Geometry f W H) (gg : Geometry g W H) (hi : i < 6) (m n : Vec)
    (b : Block) :
    (motionCompensation b (some (f, m)) none i row addr = none ↔ ¬ PredFits W H i row addr m.h m.v) ∧
    (motionCompensation b none (some (g, n)) i row addr = none ↔ ¬ PredFits W H i row addr n.h n.v) ∧
    (motionCompensation b (some (f, m)) (some (g, n)) i row addr = none ↔
      ¬ (PredFits W H i row addr m.h m.v ∧ PredFits W H i row addr n.h n.v)) := by
  refine ⟨?_, ?_, ?_⟩
  · unfold motionCompensation
    rw [Option.map_eq_none_iff, optAll_none]
    exact predict_none gf hi m
  · unfold motionCompensation
    rw [Option.map_eq_none_iff, optAll_none]
    exact predict_none gg hi n
  · unfold motionCompensation
    rw [Option.map_eq_none_iff, optAll_none, not_and_or, ← predict_none gf hi m, ← predict_none gg hi n]
    constructor
    · rintro ⟨k, hk, h⟩
      cases h1 : mcPredict f i row addr m (k / 8) (k % 8) with
      | none => exact .inl ⟨k, hk, h1⟩
      | some x =>
        cases h2 : mcPredict g i row addr n (k / 8) (k % 8) with
        | none => exact .inr ⟨k, hk, h2⟩
        | some y =>
          simp only [mcPel, h1, h2] at h
          cases h
    · rintro (⟨k, hk, h⟩ | ⟨k, hk, h⟩)
      · exact ⟨k, hk, by simp only [mcPel, h]; rfl⟩
      · refine ⟨k, hk, ?_⟩
        simp only [mcPel, h]
        cases mcPredict f i row addr m (k / 8) (k % 8) <;> rfl

/-- Vectors that stay inside the picture never panic. -/
theorem C98_inside {W H i row addr : Nat} {h v : Int}
    (hX : inside (blockX i addr) 8 (compSize i W) (blockVec i h))
    (hY : inside (blockY i row) 8 (compSize i H) (blockVec i v)) : PredFits W H i row addr h v := by
  obtain ⟨a1, a2⟩ := hX
  obtain ⟨b1, b2⟩ := hY
  unfold PredFits
  generalize (blockY i row : Int) = y0 at *
  generalize (blockX i addr : Int) = x0 at *
  generalize compSize i W = S at *
  generalize compSize i H = R at *
  have hS : (0 : Int) ≤ S := Int.natCast_nonneg _
  constructor
  · have : 0 ≤ (y0 + blockVec i v / 2) * S := mul_nonneg b1 hS
    omega
  · have h1 : (y0 + blockVec i v / 2 + 7 + blockVec i v % 2) * S ≤ ((R : Int) - 1) * S :=
      mul_le_mul_of_nonneg_right (by push_cast at b2; omega) hS
    have h2 : ((R : Int) - 1) * S = S * R - S := by ring
    push_cast at a2
    omega

/-- Vectors beyond the upper or lower edge by at least a line always panic, as long as they stay within the columns. -/
theorem C98_outside {W H i row addr : Nat} {h v : Int}
    (hX : inside (blockX i addr) 8 (compSize i W) (blockVec i h))
    (hY : ¬ inside (blockY i row) 8 (compSize i H) (blockVec i v)) : ¬ PredFits W H i row addr h v := by
  obtain ⟨a1, a2⟩ := hX
  unfold inside at hY
  unfold PredFits
  generalize (blockY i row : Int) = y0 at *
  generalize (blockX i addr : Int) = x0 at *
  generalize compSize i W = S at *
  generalize compSize i H = R at *
  have hS : (0 : Int) ≤ S := Int.natCast_nonneg _
  push_cast at a2 hY
  rintro ⟨c1, c2⟩
  by_cases h0 : 0 ≤ y0 + blockVec i v / 2
  · have h1 : (R : Int) ≤ y0 + blockVec i v / 2 + 7 + blockVec i v % 2 := by
      by_contra hn
      exact hY ⟨h0, by omega⟩
    have h2 := mul_le_mul_of_nonneg_right h1 hS
    have h3 : (R : Int) * S = S * R := by ring
    have : 0 ≤ blockVec i h % 2 := by omega
    omega
  · have h1 : (y0 + blockVec i v / 2) * S ≤ -1 * S := mul_le_mul_of_nonneg_right (by omega) hS
    omega

/-- A vector that points 8 samples beyond the left edge: in the first row of macroblocks it panics, in the second it does not. -/
example : ¬ PredFits 2 2 0 0 0 (-16) 0 ∧ PredFits 2 2 0 1 0 (-16) 0 := by
  constructor
  · rintro ⟨h, -⟩; revert h; decide
  · constructor <;> decide

end Mpeg.Video
