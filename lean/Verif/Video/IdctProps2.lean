/-
C51 for intra blocks.
-/
import Verif.Video.IdctLemmas4
namespace Mpeg.Video

open Mpeg.Video.Spec

/-- **C51** for intra blocks: coefficient blocks whose exact inverse DCT differs from mid grey by at most 255.  (Blocks of
8-bit samples, even with overshoot of half the range on both sides, satisfy this; `C51_partial` does not cover samples
above 255.) -/
theorem C51_intra_partial (F : Block) (h : ∀ y < 8, ∀ x < 8, |realIdct F y x - 128| ≤ 255) (y x : Nat) (hy : y < 8) (hx : x < 8) :
    |(idct F (8 * y + x) : ℝ) - realIdct F y x| < 1 := by
  let F' : Nat → Int := fun i => if i = 0 then F 0 - 1024 else F i
  have lift : IdctR.lift128 F' = F := by
    funext i
    unfold IdctR.lift128
    by_cases h : i = 0
    · subst h; simp [F']
    · simp [F', h]
  have res : IdctR.Residual F' := by
    intro y hy x hx
    have e := IdctR.real_lift F' y x
    rw [lift] at e
    have := h y hy x hx
    rwa [e, add_sub_cancel_right] at this
  have w := IdctR.idctZ_residual res y x hy hx
  have e1 := IdctR.idct_lift res y x hx
  have e2 := IdctR.idctZ_lift F' y x hx
  have e3 := IdctR.real_lift F' y x
  rw [lift] at e1 e2 e3
  rw [e1, e2, e3]
  push_cast
  rwa [add_sub_add_right_eq_sub]

end Mpeg.Video
