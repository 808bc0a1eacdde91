import Mathlib.Analysis.SpecialFunctions.Trigonometric.Basic
import Mathlib.Algebra.BigOperators.Group.Finset.Basic
import Mathlib.Algebra.BigOperators.Intervals
import Verif.Video.BlockModel

/-!
The exact inverse discrete cosine transform of ISO/IEC 13818-2 Annex A over the real numbers.  Nothing here refers to the
fixed-point algorithm.
-/

namespace Mpeg.Video.Spec

open Finset

/-- `C(u)` of Annex A -/
noncomputable def cosScale (u : Nat) : ℝ := if u = 0 then 1 / √2 else 1

/-- The inverse DCT of Annex A with `N = 8`: sample in row `y`, column `x` of the block whose coefficient with vertical
frequency `v` and horizontal frequency `u` is `F (8 * v + u)`. -/
noncomputable def realIdct (F : Nat → Int) (y x : Nat) : ℝ :=
  2 / 8 * ∑ v ∈ range 8, ∑ u ∈ range 8, cosScale u * cosScale v * (F (8 * v + u) : ℝ) *
    Real.cos ((2 * x + 1) * u * Real.pi / 16) * Real.cos ((2 * y + 1) * v * Real.pi / 16)

end Mpeg.Video.Spec
