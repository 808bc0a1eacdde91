/-
C137: how much picture a bit can make.
-/
import Verif.Video.FillLemmas
import Verif.Video.CostProps
set_option linter.all false
namespace Mpeg.Video
open Spec

/-- The samples of an outcome that are not 0. -/
def filled : Res Frame → Nat
  | .ok f => nonzero f
  | _ => 0

theorem pays_fill (fuel : Nat) : Cost.Pays 1152 nonzero fuel := fun _ _ _ h => stock_step h

/-- **C137** Whatever the input and whatever the calls return: the pictures returned by all calls of `Next` together have at
most 1152 samples (of all components, and counting every picture returned) that are not 0 for every bit of the input.
1152 is the rate of a macroblock escape: 11 bits that skip 33 macroblocks of 384 samples. -/
theorem C137 (br : BR) (fuel k n : Nat) :
    ((outcomes fuel k n (VS.new br)).map filled).sum ≤ 1152 * (br.bits.length + (br.later.map fun x => x.1.length).sum) := by
  have h := Cost.outcomes_le (pays_fill fuel) k n (VS.new br) (Cost.new (K := 1152) (w := nonzero) br).1
  rw [(Cost.new br).2] at h
  have e : Cost.price nonzero = filled := by
    funext r
    cases r <;> rfl
  rw [e] at h
  exact h

/-- a case: however the 40 bytes of an input announce pictures of 4095 by 4095 samples, at most 368640 samples of the
pictures returned, of more than 25 millions in each of them, are not 0 -/
example (bits : List Bool) (hb : bits.length = 320) (n : Nat) :
    ((outcomes 400 400 n (VS.new ⟨bits, 0, .eof, []⟩)).map filled).sum ≤ 368640 := by
  have := C137 ⟨bits, 0, .eof, []⟩ 400 400 n
  simp only [hb, List.map_nil, List.sum_nil] at this
  omega

/-- **C137** for an application that goes on after errors and panics, as in `C136_watch`. -/
theorem C137_watch (br : BR) (fuel k n : Nat) {realign : Go BR Unit} (hr : BR.Mv realign) {frames : List Frame} {t : VS}
    (h : watch fuel k realign n (VS.new br) = (.ok frames, t)) :
    (frames.map nonzero).sum + 1152 * t.br.size ≤ 1152 * (br.bits.length + (br.later.map fun x => x.1.length).sum) := by
  have h := Cost.watch_le (pays_fill fuel) k hr n _ _ _ (Cost.new (K := 1152) (w := nonzero) br).1 h
  rw [(Cost.new br).2] at h
  exact h

/-- a case -/
example (bits : List Bool) (n : Nat) (frames : List Frame) (t : VS)
    (h : watch 20 20 (alignTo 0x100) n (VS.new ⟨bits, 0, .eof, []⟩) = (.ok frames, t)) :
    (frames.map nonzero).sum + 1152 * t.br.size ≤ 1152 * bits.length :=
  C137_watch _ 20 20 n (mv_alignTo _) h

end Mpeg.Video
