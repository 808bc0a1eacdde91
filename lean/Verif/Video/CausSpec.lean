/-
The outcomes of consecutive calls of `Next`.
-/
import Verif.Video.MacroblockModel
namespace Mpeg.Video.Spec

/-- What `n` consecutive calls of `Next` return; a call that panics or does not return is the last one. -/
def outcomes (fuel k : Nat) : Nat → VS → List (Res Frame)
  | 0, _ => []
  | n + 1, s =>
    match VS.next fuel k s with
    | (.ok f, s') => .ok f :: outcomes fuel k n s'
    | (.err e, s') => .err e :: outcomes fuel k n s'
    | (.panic, _) => [.panic]
    | (.hang, _) => [.hang]

end Mpeg.Video.Spec
