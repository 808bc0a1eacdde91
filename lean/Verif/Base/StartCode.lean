/-
Start codes: the same code appears in ps/start_code.go and video/start_codes.go, and, with 4 bits, in
video/extension_id.go.
-/
import Verif.Base.BR
namespace Mpeg

/-- `expected.Check(br)` (ps/start_code.go:22-28, video/start_codes.go:42-48 with `k = 32`,
video/extension_id.go:41-47 with `k = 4`) -/
def codeCheck (k code : Nat) : Go BR Bool := do
  let v ← BR.peek k
  pure (v == code)

/-- `expected.Assert(br)` (ps/start_code.go:32-42, video/start_codes.go:52-62 with `k = 32`,
`e = ErrUnexpectedStartCode`; video/extension_id.go:52-62 with `k = 4`,
`e = ErrUnexpectedExtensionID`) -/
def codeAssert (k code : Nat) (e : Err) : Go BR Unit := do
  let t ← codeCheck k code
  Go.check t e
  BR.skip k

end Mpeg
