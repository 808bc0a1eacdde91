/-
What it means that an error comes from the source: the errors a source can report, and that it has been read to
its end (of the current segment).
-/
import Verif.Base.BR
namespace Mpeg.BR

/-- the errors with which the segments of the source end -/
def stops (s : BR) : List Err := s.stop :: s.later.map (·.2)

/-- `e` is an error the source reports, or it is `io.ErrUnexpectedEOF` and the source ends with `io.EOF`. -/
def Says (s : BR) (e : Err) : Prop := e ∈ s.stops ∨ (e = .unexpectedEOF ∧ .eof ∈ s.stops)

/-- In `s'` the current segment of `s` has been read to its end: the reader is on a later segment, or nothing is left
at all. -/
def Left (s s' : BR) : Prop := s'.later.length < s.later.length ∨ (s'.bits = [] ∧ s'.later = [])

end Mpeg.BR
