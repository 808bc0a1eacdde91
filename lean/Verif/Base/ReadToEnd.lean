/-
A consumer that reads a reader to its end.
-/
import Verif.Base.Go
namespace Mpeg

/-- `ioutil.ReadAll(r)`, and likewise `io.Copy(w, r)`: Read with buffers of the sizes `sz i`, `sz (i + 1)`, … until
an error is reported; the bytes of all Reads are kept, `io.EOF` is not handed on.  A Read without bytes and without
error is followed by another Read.  The first argument bounds the number of Reads: `hang` is a caller that has made
that many Reads and wants more.  (Package ioutil is not part of /repo: pes/packet.go:97 and ts/payload_reader_test.go:60 call it;
the sizes it chooses are positive and left open here.) -/
def readToEnd {σ : Type} (read : Nat → Go σ (List UInt8 × Option Err)) (sz : Nat → Nat) : Nat → Nat →
    Go σ (List UInt8 × Option Err)
  | 0, _ => Go.hang
  | f + 1, i => do
    let o ← read (sz i)
    match o.2 with
    | none => do
      let rest ← readToEnd read sz f (i + 1)
      pure (o.1 ++ rest.1, rest.2)
    | some e => pure (o.1, if e = .eof then none else some e)

/-- What the caller of ReadAll is told when the reader reported `e`. -/
def told (e : Err) : Option Err := if e = .eof then none else some e

end Mpeg
