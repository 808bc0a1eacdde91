/-
C78, C79, C80, C81: truncated streams, the end of the input, streams of ISO 11172-2, and the reader after a picture.
-/
import Verif.Video.CausLemmas3
import Verif.Video.SyncLemmas
import Verif.Video.StreamProps
set_option linter.all false
namespace Mpeg.Video
open Spec
variable {stop : Err} {later : List (List Bool × Err)}

/-- **C78** A truncated input gives the same pictures and errors, as far as it goes.  `outcomes n` is what `n` consecutive
calls of `Next` return.  On any input `X` they are what they are on the longer input `X ++ t`; or they are a part `P` of what
they are on the longer input, without any error that reports the end of the input, then one such error (`io.EOF` or
`io.ErrUnexpectedEOF`), and `io.EOF` from then on.  In particular no picture is ever delivered that the whole input
would not deliver at the same call, and a truncated input panics or hangs only where the whole input does. -/
theorem C78 (fuel : Nat) {k : Nat} (hk : 0 < k) (n : Nat) (X t : List Bool) :
    outcomes fuel k n (VS.new (.ofBits X)) = outcomes fuel k n (VS.new (.ofBits (X ++ t))) ∨
    ∃ P e m, (e = .eof ∨ e = .unexpectedEOF) ∧ (∀ e', .err e' ∈ P → e' ≠ .eof ∧ e' ≠ .unexpectedEOF) ∧
      outcomes fuel k n (VS.new (.ofBits X)) = P ++ .err e :: List.replicate m (.err .eof) ∧
      P <+: outcomes fuel k n (VS.new (.ofBits (X ++ t))) := by
  rcases outcomes_trunc (fuel := fuel) hk t n (VS.new (.ofBits X)) ⟨rfl, rfl⟩ with h | ⟨P, e, m, h1, h2, h3, h4⟩
  · exact .inl h
  · exact .inr ⟨P, e, m, h1, fun e' h => not_or.mp (h2 e' h), h3, h4⟩

/-- **C79** The end of the input is final: from any state of the decoder with an input without gaps, once `Next` has reported
`io.EOF` or `io.ErrUnexpectedEOF`, every later call reports `io.EOF`. -/
theorem C79 {fuel k : Nat} (hk : 0 < k) {s s' : VS} {e : Err} (hp : s.br.stop = .eof ∧ s.br.later = [])
    (h : VS.next fuel k s = (.err e, s')) (he : e = .eof ∨ e = .unexpectedEOF) (fuel' n : Nat) :
    outcomes fuel' k n s' = List.replicate n (.err .eof) := by
  obtain ⟨h1, h2, h3⟩ := next_end hp h he
  exact outcomes_atEnd hk n s' h1 h2 h3

/-- the first call on a stream of ISO 11172-2, and the state after it -/
theorem refused_state (fuel : Nat) {k : Nat} (hk : 0 < k) {h : Seq} (hw : h.WF) {lead stuffing c : Nat} {pad rest : List Bool}
    (hpad : pad.length = padding (encSeq h).length) (hc : c < 256) (hc' : c ≠ 0xB5) :
    ∃ s', VS.next fuel k (VS.new ⟨zeros (8 * lead) ++ (encSeq h ++ (pad ++ (zeros (8 * stuffing) ++ (bitsOf 32 (0x100 + c) ++ rest)))),
        0, stop, later⟩) = (.err .unsupported11172, s') ∧
      s'.br = ⟨bitsOf 32 (0x100 + c) ++ rest, 8 * lead + (encSeq h).length + pad.length + 8 * stuffing, stop, later⟩ ∧
      s'.br.pos % 8 = 0 ∧ s'.sh.isSome = true ∧ s'.fs.f0 = none ∧ s'.fs.f1 = none := by
  obtain ⟨b, hb⟩ : ∃ b, b = pad ++ (zeros (8 * stuffing) ++ (bitsOf 32 (0x100 + c) ++ rest)) := ⟨_, rfl⟩
  have htb : Tail.bits ⟨pad, stuffing, bitsOf 8 c ++ rest⟩ = b := by
    rw [hb, code32_bits hc]; simp only [Tail.bits, List.append_assoc]
  obtain ⟨u, hu⟩ := starts_seq h
  rw [code32_bits (by decide)] at hu
  rw [← hb]
  obtain ⟨s0, hs0⟩ : ∃ s0, s0 = VS.new ⟨zeros (8 * lead) ++ (encSeq h ++ b), 0, stop, later⟩ := ⟨_, rfl⟩
  rw [← hs0]
  have e0 : VS.lift nextStartCode s0 = (.ok (), { s0 with br := ⟨encSeq h ++ b, 8 * lead, stop, later⟩ }) := by
    refine lift_ok ?_
    have h1 : s0.br = ⟨Tail.bits ⟨[], lead, bitsOf 8 0xB3 ++ (u ++ b)⟩, 0, stop, later⟩ := by
      rw [hs0, hu]; simp only [VS.new, Tail.bits, List.append_assoc, List.nil_append]
    rw [h1, nextStartCode_tail _ (by show ([] : List Bool).length = padding 0; decide)]
    simp only [Tail.after, hu, List.append_assoc, List.length_nil, Nat.zero_add]
  have hp8 : padding (8 * lead + (encSeq h).length) = padding (encSeq h).length := by unfold padding; omega
  obtain ⟨s1, e1, hs1, hsh, hfs⟩ : ∃ s1, sequenceHeader { s0 with br := ⟨encSeq h ++ b, 8 * lead, stop, later⟩ } = (.ok (), s1) ∧
      s1.br = ⟨prefix1 ++ (bitsOf 8 c ++ rest), 8 * lead + (encSeq h).length + pad.length + 8 * stuffing, stop, later⟩ ∧
      s1.sh.isSome = true ∧ s1.fs = s0.fs := by
    obtain ⟨x, e1, _⟩ := C36_partial (stop := stop) (later := later) (pos := 8 * lead) h hw ⟨pad, stuffing, bitsOf 8 c ++ rest⟩
      (by show pad.length = _; rw [hpad, hp8]) { s0 with br := ⟨encSeq h ++ b, 8 * lead, stop, later⟩ } (by rw [htb])
    exact ⟨_, e1, rfl, rfl, rfl⟩
  refine ⟨s1, ?_, ?_, ?_, hsh, by rw [hfs, hs0]; rfl, by rw [hfs, hs0]; rfl⟩
  · rw [next_loop (by rw [hs0]; rfl)]
    obtain ⟨k, rfl⟩ : ∃ j, k = j + 1 := ⟨k - 1, by omega⟩
    unfold nextLoop
    refine Go.bind_err ?_
    unfold step
    rw [if_neg (by rw [hs0]; simp [VS.new])]
    unfold start
    rw [Go.bind_ok e0, Go.bind_ok e1, Go.bind_ok (peek_at (c := c) (t := rest) hc hs1)]
    refine Go.bind_err ?_
    have : (0x100 + c == extensionStartCode) = false := by
      rw [beq_eq_false_iff_ne]; unfold extensionStartCode; omega
    rw [this]; rfl
  · rw [hs1, code32_bits hc, List.append_assoc]
  · rw [hs1]
    show (8 * lead + (encSeq h).length + pad.length + 8 * stuffing) % 8 = 0
    rw [hpad]; unfold padding; omega

/-- **C80** A stream of ISO 11172-2 is refused: after any number of zero bytes, any sequence header, padding and stuffing, if
the next start code `0x100 + c` is not the one of an extension, the first call of `Next` reports
`ErrUnsupportedVideoStream_ISO_IEC_11172_2`; it has read up to that start code. -/
theorem C80 (fuel : Nat) {k : Nat} (hk : 0 < k) {h : Seq} (hw : h.WF) {lead stuffing c : Nat} {pad rest : List Bool}
    (hpad : pad.length = padding (encSeq h).length) (hc : c < 256) (hc' : c ≠ 0xB5) :
    ∃ s', VS.next fuel k (VS.new ⟨zeros (8 * lead) ++ (encSeq h ++ (pad ++ (zeros (8 * stuffing) ++ (bitsOf 32 (0x100 + c) ++ rest)))),
        0, stop, later⟩) = (.err .unsupported11172, s') ∧ s'.br.bits = bitsOf 32 (0x100 + c) ++ rest ∧ s'.br.pos % 8 = 0 := by
  obtain ⟨s', h1, h2, h3, -⟩ := refused_state (stop := stop) (later := later) fuel hk hw (lead := lead) (stuffing := stuffing)
    (rest := rest) hpad hc hc'
  exact ⟨s', h1, by rw [h2], h3⟩

/-- **C81** The reader after a picture: whenever `Next` returns a picture, from any state of the decoder, either the reader
has not moved (the picture had been waiting) or it stands, byte-aligned, on a complete start code that is not one of a
slice.  So a picture is delivered only if a start code follows it in the input. -/
theorem C81 {fuel k : Nat} {s s' : VS} {f : Frame} (h : VS.next fuel k s = (.ok f, s')) :
    s'.br = s.br ∨
    ∃ c rest, c < 256 ∧ (c = 0 ∨ 0xB0 ≤ c) ∧ s'.br.bits = bitsOf 32 (0x100 + c) ++ rest ∧ s'.br.pos % 8 = 0 := by
  unfold VS.next at h
  split at h
  · cases h
    exact .inl rfl
  · exact .inr (nextLoop_sync k h)

/-! ### concrete cases -/

namespace ExStream

/-- a stream of one picture of one macroblock -/
def one : List Bool :=
  byte (encSeq (seqH 16)) ++ (byte (encSeqExt (seqE 1)) ++ (byte (encGOP gopH) ++ (byte (encPic ⟨0, .other 1, 0, []⟩) ++
    (byte (encPicExt picE) ++ (byte ((sl 0 mbI).head (envI 16 1) ++ (codeI 16 1 0 ⟨none, none⟩ blank).bits) ++
    bitsOf 32 0x1B7)))))

/-- the kinds of the outcomes: 0 a picture, 1 `io.EOF`, 2 `io.ErrUnexpectedEOF`, 3 the end of the sequence, 4 any other
error, 5 a panic, 6 a hang -/
def kinds (l : List (Res Frame)) : List Nat := l.map fun
  | .ok _ => 0
  | .err .eof => 1
  | .err .unexpectedEOF => 2
  | .err .eos => 3
  | .err _ => 4
  | .panic => 5
  | .hang => 6

/-- C78, C79: the whole stream gives a picture, the end of the sequence, and the end of the input; without its last byte
it gives the errors of the end of the input only. -/
example : kinds (outcomes 1000 2 4 (VS.new (.ofBits one))) = [0, 3, 1, 1] ∧
    kinds (outcomes 1000 2 4 (VS.new (.ofBits (one.take (one.length - 8))))) = [2, 1, 1, 1] := by decide +kernel

end ExStream
open ExStream

example : ∃ s', VS.next 0 1 (VS.new ⟨zeros (8 * 2) ++ (encSeq (seqH 16) ++ ([] ++ (zeros (8 * 1) ++
    (bitsOf 32 (0x100 + 0xB8) ++ [])))), 0, .eof, []⟩) = (.err .unsupported11172, s') := by
  obtain ⟨s', h, _⟩ := C80 (stop := .eof) (later := []) 0 (k := 1) (by decide) (h := seqH 16) (by decide) (lead := 2)
    (stuffing := 1) (c := 0xB8) (pad := []) (rest := []) (by decide) (by decide) (by decide)
  exact ⟨s', h⟩

/-- **C81** (consequence) The last picture of an input is lost if no start code follows it: the stream `one` without its
sequence end code contains the whole picture, but no call of `Next` returns it. -/
theorem C81_lost : 0 ∈ kinds (outcomes 1000 2 1 (VS.new (.ofBits one))) ∧
    ∀ n f, .ok f ∉ outcomes 1000 2 n (VS.new (.ofBits (one.take (one.length - 32)))) := by
  refine ⟨by decide +kernel, ?_⟩
  intro n f hf
  have h1 : kinds (outcomes 1000 2 1 (VS.new (.ofBits (one.take (one.length - 32))))) = [2] := by decide +kernel
  generalize hs : VS.new (.ofBits (one.take (one.length - 32))) = s at h1 hf
  have hp : s.br.stop = .eof ∧ s.br.later = [] := by rw [← hs]; exact ⟨rfl, rfl⟩
  clear hs
  cases n with
  | zero => cases hf
  | succ n =>
    unfold outcomes at h1 hf
    cases hx : VS.next 1000 2 s with
    | mk r s' =>
      rw [hx] at h1 hf
      cases r with
      | ok f => simp [kinds] at h1
      | panic => simp [kinds] at h1
      | hang => simp [kinds] at h1
      | err e =>
        have he : e = .unexpectedEOF := by
          cases e <;> simp [kinds] at h1
          rfl
        have := C79 (by decide) hp hx (.inr he) 1000 n
        simp only [this, List.mem_cons, List.mem_replicate] at hf
        rcases hf with hf | ⟨_, hf⟩ <;> cases hf

end Mpeg.Video
