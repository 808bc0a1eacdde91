/-
Property theorem C93 (the decoder after an unexpected start code) and counterexamples to C59, C66 and C70 on damaged input.
-/
import Verif.Video.CausProps
import Verif.Video.MbProps2
set_option linter.all false
namespace Mpeg.Video
open Spec
variable {stop : Err} {later : List (List Bool × Err)}

/-- the start codes with which the decoder goes on: picture, group of pictures, end of the sequence, sequence header -/
def goesOn : List Nat := [0x100, 0x1B8, 0x1B7, 0x1B3]

/-- one call -/
theorem next_stuck (fuel : Nat) {k : Nat} (hk : 0 < k) {s : VS} (hs : s.sh.isSome = true)
    (hw : s.fs.tryGet s.frameCounter = none) (hb : 32 ≤ s.br.bits.length)
    (hc : natOfBits (s.br.bits.take 32) ∉ goesOn) : VS.next fuel k s = (.err .unexpectedStartCode, s) := by
  obtain ⟨k, rfl⟩ : ∃ j, k = j + 1 := ⟨k - 1, by omega⟩
  unfold VS.next
  rw [hw]
  show nextLoop fuel (k + 1) s = _
  unfold nextLoop
  generalize hv : natOfBits (s.br.bits.take 32) = v at hc
  have hp : BR.peek 32 s.br = (.ok v, s.br) := by rw [BR.peek_ok hb, hv]
  have hpk : VS.lift (BR.peek 32) s = (.ok v, s) := by simp [VS.lift, hp]
  simp only [goesOn, List.mem_cons, List.not_mem_nil, or_false, not_or] at hc
  obtain ⟨c1, c2, c3, c4⟩ := hc
  refine Go.bind_err ?_
  unfold step
  rw [if_pos hs]
  unfold resume
  rw [Go.bind_ok hpk, if_neg (by show ¬ (v = 0x100 ∨ v = 0x1B8); omega), if_neg (by show ¬ v = 0x1B7; omega)]
  refine Go.bind_err ?_
  have hcc : codeCheck 32 sequenceHeaderStartCode s.br = (.ok false, s.br) := by
    unfold codeCheck
    rw [Go.bind_ok hp]
    have h2 : (v == sequenceHeaderStartCode) = false := by
      rw [beq_eq_false_iff_ne]; exact c4
    rw [h2]; rfl
  have hr : readSequenceHeader s.br = (.err .unexpectedStartCode, s.br) := by
    refine Go.bind_err ?_
    show (codeCheck 32 sequenceHeaderStartCode >>= _) s.br = _
    rw [Go.bind_ok hcc]
    rfl
  refine Go.bind_err ?_
  simp [VS.lift, hr]

/-- **C93.**  A decoder that has a sequence header and no picture waiting, and stands on 32 bits that are not the start
code of a picture, a group of pictures, a sequence header, or the end of the sequence, stays there: every call of `Next`
reports `ErrUnexpectedStartCode`, and nothing changes.  It does not look for a start code by itself. -/
theorem C93 (fuel : Nat) {k : Nat} (hk : 0 < k) {s : VS} (hs : s.sh.isSome = true)
    (hw : s.fs.tryGet s.frameCounter = none) (hb : 32 ≤ s.br.bits.length)
    (hc : natOfBits (s.br.bits.take 32) ∉ goesOn) (n : Nat) :
    outcomes fuel k n s = List.replicate n (.err .unexpectedStartCode) ∧
      VS.next fuel k s = (.err .unexpectedStartCode, s) := by
  have h1 := next_stuck fuel hk hs hw hb hc
  refine ⟨?_, h1⟩
  induction n with
  | zero => rfl
  | succ n ih =>
    unfold outcomes
    rw [h1]
    simp only [ih]
    rfl

namespace ExStream

/-- a stream like `one`, whose slice contains no macroblock but 48 zeros, and after it the whole stream `one` -/
def damaged : List Bool :=
  byte (encSeq (seqH 16)) ++ (byte (encSeqExt (seqE 1)) ++ (byte (encGOP gopH) ++ (byte (encPic ⟨0, .other 1, 0, []⟩) ++
    (byte (encPicExt picE) ++ (byte ((sl 0 mbI).head (envI 16 1) ++ zeros 48) ++ one)))))

/-- A stream like `one` with a sequence extension whose marker bit is wrong. -/
def badExt : List Bool :=
  byte (encSeq (seqH 16)) ++ ((encSeqExt { seqE 1 with marker := false }).take 64 ++ (byte (encPic ⟨0, .other 1, 0, []⟩) ++
    (byte (encPicExt picE) ++ (byte ((sl 0 mbI).head (envI 16 1) ++ (codeI 16 1 0 ⟨none, none⟩ blank).bits) ++
    bitsOf 32 0x1B7))))

/-- A stream like `one` whose only slice has the number 2. -/
def badRow : List Bool :=
  byte (encSeq (seqH 16)) ++ (byte (encSeqExt (seqE 1)) ++ (byte (encGOP gopH) ++ (byte (encPic ⟨0, .other 1, 0, []⟩) ++
    (byte (encPicExt picE) ++ (bitsOf 32 0x103 ++ bitsOf 32 0x1B7)))))

end ExStream
open ExStream

/-- **C93** (consequence)  Damage in one slice is final: after a damaged picture comes a whole sequence with a picture, but
no call of `Next` returns it. -/
theorem C93_damage : kinds (outcomes 1000 2 1 (VS.new (.ofBits one))) = [0] ∧
    ∀ n f, .ok f ∉ outcomes 1000 2 n (VS.new (.ofBits damaged)) := by
  refine ⟨by decide +kernel, ?_⟩
  intro n f hf
  have h1 : (match (VS.next 1000 2 (VS.new (.ofBits damaged))).1 with | .err _ => true | _ => false) = true := by decide +kernel
  have h2 : (VS.next 1000 2 (VS.new (.ofBits damaged))).2.sh.isSome = true := by decide +kernel
  have h3 : ((VS.next 1000 2 (VS.new (.ofBits damaged))).2.fs.tryGet
    (VS.next 1000 2 (VS.new (.ofBits damaged))).2.frameCounter).isNone = true := by decide +kernel
  have h4 : 32 ≤ (VS.next 1000 2 (VS.new (.ofBits damaged))).2.br.bits.length := by decide +kernel
  have h5 : natOfBits ((VS.next 1000 2 (VS.new (.ofBits damaged))).2.br.bits.take 32) ∉ goesOn := by decide +kernel
  generalize VS.new (.ofBits damaged) = s at h1 h2 h3 h4 h5 hf
  cases n with
  | zero => cases hf
  | succ n =>
    unfold outcomes at hf
    cases hx : VS.next 1000 2 s with
    | mk r s' =>
      rw [hx] at h1 h2 h3 h4 h5 hf
      cases r with
      | ok f => simp at h1
      | panic => simp at h1
      | hang => simp at h1
      | err e =>
        have := (C93 1000 (k := 2) (by decide) h2 (Option.isNone_iff_eq_none.mp h3) h4 h5 n).1
        simp only [this, List.mem_cons, List.mem_replicate] at hf
        rcases hf with hf | ⟨_, hf⟩ <;> cases hf

/-- C66 does not extend to `Next`: after a sequence extension that could not be read, the next picture makes `Next` panic
(the extension is nil). -/
theorem C66_nil_extension : kinds (outcomes 1000 2 2 (VS.new (.ofBits badExt))) = [4, 5] := by decide +kernel

/-! ### C70 -/

/-- **C70**, rows outside the picture: a slice that begins below the picture makes the decoder panic, for every picture
size and whatever follows. -/
theorem C70_row_panics (e : PicEnv) {s : MB} {W H row : Nat} (hg : Geometry s.frame W H) (hW : 0 < W) (hr : H < row)
    (hr' : row < 175) {rest : List Bool} {pos : Nat}
    (hb : s.br = ⟨bitsOf 32 (0x101 + row) ++ rest, pos, stop, later⟩) : (slice e s).1 = .panic := by
  have h1 : MB.lift (BR.read 32) s = (.ok (0x101 + row), { s with br := ⟨rest, pos + 32, stop, later⟩ }) := by
    simp only [MB.lift, hb, BR.read_bitsOf]
    rw [Nat.mod_eq_of_lt (by omega)]
  have hc : isSlice (0x101 + row) = true := by
    simp [isSlice, minSliceStartCode, maxSliceStartCode]; omega
  unfold slice
  rw [Go.bind_ok h1, hc, Go.check_true]
  have hlt : s.frame.y.len < 16 * ((0x101 + row) % 256 - 1) * s.frame.yStride := by
    rw [hg.yLen]
    rw [hg.yStride, show (0x101 + row) % 256 - 1 = row by omega, show 16 * W * (16 * H) = 16 * H * (16 * W) by ac_rfl]
    exact Nat.mul_lt_mul_of_pos_right (by omega) (by omega)
  refine (congrArg Prod.fst (Go.bind_ok (Go.pure_apply () _))).trans ?_
  refine (congrArg Prod.fst (Go.bind_ok (Go.get_apply _))).trans ?_
  rw [if_pos (Or.inl hlt)]
  rfl

/-- a picture of one macroblock, and a slice of its third row, through `Next` -/
theorem C70_row_false : kinds (outcomes 1000 2 1 (VS.new (.ofBits badRow))) = [5] := by decide +kernel

/-! ### C59 -/

private def dead {α : Type} : Table α → List Bool → Bool
  | _, [] => false
  | t, b :: cs => (t.next b).hit.isNone && ((cs.isEmpty && (t.next b).isEmpty) || (!(t.next b).isEmpty && dead (t.next b) cs))

private theorem huffLoop_dead {α : Type} : ∀ (cs : List Bool) (t : Table α) (f : Nat), cs.length ≤ f → dead t cs = true →
    ∀ (r : List Bool) (pos : Nat), huffLoop f t ⟨cs ++ r, pos, stop, later⟩ =
      (.err .missingHuffmanValue, ⟨r, pos + cs.length, stop, later⟩)
  | [], _, _, _, h => by simp [dead] at h
  | b :: cs, t, 0, hf, _ => by simp at hf
  | b :: cs, t, f + 1, hf, h => by
    intro r pos
    have h1 : BR.read1 (⟨b :: (cs ++ r), pos, stop, later⟩ : BR) = (.ok b, ⟨cs ++ r, pos + 1, stop, later⟩) := rfl
    simp only [dead, Bool.and_eq_true, Bool.or_eq_true, Option.isNone_iff_eq_none] at h
    obtain ⟨hn, hd⟩ := h
    show huffLoop (f + 1) t ⟨b :: (cs ++ r), pos, stop, later⟩ = _
    unfold huffLoop
    rw [Go.bind_ok h1, hn]
    rcases hd with ⟨hc, he⟩ | ⟨he, hd⟩
    · simp only [List.isEmpty_iff] at hc
      subst hc
      show (if (t.next b).isEmpty then Go.throw .missingHuffmanValue else huffLoop f (t.next b)) _ = _
      rw [if_pos he]
      rfl
    · have he' : ¬ (t.next b).isEmpty = true := by simpa using he
      show (if (t.next b).isEmpty then Go.throw .missingHuffmanValue else huffLoop f (t.next b)) _ = _
      rw [if_neg he', huffLoop_dead cs _ f (by simpa using hf) hd r (pos + 1)]
      simp only [List.length_cons]
      congr 2; omega

private theorem huff_zeros {rest : List Bool} {pos : Nat} : decodeCbp (⟨zeros 9 ++ rest, pos, stop, later⟩ : BR) =
    (.err .missingHuffmanValue, ⟨rest, pos + 9, stop, later⟩) :=
  huffLoop_dead (zeros 9) cbpTable _ (by decide +kernel) (by decide +kernel) rest pos

/-- **C59**, damaged patterns: if the bits are not a code of a pattern, no error is reported; the macroblock is left out
and the address of the next one is counted from the beginning of the row. -/
theorem C59_error_swallowed {e : PicEnv} (hc : e.se.chromaFormat = 1) (row a : Nat) (m : Mode) (hp : m.type.pattern = true)
    (s : MB) (rest : List Bool) (pos : Nat) (hb : s.br = ⟨zeros 9 ++ rest, pos, stop, later⟩) :
    mbPattern e row a m s = (.ok 0, { s with br := ⟨rest, pos + 9, stop, later⟩ }) := by
  have h1 : decodeCbp s.br = (.err .missingHuffmanValue, ⟨rest, pos + 9, stop, later⟩) := by
    rw [hb]; exact huff_zeros
  have h2 : codedBlockPattern e.se.chromaFormat s.br = (.err .missingHuffmanValue, ⟨rest, pos + 9, stop, later⟩) := by
    unfold codedBlockPattern
    rw [h1]
    simp [hc]
  unfold mbPattern
  rw [if_pos hp]
  unfold mbCoded
  simp [MB.lift, h2]

end Mpeg.Video
