/-
C77: `Next` always returns, except on one kind of stream.
-/
import Verif.Video.TermLemmas
import Verif.Video.StreamProps
namespace Mpeg.Video
open Spec

/-- **C77** `Next` returns (a picture, an error or a panic) on every input and from every state of the decoder,
unless some part of the input that is left is a group of pictures header followed, after user data at most, by an
extension.  `fuel` and `k` bound the rounds of the loops over extension and user data and over pictures: more rounds
than bits left are never needed; the loops over macroblocks, slices, coefficients, escape codes, zero bytes, extra
information and user data need no bound.

Partial: on those other streams the decoder may loop forever, see `C77_never` and `C77_false`. -/
theorem C77_partial (s : VS) (fuel k : Nat) (hf : s.br.size + 2 ≤ fuel) (hk : s.br.size < k)
    (h : ∀ g ∈ s.br.bits :: s.br.later.map (·.1), ∀ j, ¬ GroupThenExtension (g.drop j)) :
    (VS.next fuel k s).1 ≠ .hang := by
  intro hh
  obtain ⟨g, hg, j, ht⟩ := next_hang fuel k s hf hk hh
  exact h g hg j ht

/-- an I picture in a group of pictures, and the end of the sequence -/
example : ∀ g ∈ [ExStream.tall ++ bitsOf 32 0x1B7], ∀ j, ¬ GroupThenExtension (g.drop j) := by
  intro g hg j
  rw [List.mem_singleton] at hg
  subst hg
  exact no_trap (by decide +kernel) j

/-- **C77**, progress: `Next` returns a picture only if it was waiting in the frame store or input was consumed for
it, so no input gives pictures without end. -/
theorem C77_progress (s s' : VS) (fuel k : Nat) (f : Frame) (hw : s.fs.tryGet s.frameCounter = none)
    (h : VS.next fuel k s = (.ok f, s')) : s'.br.size < s.br.size := by
  unfold VS.next at h
  rw [hw] at h
  exact nextLoop_eats fuel k s f s' h

/-- The streams excluded in `C77_partial` are no artefact of the proof: a decoder that comes to such a group of
pictures header never returns from `Next`, whatever the number of rounds. -/
theorem C77_never (g : GOP) (hg : g.WF) (pad : List Bool) (n : Nat) (r : List Bool) (hr : UserThenExtension r)
    (s : VS) (pos : Nat) (stop : Err) (later : List (List Bool × Err)) (hp : pad.length = padding (pos + 59))
    (hs : s.br = ⟨encGOP g ++ (pad ++ (zeros (8 * n) ++ r)), pos, stop, later⟩)
    (hsh : s.sh.isSome = true) (hw : s.fs.tryGet s.frameCounter = none) (fuel k : Nat) :
    (VS.next fuel k s).1 = .hang := by
  unfold VS.next
  rw [hw]
  obtain ⟨hpk, hmore⟩ := moreFrames_never g hg pad n r hr s pos stop later hp hs fuel
  refine nextLoop_never ?_ k
  unfold step resume
  rw [if_pos hsh, Go.bind_ok hpk, if_pos (.inr rfl)]
  exact hmore

/-- user data and an extension after a group of pictures header -/
example : UserThenExtension (encUser [1, 2, 0] ++ (bitsOf 32 0x1B5 ++ bitsOf 8 0x10)) :=
  .user _ _ (by decide) (by decide +kernel) (.ext _)

/-- a sequence header, its extension, a group of pictures header and an extension -/
def endless : List Bool :=
  ExStream.byte (encSeq (ExStream.seqH 16)) ++ (ExStream.byte (encSeqExt (ExStream.seqE 1)) ++
    (ExStream.byte (encGOP ExStream.gopH) ++ (bitsOf 32 0x1B5 ++ bitsOf 8 0x10)))

/-- the first headers read by `Next` -/
def headers : Go VS Unit := do
  VS.lift nextStartCode
  sequenceHeader
  let v ← VS.lift (BR.peek 32)
  Go.check (v == extensionStartCode) .unsupported11172
  sequenceExtension

/-- **C77** is false: on a stream of a few header bytes the first call of `Next` never returns. -/
theorem C77_false : ∀ fuel k, (VS.next fuel k (VS.new (BR.ofBits endless))).1 = .hang := by
  intro fuel k
  have test : (match headers (VS.new (BR.ofBits endless)) with
      | (.ok _, s) => s.sh.isSome && decide (s.br.bits = endless.drop 176) && decide (s.br.pos = 176)
      | _ => false) = true := by decide +kernel
  have hq : ∀ (fuel : Nat), start fuel = (headers >>= fun _ => continueFrames fuel) := by
    intro fuel
    unfold start headers
    simp only [bind_assoc]
  generalize hx : headers (VS.new (BR.ofBits endless)) = x at test
  obtain ⟨x1, s⟩ := x
  cases x1 with
  | ok u =>
    simp only [Bool.and_eq_true, decide_eq_true_eq] at test
    obtain ⟨⟨hsh, hb⟩, hpos⟩ := test
    have hs : s.br = ⟨encGOP ExStream.gopH ++ (zeros 5 ++ (zeros (8 * 0) ++ (bitsOf 32 0x1B5 ++ bitsOf 8 0x10))), 176,
        s.br.stop, s.br.later⟩ := by
      rw [show encGOP ExStream.gopH ++ (zeros 5 ++ (zeros (8 * 0) ++ (bitsOf 32 0x1B5 ++ bitsOf 8 0x10))) =
        endless.drop 176 by decide +kernel, ← hb, ← hpos]
    obtain ⟨hpk, hmore⟩ := moreFrames_never ExStream.gopH (by decide) (zeros 5) 0 _ (.ext (bitsOf 8 0x10)) s 176 s.br.stop
      s.br.later (by decide) hs fuel
    have hcont : (continueFrames fuel s).1 = .hang := by
      unfold continueFrames
      cases fuel with
      | zero => rfl
      | succ fuel =>
        have he : extensionAndUserData 0 (fuel + 1) s = (.ok (), s) := by
          unfold extensionAndUserData
          rw [Go.bind_ok hpk]
          rfl
        rw [Go.bind_ok he]
        exact hmore
    have he : ∀ (b : BR), headers (VS.new b) = (.ok u, s) → (VS.next fuel k (VS.new b)).1 = .hang := by
      intro b hb
      refine nextLoop_never ?_ k
      show (start fuel _).1 = _
      rw [hq, Go.bind_ok hb]
      exact hcont
    exact he _ hx
  | _ => cases test

end Mpeg.Video
