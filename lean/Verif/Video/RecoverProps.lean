/-
C87: entry points.  C88: several sequences in one stream.
-/
import Verif.Video.RecoverLemmas
import Verif.Video.StreamProps
import Verif.Video.HeaderProps
namespace Mpeg.Video
open Spec

variable {stop : Err} {later : List (List Bool × Err)}

/-- **C87** (partial): entry points.  Whatever has happened to the decoder before (`s` is any state: errors, panics, the end of a
sequence, pictures of another size, left-over references), when it stands at an entry point, the calls of `Next` first
return the at most two finished pictures `w` that were still waiting to be displayed, then exactly the pictures of the
stream from the entry point on, in display order, and then the end of the sequence.

`base`, `σ` and `prev` are what the part of the stream before the entry point has left: the pictures are the same as those
in a decoding from the beginning.  A decoder without sequence header may have `lead` zero bytes to skip.

Partial: the streams of C75; B pictures between the entry point and its I picture use backward prediction only (otherwise
the claim is false: `C87_leading_false`). -/
theorem C87_partial {W H fuel k base pos lead : Nat} {σ : Option Ctx} {prev : Option Image} {gs : List CGroup}
    {bits rest : List Bool} {imgs : List Image} (hk : 2 ≤ k) (hent : Entry gs)
    (h : GroupsCode W H base σ prev pos gs bits imgs) (hf : bits.length < fuel) (ha : pos % 8 = 0) (hp : 8 * lead ≤ pos)
    (s : VS) (hl : s.sh ≠ none → lead = 0)
    (hb : s.br = ⟨zeros (8 * lead) ++ (bits ++ (bitsOf 32 0x1B7 ++ rest)), pos - 8 * lead, stop, later⟩) :
    ∃ w frames t, nexts fuel k (w.length + imgs.length) s = (.ok (w ++ frames), t) ∧
      w.length ≤ 2 ∧ (∀ f ∈ w, ∃ r, (s.fs.f0 = some r ∨ s.fs.f1 = some r) ∧ r.frame = f) ∧
      (s.fs.tryGet s.frameCounter = none → w = []) ∧
      frames.length = imgs.length ∧ (∀ i (h1 : i < frames.length) (h2 : i < imgs.length), Shows W H frames[i] imgs[i]) ∧
      (VS.next fuel k t).1 = .err .eos ∧ (VS.next fuel k t).2.br.bits = rest := by
  obtain ⟨w, s', w1, w2, ⟨c, w3⟩, w4, w5, w6⟩ := waiting fuel k s
  have hb' : s'.br = ⟨zeros (8 * lead) ++ (bits ++ (prefix1 ++ (bitsOf 8 0xB7 ++ rest))), pos - 8 * lead, stop, later⟩ := by
    rw [w3, ← code_B7]; exact hb
  obtain ⟨frames, t, f1, f2, base', z, pf', P, f3, f4, _⟩ := entry_next (n := 0xB7) hk (by decide) (by decide) hent h w4
    (by rw [w3]; exact hl) ha hp hf hb'
  obtain ⟨e1, _⟩ := end_next (fuel := fuel) (k := k) (by omega) f3 f4
  exact ⟨w, frames, t, nexts_append w2 f1, w1, w6, w5, f2.length, f2.get, by rw [e1], by rw [e1]⟩

/-- **C87**, with `AlignTo` (partial): from any state of the decoder, `AlignTo` with the sequence header code finds the next entry point
behind any amount of other data, and the calls of `Next` continue from there. -/
theorem C87_seek_partial {W H fuel k base : Nat} {σ : Option Ctx} {prev : Option Image} {gs : List CGroup}
    {skip bits rest : List Bool} {imgs : List Image} (hk : 2 ≤ k) (hent : Entry gs) (s : VS)
    (hb : fromBoundary s.br = skip ++ (bits ++ (bitsOf 32 0x1B7 ++ rest))) (h8 : skip.length % 8 = 0)
    (hno : ∀ j, 8 * j < skip.length → ((fromBoundary s.br).drop (8 * j)).take 32 ≠ bitsOf 32 0x1B3)
    (h : GroupsCode W H base σ prev (s.br.pos + padding s.br.pos + skip.length) gs bits imgs) (hf : bits.length < fuel) :
    ∃ s1, VS.lift (alignTo 0x1B3) s = (.ok (), s1) ∧ ∃ w frames t, nexts fuel k (w.length + imgs.length) s1 = (.ok (w ++ frames), t) ∧
      w.length ≤ 2 ∧ (∀ f ∈ w, ∃ r, (s.fs.f0 = some r ∨ s.fs.f1 = some r) ∧ r.frame = f) ∧
      (s.fs.tryGet s.frameCounter = none → w = []) ∧
      frames.length = imgs.length ∧ (∀ i (h1 : i < frames.length) (h2 : i < imgs.length), Shows W H frames[i] imgs[i]) ∧
      (VS.next fuel k t).1 = .err .eos ∧ (VS.next fuel k t).2.br.bits = rest := by
  obtain ⟨u, hu⟩ := entry_starts hent h
  have hpad : (s.br.pos + padding s.br.pos) % 8 = 0 := by unfold padding; omega
  obtain ⟨q, hq⟩ : ∃ q, skip.length = 8 * q := ⟨skip.length / 8, by omega⟩
  have hat : ((fromBoundary s.br).drop (8 * q)).take 32 = bitsOf 32 0x1B3 := by
    rw [hb, List.drop_left' hq, hu, List.append_assoc, List.take_left' (length_bitsOf ..)]
  have hal : alignTo 0x1B3 s.br = (.ok (), ⟨bits ++ (bitsOf 32 0x1B7 ++ rest), s.br.pos + padding s.br.pos + 8 * q, s.br.stop,
      s.br.later⟩) := by
    rcases C35 0x1B3 (by decide) s.br with ⟨m, m1, m2, m3⟩ | ⟨m1, _⟩
    · have hmq : m = q := by
        rcases Nat.lt_trichotomy m q with hlt | heq | hgt
        · exact absurd m2 (hno m (by omega))
        · exact heq
        · exact absurd hat (m3 q hgt)
      subst hmq
      rw [m1, hb, List.drop_left' hq]
    · exact absurd hat (m1 q)
  obtain ⟨s1, hs1⟩ : ∃ s1 : VS, s1 = { s with br := ⟨bits ++ (bitsOf 32 0x1B7 ++ rest), s.br.pos + padding s.br.pos + 8 * q,
      s.br.stop, s.br.later⟩ } := ⟨_, rfl⟩
  refine ⟨s1, by unfold VS.lift; rw [hal, hs1], ?_⟩
  obtain ⟨w, frames, t, r1, r2, r3, r4, r5⟩ := C87_partial (stop := s.br.stop) (later := s.br.later) (lead := 0) (rest := rest) hk hent h
    hf (by omega) (by omega) s1 (fun _ => rfl) (by rw [hs1, hq]; rfl)
  exact ⟨w, frames, t, r1, r2, by rw [hs1] at r3; exact r3, by rw [hs1] at r4; exact r4, r5⟩

/-! ### C88 -/

/-- Calls of `Next`: the pictures of each list, one per call, and after each list the end of a sequence. -/
inductive Plays (fuel k : Nat) : VS → List (List Frame) → VS → Prop
  | nil {s : VS} : Plays fuel k s [] s
  | cons {s t u v : VS} {fs : List Frame} {rest : List (List Frame)} : nexts fuel k fs.length s = (.ok fs, t) →
      VS.next fuel k t = (.err .eos, u) → Plays fuel k u rest v → Plays fuel k s (fs :: rest) v

/-- The lists of frames show the lists of pictures, each with its own size. -/
inductive AllSequences : List (List Frame) → List (Nat × Nat × List Image) → Prop
  | nil : AllSequences [] []
  | cons {W H : Nat} {fs : List Frame} {imgs : List Image} {a : List (List Frame)} {b : List (Nat × Nat × List Image)} :
      fs.length = imgs.length → (∀ i (h1 : i < fs.length) (h2 : i < imgs.length), Shows W H fs[i] imgs[i]) →
      AllSequences a b → AllSequences (fs :: a) ((W, H, imgs) :: b)

/-- **C88** (partial): a stream may consist of several sequences, each with its own headers and picture size.  Consecutive
calls of `Next` return the pictures of the first sequence in display order, then the end of stream error, then the pictures of
the second sequence, and so on; everything is consumed, and a decoder that has been in use before (`s` is any state with
no waiting picture) does the same as a new one.

Partial: the streams of C75; every sequence begins with an entry point. -/
theorem C88_partial {fuel k pos : Nat} {bits rest : List Bool} {seqs : List (Nat × Nat × List Image)} (hk : 2 ≤ k)
    (h : Sequences pos bits seqs) (hf : bits.length < fuel) (ha : pos % 8 = 0) :
    ∀ s : VS, s.fs.tryGet s.frameCounter = none → s.br = ⟨bits ++ rest, pos, stop, later⟩ →
      ∃ frames t, Plays fuel k s frames t ∧ AllSequences frames seqs ∧ t.br = ⟨rest, pos + bits.length, stop, later⟩ := by
  induction h with
  | nil =>
    intro s _ hb
    exact ⟨[], s, .nil, .nil, by rw [hb]; rfl⟩
  | @cons pos W H gs bits more imgs rest' hent hg _ ih =>
    intro s hw hb
    simp only [List.length_append, length_bitsOf] at hf
    have hb' : s.br = ⟨zeros (8 * 0) ++ (bits ++ (prefix1 ++ (bitsOf 8 0xB7 ++ (more ++ rest)))), pos - 8 * 0, stop, later⟩ := by
      rw [hb, ← code_B7]; simp only [List.append_assoc]; rfl
    obtain ⟨frames, t, f1, f2, base', z, pf', P, f3, f4, f5⟩ := entry_next (n := 0xB7) (fuel := fuel) hk (by decide) (by decide) hent hg
      hw (fun _ => rfl) ha (by omega) (by omega) hb'
    obtain ⟨e1, e2⟩ := end_next (fuel := fuel) (k := k) (by omega) f3 f4
    obtain ⟨more', t', p1, p2, p3⟩ := ih (by omega) (by omega)
      { t with br := ⟨more ++ rest, pos + bits.length + 32, stop, later⟩ } e2 rfl
    refine ⟨frames :: more', t', .cons (by rw [f2.length]; exact f1) e1 p1, .cons f2.length f2.get p2, ?_⟩
    rw [p3]
    simp only [List.length_append, length_bitsOf, BR.mk.injEq, true_and, and_true]
    omega

/-! ### examples -/

namespace ExStream

theorem entry : Entry [⟨picI 16 1 [sl 0 mbI], []⟩, ⟨picP, [picB]⟩] := ⟨_, _, rfl, by simp [picI], by simp [picI], rfl, fun _ h => (by cases h)⟩

/-- A decoder in the middle of another stream, with pictures of 48 x 16 samples, one of which is waiting. -/
def dirty (br : BR) : VS :=
  { VS.new br with
    sh := some Ex.sh
    se := some Ex.se
    ph := some Ex.ph
    pce := some Ex.pce
    fs := ⟨some ⟨Ex.past, 7, false⟩, some ⟨Ex.past, 2, true⟩, some Ex.past, some Ex.past⟩
    frameCounter := 7 }

/-- It returns the waiting picture and then the three pictures of the stream of C75. -/
example : ∃ bits w frames t, nexts (bits.length + 1) 2 (w + 3) (dirty ⟨bits ++ (bitsOf 32 0x1B7 ++ []), 40, .eof, []⟩) =
    (.ok frames, t) ∧ w ≤ 2 ∧ (VS.next (bits.length + 1) 2 t).1 = .err .eos := by
  obtain ⟨bits, imgs, h, h3⟩ := stream_at 40
  obtain ⟨w, frames, t, r1, r2, r3, r4, r5, r6, r7, r8⟩ := C87_partial (lead := 0) (stop := .eof) (later := []) (rest := []) (k := 2)
    (Nat.le_refl _) entry h (Nat.lt_succ_self _) (by decide) (by decide)
    (dirty ⟨bits ++ (bitsOf 32 0x1B7 ++ []), 40, .eof, []⟩) (fun _ => rfl) rfl
  exact ⟨bits, w.length, w ++ frames, t, by rw [← h3]; exact r1, r2, r7⟩

/-- Seeking: five bytes that are no stream, in a decoder that stands inside a byte. -/
example : ∃ bits s1 w frames t, VS.lift (alignTo 0x1B3) (dirty ⟨[true, false] ++ (bitsOf 40 0x1B2 ++ (bits ++ (bitsOf 32 0x1B7 ++ []))),
      14, .eof, []⟩) = (.ok (), s1) ∧ nexts (bits.length + 1) 2 (w + 3) s1 = (.ok frames, t) := by
  obtain ⟨bits, imgs, h, h3⟩ := stream_at 56
  obtain ⟨u, hu⟩ := entry_starts entry h
  have hfb : fromBoundary (dirty ⟨[true, false] ++ (bitsOf 40 0x1B2 ++ (bits ++ (bitsOf 32 0x1B7 ++ []))), 14, .eof, []⟩).br =
      bitsOf 40 0x1B2 ++ (bits ++ (bitsOf 32 0x1B7 ++ [])) := by
    generalize bitsOf 40 0x1B2 ++ (bits ++ (bitsOf 32 0x1B7 ++ [])) = x
    show List.drop (padding 14) ([true, false] ++ x) = x
    rw [show padding 14 = 2 by decide]
    rfl
  obtain ⟨s1, r0, w, frames, t, r1, _⟩ := C87_seek_partial (rest := []) (k := 2) (skip := bitsOf 40 0x1B2) (Nat.le_refl _) entry
    (dirty ⟨[true, false] ++ (bitsOf 40 0x1B2 ++ (bits ++ (bitsOf 32 0x1B7 ++ []))), 14, .eof, []⟩) hfb (by decide)
    (fun j hj => by
      rw [hfb, hu]
      have hj5 : j < 5 := by rw [length_bitsOf] at hj; omega
      have : ∀ x : List Bool, ∀ j < 5, ((bitsOf 40 0x1B2 ++ (bitsOf 32 0x1B3 ++ x)).drop (8 * j)).take 32 ≠ bitsOf 32 0x1B3 := by
        intro x j hj
        rw [← List.append_assoc, List.drop_append_of_le_length (by simp [length_bitsOf]; omega),
          List.take_append_of_le_length (by simp [length_bitsOf]; omega)]
        revert j
        decide +kernel
      simpa only [List.append_assoc] using this _ j hj5)
    (by rw [length_bitsOf, show (dirty ⟨[true, false] ++ (bitsOf 40 0x1B2 ++ (bits ++ (bitsOf 32 0x1B7 ++ []))), 14, .eof, []⟩).br.pos = 14 from rfl,
      show 14 + padding 14 + 40 = 56 by decide]; exact h) (Nat.lt_succ_self _)
  exact ⟨bits, s1, w.length, w ++ frames, t, r0, by rw [← h3]; exact r1⟩

/-- Two sequences in one stream. -/
example : ∃ bits frames t, Plays (bits.length + 1) 2 (VS.new ⟨bits ++ [], 0, .eof, []⟩) frames t ∧
    frames.map List.length = [3, 3] := by
  obtain ⟨b1, i1, h1, l1⟩ := stream_at 0
  obtain ⟨b2, i2, h2, l2⟩ := stream_at (0 + b1.length + 32)
  obtain ⟨frames, t, r1, r2, _⟩ := C88_partial (rest := []) (stop := .eof) (later := []) (k := 2) (Nat.le_refl _)
    (.cons entry h1 (.cons entry h2 .nil)) (Nat.lt_succ_self _) (by decide) (VS.new ⟨_ ++ [], 0, .eof, []⟩) rfl rfl
  refine ⟨_, frames, t, r1, ?_⟩
  cases r2 with
  | cons a _ m =>
    cases m with
    | cons b _ m =>
      cases m
      simp only [List.map_cons, List.map_nil, a, b, l1, l2]

end ExStream

end Mpeg.Video
