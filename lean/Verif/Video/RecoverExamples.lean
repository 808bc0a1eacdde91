/-
C87 and C88: an entry point with a B picture before its I picture.
-/
import Verif.Video.RecoverFalse
namespace Mpeg.Video
open Spec
namespace ExStream

/-- backward prediction only -/
def mbC : MbData := ⟨1, ⟨false, false, true, false, false⟩, false, 0, fun _ _ => 0, 0, fun _ => []⟩
/-- a B picture that is displayed before `picI2` and predicted from it -/
def picC : Coded := ⟨none, none, ⟨0, .b 0 7 0 7, 0, []⟩, picE, [], [sl 1 mbC]⟩
def envC : PicEnv := (cx 32 1).env picC

def codeC (r : RefPics) (P : Image) :
    MbCode envC ((((sl 1 mbC).start envC P).skip envC r 1 none mbC.incr).begin envC mbC.type) mbC where
  k := 0
  v := 1
  addr := cw (1, 1)
  type := cw (2, 3)
  vecs := fun _ _ => cw (1, 1)
  pattern := []
  blocks := fun _ => []
  hIncr := rfl
  hAddr := by decide +kernel
  hType := by decide +kernel
  hDct := fun h => by cases h
  hQ := by decide
  hVec := fun s t hs ht h => by
    rcases (show s = 0 ∨ s = 1 by omega) with rfl | rfl <;> rcases (show t = 0 ∨ t = 1 by omega) with rfl | rfl <;>
      exact ⟨by unfold mvLegal; decide, by
          have := MvBits.mk (fCode := 1) (d := 0) (cw (1, 1)) (by decide +kernel)
          exact this⟩
  hPattern := fun h => by cases h
  hCoded := fun i hi h => by
    exfalso
    revert h
    have : ∀ i < 6, mbC.coded i = true → False := by decide +kernel
    exact this i hi
  hUncoded := fun i hi h => rfl
  hDc := fun i hi h => by cases h

theorem legalC (r : RefPics) (P : Image) : MbLegal envC r 1 2 1 none ((sl 1 mbC).start envC P) mbC where
  inPicture := by decide
  skipP := fun a h => by cases h
  skipB := fun a h => by cases h
  vectors := ⟨fun h => (by cases h), fun h => ⟨inside_x, inside_y⟩⟩
  frameDct := fun h => by cases h

theorem sliceC (r : RefPics) (P : Image) : SliceCode envC r 1 2 P (sl 1 mbC)
    ((sl 1 mbC).head envC ++ ((codeC r P).bits ++ [])) where
  row := by decide
  maxRow := by decide
  q := (by decide : 5 < 32)
  info := fun i h => by cases h
  nonempty := by simp [sl]
  body := ⟨_, .cons (legalC r P) (codeC r P) .nil, rfl⟩

def closedB : List Bool :=
  byte (encPic ⟨0, .b 0 7 0 7, 0, []⟩) ++ (byte (encPicExt picE) ++ ([] ++
    (byte ((sl 1 mbC).head envC ++ ((codeC ⟨none, none⟩ blank).bits ++ [])))))

/-- A closed group of pictures: the I picture and the B picture displayed before it. -/
theorem closed_code {pos : Nat} (hp : pos % 8 = 0) :
    ∃ imgs, GroupsCode 1 2 0 none none pos [⟨picI2, [picC]⟩] (secondI ++ closedB) imgs ∧ imgs.length = 2 := by
  have okI : picI2.OK 1 2 := okPic2 _ (by decide) (.inr rfl) (fun g h => by cases h; decide) rfl rfl (by simp [picI2])
  have okB : picC.OK 1 2 := okPic2 _ (by decide) (.inl rfl) (fun g h => by cases h) rfl rfl (by simp [picC])
  have h1 : Parts pos (picI2.parts (cx 32 1) ⟨none, none⟩ 1 2) secondI := by
    have := head_parts hp (seqH 32) (seqE 1) gopH ⟨1, .other 1, 0, []⟩ picE
      (P := fun pos b => SlicesCode envI2 ⟨none, none⟩ 1 2 pos blank [sl 0 mbI, sl 1 mbI] b)
      (b := byte ((sl 0 mbI).head envI2 ++ ((codeI2 0 ⟨none, none⟩ blank).bits ++ [])) ++
        byte ((sl 1 mbI).head envI2 ++ ((codeI2 1 ⟨none, none⟩ blank).bits ++ []))) (fun p hp => ?_)
    · simp only [List.append_nil] at this
      simp only [secondI, List.append_nil]
      exact this
    · exact byte_slices hp (sliceI2 0 2 (by decide) (by decide) ⟨none, none⟩ blank)
        (byte_slice (by have := byte_len ((sl 0 mbI).head envI2 ++ ((codeI2 0 ⟨none, none⟩ blank).bits ++ [])); omega)
          (sliceI2 1 2 (by decide) (by decide) ⟨none, none⟩ ((sl 0 mbI).image envI2 ⟨none, none⟩ blank)))
  obtain ⟨i1, hi1⟩ : ∃ i, i = picI2.image (cx 32 1) ⟨none, none⟩ := ⟨_, rfl⟩
  have hl : secondI.length % 8 = 0 := by decide +kernel
  have h2 : Parts (pos + secondI.length) (picC.parts (cx 32 1) ⟨none, some i1⟩ 1 2) closedB := by
    have := head_parts2 (show (pos + secondI.length) % 8 = 0 by omega) ⟨0, .b 0 7 0 7, 0, []⟩ picE
      (P := fun pos b => SlicesCode envC ⟨none, some i1⟩ 1 2 pos blank [sl 1 mbC] b)
      (b := byte ((sl 1 mbC).head envC ++ ((codeC ⟨none, none⟩ blank).bits ++ []))) (fun p hp =>
        byte_slice hp (sliceC ⟨none, some i1⟩ blank))
    simp only [List.append_nil] at this
    simp only [closedB, List.append_nil]
    exact this
  have g2 : BsCode 1 2 none i1 0 (cx 32 1) (pos + secondI.length) [picC] (closedB ++ [])
      [picC.image (cx 32 1) ⟨none, some i1⟩] (cx 32 1) := .cons okB rfl rfl rfl rfl rfl h2 .nil
  rw [hi1] at g2
  have := GroupsCode.cons (base := 0) (base0 := 0) (σ := none) (g := ⟨picI2, [picC]⟩) okI (.inl rfl) rfl rfl
    rfl h1 g2 .nil
  simp only [List.append_nil] at this
  exact ⟨_, this, rfl⟩

theorem closed_entry : Entry [⟨picI2, [picC]⟩] := by
  refine ⟨_, _, rfl, by simp [picI2], by simp [picI2], rfl, ?_⟩
  intro c hc
  rw [List.mem_singleton] at hc
  subst hc
  rintro (h | ⟨s, hs, m, hm, h⟩)
  · exact absurd h (by decide)
  · rw [show picC.slices = [sl 1 mbC] from rfl, List.mem_singleton] at hs
    subst hs
    rw [show (sl 1 mbC).mbs = [mbC] from rfl, List.mem_singleton] at hm
    subst hm
    cases h

/-- A decoder with references of another size (48 x 16 samples, the picture has 16 x 32) and a picture waiting: it
returns the waiting picture and then the two pictures of the closed group.  With bidirectional prediction it panics
(`C87_leading_false`). -/
example : ∃ w frames t, nexts 4000 2 (w + 2)
    (dirty ⟨secondI ++ closedB ++ (bitsOf 32 0x1B7 ++ []), 40, .eof, []⟩) = (.ok frames, t) ∧ w ≤ 2 ∧
    (VS.next 4000 2 t).1 = .err .eos := by
  obtain ⟨imgs, h, h2⟩ := closed_code (pos := 40) (by decide)
  obtain ⟨w, frames, t, r1, r2, r3, r4, r5, r6, r7, r8⟩ := C87_partial (lead := 0) (stop := .eof) (later := []) (rest := []) (k := 2)
    (Nat.le_refl _) closed_entry h (show _ < 4000 by decide +kernel) (by decide) (by decide)
    (dirty ⟨secondI ++ closedB ++ (bitsOf 32 0x1B7 ++ []), 40, .eof, []⟩) (fun _ => rfl) rfl
  exact ⟨w.length, w ++ frames, t, by rw [h2] at r1; exact r1, r2, r7⟩

/-- The stream of `C87_leading_false` with backward prediction: pictures of one size, then of another. -/
example : ∃ frames t, Plays 4000 2 (VS.new ⟨firstBits ++ (bitsOf 32 0x1B7 ++ (secondI ++ closedB ++ (bitsOf 32 0x1B7 ++ []))) ++ [],
    0, .eof, []⟩) frames t ∧ frames.map List.length = [1, 2] := by
  obtain ⟨i1, h1, l1⟩ := first_code
  obtain ⟨i2, h2, l2⟩ := closed_code (pos := 0 + firstBits.length + 32) (by decide +kernel)
  have e1 : Entry [⟨picI 16 1 [sl 0 mbI], []⟩] := ⟨_, _, rfl, by simp [picI], by simp [picI], rfl, fun _ h => (by cases h)⟩
  obtain ⟨frames, t, r1, r2, _⟩ := C88_partial (rest := []) (stop := .eof) (later := []) (k := 2) (Nat.le_refl _)
    (.cons e1 h1 (.cons closed_entry h2 .nil)) (show _ < 4000 by decide +kernel) (by decide) (VS.new ⟨_ ++ [], 0, .eof, []⟩) rfl rfl
  refine ⟨frames, t, r1, ?_⟩
  cases r2 with
  | cons a _ m =>
    cases m with
    | cons b _ m =>
      cases m
      simp only [List.map_cons, List.map_nil, a, b, l1, l2]

end ExStream
end Mpeg.Video
