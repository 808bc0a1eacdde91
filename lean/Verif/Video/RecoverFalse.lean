/-
C87 is false for entry points with B pictures that refer to the past.
-/
import Verif.Video.RecoverProps
namespace Mpeg.Video
open Spec
namespace ExStream

/-- an I picture of 16 x 32 samples that is displayed second -/
def picI2 : Coded := ⟨some ⟨seqH 32, seqE 1, []⟩, some ⟨gopH, []⟩, ⟨1, .other 1, 0, []⟩, picE, [], [sl 0 mbI, sl 1 mbI]⟩
/-- a B picture that is displayed before it, with one slice in the second row -/
def picB2 : Coded := ⟨none, none, ⟨0, .b 0 7 0 7, 0, []⟩, picE, [], [sl 1 mbB]⟩
def envB2 : PicEnv := (cx 32 1).env picB2

def envI2 : PicEnv := (cx 32 1).env picI2

def codeI2 (row : Nat) (r : RefPics) (P : Image) :
    MbCode envI2 ((((sl row mbI).start envI2 P).skip envI2 r row none mbI.incr).begin envI2 mbI.type)
      mbI where
  k := 0
  v := 1
  addr := cw (1, 1)
  type := cw (1, 1)
  vecs := fun _ _ => []
  pattern := []
  blocks := Ex.blocks2
  hIncr := rfl
  hAddr := by decide +kernel
  hType := by
    have : envI2.ph.pictureCodingType = 1 := rfl
    rw [this]; decide +kernel
  hDct := fun h => by cases h
  hQ := by decide
  hVec := fun s t hs ht h => by
    rcases (show s = 0 ∨ s = 1 by omega) with rfl | rfl <;> cases h
  hPattern := fun h => by cases h
  hCoded := fun i hi _ => by
    rcases (show i = 0 ∨ i = 1 ∨ i = 2 ∨ i = 3 ∨ i = 4 ∨ i = 5 by omega) with rfl | rfl | rfl | rfl | rfl | rfl
    · exact BlockCode.intra (format := 0) (pred := 128) 5 (cw (5, 3)) [] [] [true, false] rfl (by decide) (by decide +kernel) (.nil _)
        (by decide +kernel) (by decide)
    · exact BlockCode.intra (format := 0) (pred := 133) 0 (cw (4, 3)) [] [] [true, false] rfl (by decide) (by decide +kernel) (.nil _)
        (by decide +kernel) (by decide)
    · exact BlockCode.intra (format := 0) (pred := 133) 0 (cw (4, 3)) [] [] [true, false] rfl (by decide) (by decide +kernel) (.nil _)
        (by decide +kernel) (by decide)
    · exact BlockCode.intra (format := 0) (pred := 133) 0 (cw (4, 3)) [] [] [true, false] rfl (by decide) (by decide +kernel) (.nil _)
        (by decide +kernel) (by decide)
    · exact BlockCode.intra (format := 0) (cc := 1) (pred := 128) (-3) (cw (2, 2)) [] [] [true, false] rfl (by decide) (by decide +kernel)
        (.nil _) (by decide +kernel) (by decide)
    · exact BlockCode.intra (format := 0) (pred := 128) 0 (cw (0, 2)) [] [] [true, false] rfl (by decide) (by decide +kernel) (.nil _)
        (by decide +kernel) (by decide)
  hUncoded := fun i hi h => by cases h
  hDc := fun i hi _ => by
    have : ∀ i < 6, -2 ^ 28 ≤ (mbI.qf i).getD 0 0 ∧ (mbI.qf i).getD 0 0 < 2 ^ 28 := by decide +kernel
    exact this i hi

theorem sliceI2 (row H : Nat) (hr : row < H) (hr' : row < 175) (r : RefPics) (P : Image) :
    SliceCode envI2 r 1 H P (sl row mbI) ((sl row mbI).head envI2 ++ ((codeI2 row r P).bits ++ [])) where
  row := hr
  maxRow := hr'
  q := (by decide : 5 < 32)
  info := fun i h => by cases h
  nonempty := by simp [sl]
  body := ⟨_, .cons ⟨by decide, fun a h => (by cases h), fun a h => (by cases h),
    ⟨fun h => (by cases h), fun h => (by cases h)⟩, fun h => (by cases h)⟩ (codeI2 row r P) .nil, rfl⟩

def codeB2 (r : RefPics) (P : Image) :
    MbCode envB2 ((((sl 1 mbB).start envB2 P).skip envB2 r 1 none mbB.incr).begin envB2 mbB.type) mbB where
  k := 0
  v := 1
  addr := cw (1, 1)
  type := cw (2, 2)
  vecs := fun _ _ => cw (1, 1)
  pattern := []
  blocks := fun _ => []
  hIncr := rfl
  hAddr := by decide +kernel
  hType := by decide +kernel
  hDct := fun h => by cases h
  hQ := by decide
  hVec := fun s t hs ht h => by
    rcases (show s = 0 ∨ s = 1 by omega) with rfl | rfl <;> rcases (show t = 0 ∨ t = 1 by omega) with rfl | rfl <;>
      exact ⟨by unfold mvLegal; decide, by
          have := MvBits.mk (fCode := 1) (d := 0) (cw (1, 1)) (by decide +kernel)
          exact this⟩
  hPattern := fun h => by cases h
  hCoded := fun i hi h => by
    exfalso
    revert h
    have : ∀ i < 6, mbB.coded i = true → False := by decide +kernel
    exact this i hi
  hUncoded := fun i hi h => rfl
  hDc := fun i hi h => by cases h

theorem inside_x : inside (16 * 0) 16 (16 * 1) 0 := by unfold inside; decide
theorem inside_y : inside (16 * 1) 16 (16 * 2) 0 := by unfold inside; decide

theorem legalB2 (r : RefPics) (P : Image) : MbLegal envB2 r 1 2 1 none ((sl 1 mbB).start envB2 P) mbB where
  inPicture := by decide
  skipP := fun a h => by cases h
  skipB := fun a h => by cases h
  vectors := ⟨fun _ => ⟨inside_x, inside_y⟩, fun h => ⟨inside_x, inside_y⟩⟩
  frameDct := fun h => by cases h

theorem sliceB2 (r : RefPics) (P : Image) : SliceCode envB2 r 1 2 P (sl 1 mbB)
    ((sl 1 mbB).head envB2 ++ ((codeB2 r P).bits ++ [])) where
  row := by decide
  maxRow := by decide
  q := (by decide : 5 < 32)
  info := fun i h => by cases h
  nonempty := by simp [sl]
  body := ⟨_, .cons (legalB2 r P) (codeB2 r P) .nil, rfl⟩

def firstBits : List Bool :=
  byte (encSeq (seqH 16)) ++ (byte (encSeqExt (seqE 1)) ++ ([] ++ (byte (encGOP gopH) ++ ([] ++ (byte (encPic ⟨0, .other 1, 0, []⟩) ++
    (byte (encPicExt picE) ++ ([] ++ (byte ((sl 0 mbI).head (envI 16 1) ++ ((codeI 16 1 0 ⟨none, none⟩ blank).bits ++ []))))))))))

def secondI : List Bool :=
  byte (encSeq (seqH 32)) ++ (byte (encSeqExt (seqE 1)) ++ ([] ++ (byte (encGOP gopH) ++ ([] ++ (byte (encPic ⟨1, .other 1, 0, []⟩) ++
    (byte (encPicExt picE) ++ ([] ++ (byte ((sl 0 mbI).head envI2 ++ ((codeI2 0 ⟨none, none⟩ blank).bits ++ [])) ++
    byte ((sl 1 mbI).head envI2 ++ ((codeI2 1 ⟨none, none⟩ blank).bits ++ []))))))))))

def secondB : List Bool :=
  byte (encPic ⟨0, .b 0 7 0 7, 0, []⟩) ++ (byte (encPicExt picE) ++ ([] ++
    (byte ((sl 1 mbB).head envB2 ++ ((codeB2 ⟨none, none⟩ blank).bits ++ [])))))

def both : List Bool := firstBits ++ (bitsOf 32 0x1B7 ++ ((secondI ++ secondB) ++ bitsOf 32 0x1B7))

/-- the outcomes of three calls of `Next` -/
def outcomes (F : Nat) (s : VS) : Bool :=
  match VS.next F 2 s with
  | (.ok _, t) => match VS.next F 2 t with
    | (.err .eos, u) => panics (VS.next F 2 u)
    | _ => false
  | _ => false

theorem outcomes_inv {F : Nat} {s : VS} (h : outcomes F s = true) : ∃ f t u, VS.next F 2 s = (.ok f, t) ∧
    VS.next F 2 t = (.err .eos, u) ∧ (VS.next F 2 u).1 = .panic := by
  unfold outcomes at h
  split at h
  · rename_i f t h1
    split at h
    · rename_i u h2
      refine ⟨f, t, u, h1, h2, ?_⟩
      unfold panics at h
      split at h
      · assumption
      · cases h
    · cases h
  · cases h

theorem outcomes_panics : outcomes (both.length + 1) (VS.new ⟨both, 0, .eof, []⟩) = true := by decide +kernel

theorem okPic2 (c : Coded) (h : c.hdr.WF) (hc : c.seq = none ∨ c.seq = some ⟨seqH 32, seqE 1, []⟩)
    (hg : ∀ g, c.gop = some g → g.hdr.WF) (he : c.ext = picE) (hi : c.items = []) (hs : c.slices ≠ []) : c.OK 1 2 where
  seq := fun q hq => by
    rcases hc with hc | hc <;> rw [hc] at hq <;> cases hq
    exact ⟨by decide, by decide, rfl, rfl, rfl, rfl, rfl, fun m h => (by cases h), fun m h => (by cases h)⟩
  gop := hg
  hdr := h
  ext := by
    rw [he]
    refine ⟨by decide, by decide, by decide, by decide, by decide, by decide, by decide, by decide, by decide,
      by decide, ?_⟩
    intro c hc; cases hc
  structure_ := by rw [he]; rfl
  conceal := fun h => by rw [he] at h; cases h
  f00 := by rw [he]; decide
  f01 := by rw [he]; decide
  f10 := by rw [he]; decide
  f11 := by rw [he]; decide
  items := by rw [hi]; intro it h; cases h
  slices := hs

theorem byte_slices {e : PicEnv} {r : RefPics} {W H pos : Nat} {P : Image} {s : SliceData} {sls : List SliceData}
    {b more : List Bool} (hp : pos % 8 = 0) (h : SliceCode e r W H P s b)
    (hm : SlicesCode e r W H (pos + (byte b).length) (s.image e r P) sls more) :
    SlicesCode e r W H pos P (s :: sls) (byte b ++ more) := by
  have e1 : padding (pos + b.length) = padding b.length := by unfold padding; omega
  have hm' : SlicesCode e r W H (pos + b.length + padding (pos + b.length) + 8 * 0) (s.image e r P) sls more := by
    have : (byte b).length = b.length + padding b.length := by simp [byte, zeros]
    rw [this, ← Nat.add_assoc] at hm
    rw [e1]
    exact hm
  have := SlicesCode.cons 0 h hm'
  rw [e1] at this
  unfold byte
  rw [List.append_assoc]
  exact this

theorem byte_slice {e : PicEnv} {r : RefPics} {W H pos : Nat} {P : Image} {s : SliceData} {b : List Bool} (hp : pos % 8 = 0)
    (h : SliceCode e r W H P s b) : SlicesCode e r W H pos P [s] (byte b) := by
  have := byte_slices hp h (sls := []) (more := []) .nil
  rwa [List.append_nil] at this

theorem byte_len (l : List Bool) : (byte l).length % 8 = 0 := by
  have : (byte l).length = l.length + padding l.length := by simp [byte, zeros]
  rw [this]; unfold padding; omega

/-- Headers and slices. -/
theorem head_parts {pos : Nat} (hp : pos % 8 = 0) (h : Seq) (x : SeqExt) (g : GOP) (i : Pic) (e : PicExt) {P : Part} {b : List Bool}
    (hb : ∀ p, p % 8 = 0 → P p b) :
    Parts pos [Stuffed (encSeq h), Stuffed (encSeqExt x), ItemsPart 0 [], Stuffed (encGOP g), ItemsPart 1 [], Stuffed (encPic i),
      Stuffed (encPicExt e), ItemsPart 2 [], P]
      (byte (encSeq h) ++ (byte (encSeqExt x) ++ ([] ++ (byte (encGOP g) ++ ([] ++ (byte (encPic i) ++
        (byte (encPicExt e) ++ ([] ++ (b ++ []))))))))) := by
  have l1 := byte_len (encSeq h)
  have l2 := byte_len (encSeqExt x)
  have l3 := byte_len (encGOP g)
  have l4 := byte_len (encPic i)
  have l5 := byte_len (encPicExt e)
  refine .cons (stuffed_byte _ hp) (.cons (stuffed_byte _ (by omega)) (.cons (b := []) .nil (.cons (stuffed_byte _ ?_)
    (.cons (b := []) .nil (.cons (stuffed_byte _ ?_) (.cons (stuffed_byte _ ?_) (.cons (b := []) .nil (.cons (hb _ ?_) .nil))))))))
  all_goals simp only [List.length_nil]; omega

theorem head_parts2 {pos : Nat} (hp : pos % 8 = 0) (i : Pic) (e : PicExt) {P : Part} {b : List Bool}
    (hb : ∀ p, p % 8 = 0 → P p b) :
    Parts pos [Stuffed (encPic i), Stuffed (encPicExt e), ItemsPart 2 [], P]
      (byte (encPic i) ++ (byte (encPicExt e) ++ ([] ++ (b ++ [])))) := by
  have l4 := byte_len (encPic i)
  have l5 := byte_len (encPicExt e)
  refine .cons (stuffed_byte _ hp) (.cons (stuffed_byte _ (by omega)) (.cons (b := []) .nil (.cons (hb _ ?_) .nil)))
  simp only [List.length_nil]; omega

theorem first_code : ∃ imgs, GroupsCode 1 1 0 none none 0 [⟨picI 16 1 [sl 0 mbI], []⟩] firstBits imgs ∧ imgs.length = 1 := by
  have h1 : Parts 0 ((picI 16 1 [sl 0 mbI]).parts (cx 16 1) ⟨none, none⟩ 1 1) _ :=
    head_parts (by decide) (seqH 16) (seqE 1) gopH ⟨0, .other 1, 0, []⟩ picE (fun p hp => byte_slice hp
      (sliceI 16 1 0 1 (by decide) (by decide) ⟨none, none⟩ blank))
  have okI : (picI 16 1 [sl 0 mbI]).OK 1 1 := okPic _ (by decide) (.inr rfl) (fun g h => by cases h; decide) rfl rfl (by simp [picI])
  have := GroupsCode.cons (base := 0) (base0 := 0) (σ := none) (g := ⟨picI 16 1 [sl 0 mbI], []⟩) okI (.inl rfl) rfl rfl
    rfl h1 .nil .nil
  simp only [List.append_nil] at this
  generalize hi : ([] : List Image) ++ [_] = imgs at this
  refine ⟨imgs, ?_, by rw [← hi]; rfl⟩
  simp only [firstBits, List.append_nil]
  exact this

theorem second_code {pos : Nat} (hp : pos % 8 = 0) :
    ∃ imgs, GroupsCode 1 2 0 none none pos [⟨picI2, [picB2]⟩] (secondI ++ secondB) imgs ∧ imgs.length = 2 := by
  have okI : picI2.OK 1 2 := okPic2 _ (by decide) (.inr rfl) (fun g h => by cases h; decide) rfl rfl (by simp [picI2])
  have okB : picB2.OK 1 2 := okPic2 _ (by decide) (.inl rfl) (fun g h => by cases h) rfl rfl (by simp [picB2])
  have h1 : Parts pos (picI2.parts (cx 32 1) ⟨none, none⟩ 1 2) secondI := by
    have := head_parts hp (seqH 32) (seqE 1) gopH ⟨1, .other 1, 0, []⟩ picE
      (P := fun pos b => SlicesCode envI2 ⟨none, none⟩ 1 2 pos blank [sl 0 mbI, sl 1 mbI] b)
      (b := byte ((sl 0 mbI).head envI2 ++ ((codeI2 0 ⟨none, none⟩ blank).bits ++ [])) ++
        byte ((sl 1 mbI).head envI2 ++ ((codeI2 1 ⟨none, none⟩ blank).bits ++ []))) (fun p hp => ?_)
    · simp only [List.append_nil] at this
      simp only [secondI, List.append_nil]
      exact this
    · exact byte_slices hp (sliceI2 0 2 (by decide) (by decide) ⟨none, none⟩ blank)
        (byte_slice (by have := byte_len ((sl 0 mbI).head envI2 ++ ((codeI2 0 ⟨none, none⟩ blank).bits ++ [])); omega)
          (sliceI2 1 2 (by decide) (by decide) ⟨none, none⟩ ((sl 0 mbI).image envI2 ⟨none, none⟩ blank)))
  obtain ⟨i1, hi1⟩ : ∃ i, i = picI2.image (cx 32 1) ⟨none, none⟩ := ⟨_, rfl⟩
  have hl : secondI.length % 8 = 0 := by decide +kernel
  have h2 : Parts (pos + secondI.length) (picB2.parts (cx 32 1) ⟨none, some i1⟩ 1 2) secondB := by
    have := head_parts2 (show (pos + secondI.length) % 8 = 0 by omega) ⟨0, .b 0 7 0 7, 0, []⟩ picE
      (P := fun pos b => SlicesCode envB2 ⟨none, some i1⟩ 1 2 pos blank [sl 1 mbB] b)
      (b := byte ((sl 1 mbB).head envB2 ++ ((codeB2 ⟨none, none⟩ blank).bits ++ []))) (fun p hp =>
        byte_slice hp (sliceB2 ⟨none, some i1⟩ blank))
    simp only [List.append_nil] at this
    simp only [secondB, List.append_nil]
    exact this
  have g2 : BsCode 1 2 none i1 0 (cx 32 1) (pos + secondI.length) [picB2] (secondB ++ [])
      [picB2.image (cx 32 1) ⟨none, some i1⟩] (cx 32 1) := .cons okB rfl rfl rfl rfl rfl h2 .nil
  rw [hi1] at g2
  have := GroupsCode.cons (base := 0) (base0 := 0) (σ := none) (g := ⟨picI2, [picB2]⟩) okI (.inl rfl) rfl rfl
    rfl h1 g2 .nil
  simp only [List.append_nil] at this
  exact ⟨_, this, rfl⟩

end ExStream
open ExStream

/-- **C87** and **C88** are false for entry points with B pictures that refer to the past: both sequences are as in
`C75_partial` (a new decoder returns the two pictures of the second), but after the first sequence, whose pictures are
smaller, the B picture is predicted from a picture of the first sequence, and `Next` panics. -/
theorem C87_leading_false : ∃ gs1 gs2 imgs1 imgs2 bits1 bits2, Entry gs1 ∧ GroupsCode 1 1 0 none none 0 gs1 bits1 imgs1 ∧
    GroupsCode 1 2 0 none none (bits1.length + 32) gs2 bits2 imgs2 ∧
    (∃ g, gs2 = [g] ∧ g.ref.seq ≠ none ∧ g.ref.gop ≠ none ∧ g.ref.hdr.kind.code = 1) ∧
    ∀ bits, bits = bits1 ++ (bitsOf 32 0x1B7 ++ (bits2 ++ bitsOf 32 0x1B7)) →
      ∃ f t u, VS.next (bits.length + 1) 2 (VS.new ⟨bits, 0, .eof, []⟩) = (.ok f, t) ∧
        VS.next (bits.length + 1) 2 t = (.err .eos, u) ∧ (VS.next (bits.length + 1) 2 u).1 = .panic := by
  obtain ⟨imgs1, h1, _⟩ := first_code
  obtain ⟨imgs2, h2, _⟩ := second_code (pos := firstBits.length + 32) (by decide +kernel)
  refine ⟨_, _, imgs1, imgs2, firstBits, secondI ++ secondB, ⟨_, _, rfl, by simp [picI], by simp [picI], rfl, fun _ h => (by cases h)⟩, h1, h2,
    ⟨_, rfl, by simp [picI2], by simp [picI2], rfl⟩, ?_⟩
  rintro bits rfl
  exact outcomes_inv outcomes_panics

end Mpeg.Video
