/-
C75: whole streams.
-/
import Verif.Video.StreamLemmas4
import Verif.Video.RefProps
namespace Mpeg.Video
open Spec

variable {stop : Err} {later : List (List Bool × Err)}

/-- **C75** (partial): a new decoder on a stream of pictures in coding order, in any number, with their headers,
extensions and user data, returns from consecutive calls of `Next` exactly the pictures of the reference decoder, in
display order, and after the last of them the end of the stream.

`lead` zero bytes may precede the stream; `rest` may follow the sequence end code.

Partial: 4:2:0 frame pictures with frame prediction, concealment vectors only with frame_pred_frame_dct (`SlicesCode`, see C69), matrices that do
not depend on the scan order (`C36_false`), an even number of rows of macroblocks in interlaced sequences
(`C75_height_false`), at most 1024 pictures in a group of pictures (`C58_false`). -/
theorem C75_partial {W H lead fuel k : Nat} {gs : List CGroup} {bits rest : List Bool} {imgs : List Image} (hk : 2 ≤ k)
    (hgs : gs ≠ []) (h : GroupsCode W H 0 none none (8 * lead) gs bits imgs) (hf : bits.length < fuel) :
    ∃ frames t, nexts fuel k imgs.length (VS.new ⟨zeros (8 * lead) ++ (bits ++ (bitsOf 32 0x1B7 ++ rest)), 0, stop, later⟩) =
        (.ok frames, t) ∧
      frames.length = imgs.length ∧ (∀ i (h1 : i < frames.length) (h2 : i < imgs.length), Shows W H frames[i] imgs[i]) ∧
      (VS.next fuel k t).1 = .err .eos ∧ (VS.next fuel k t).2.br.bits = rest := by
  have hB : Between W H 0 none none none
      (VS.new ⟨zeros (8 * lead) ++ (bits ++ (bitsOf 32 0x1B7 ++ rest)), 0, stop, later⟩) :=
    ⟨rfl, ⟨rfl, fun r h => (by cases h), fun r h => (by cases h)⟩, rfl, .inl ⟨rfl, rfl⟩, fun Q hQ => (by cases hQ),
      fun _ => ⟨rfl, rfl⟩⟩
  have e7 : bitsOf 32 0x1B7 ++ rest = prefix1 ++ (bitsOf 8 0xB7 ++ rest) := by
    rw [show (0x1B7 : Nat) = 0x100 + 0xB7 from rfl, code32_bits (by decide), List.append_assoc]
  obtain ⟨frames, t, h1, h2, h3⟩ := groups_next (stop := stop) (later := later) (n := 0xB7) (rest := rest) (fuel := fuel)
    (k := k) hk (by decide) (by decide) h (lead := lead) hB (fun h => absurd rfl h) (by omega) (Nat.le_refl _) hf
    (by rw [← e7]; simp only [VS.new, Nat.sub_self])
  obtain ⟨base', z, pf, P, hB', hbr, _⟩ := h3 hgs
  have hend : VS.next fuel k t = (.err .eos, { t with br := ⟨rest, 8 * lead + bits.length + 32, stop, later⟩ }) := by
    have hge : t.fs.tryGet t.frameCounter = none := by rw [hB'.counter]; exact hB'.ready.tryGet
    rw [next_loop hge]
    have hst : step fuel t = (.err .eos, { t with br := ⟨rest, 8 * lead + bits.length + 32, stop, later⟩ }) := by
      have hsome : t.sh.isSome = true := by rw [hB'.ctx.sh]; rfl
      unfold step
      rw [if_pos hsome]
      unfold resume
      rw [Go.bind_ok (peek_at (stop := stop) (later := later) (by decide) hbr),
        if_neg (by decide), if_pos (by decide)]
      have hsk : VS.lift (BR.skip 32) t = (.ok (), { t with br := ⟨rest, 8 * lead + bits.length + 32, stop, later⟩ }) := by
        unfold VS.lift
        rw [hbr, ← e7, BR.skip_bitsOf]
      rw [Go.bind_ok hsk]
      rfl
    obtain ⟨k', rfl⟩ : ∃ k', k = k' + 1 := ⟨k - 1, by omega⟩
    unfold nextLoop
    exact Go.bind_err hst
  exact ⟨frames, t, h1, h2.length, h2.get, by rw [hend], by rw [hend]⟩

/-! ### an example: I, P, B of 16 x 16 samples -/

namespace ExStream

theorem stuffed_ex (h : List Bool) (pos : Nat) : ∃ b, Stuffed h pos b :=
  ⟨_, List.replicate (padding (pos + h.length)) true, 1, List.length_replicate, rfl⟩

theorem parts_ex : ∀ {Ps : List Part}, (∀ P ∈ Ps, ∀ pos, ∃ b, P pos b) → ∀ pos, ∃ b, Parts pos Ps b
  | [], _, pos => ⟨[], .nil⟩
  | P :: Ps, h, pos => by
    obtain ⟨b, hb⟩ := h P (List.mem_cons_self ..) pos
    obtain ⟨bs, hbs⟩ := parts_ex (fun Q hQ => h Q (List.mem_cons_of_mem _ hQ)) (pos + b.length)
    exact ⟨b ++ bs, .cons hb hbs⟩

def seqH (h : Nat) : Seq := ⟨16, h, 1, 3, 100, 20, false, none, none⟩
def seqE (progressive : Nat) : SeqExt := ⟨0x48, progressive, 1, 0, 0, 0, true, 0, 0, 0, 0⟩
def gopH : GOP := ⟨false, 0, 0, true, 0, 0, true, false⟩
def picE : PicExt := ⟨1, 1, 1, 1, 0, 3, false, 1, false, 0, 0, 0, false, true, true, none⟩

/-- intra: luma DC 133, chroma 125 and 128 -/
def mbI : MbData := ⟨1, ⟨false, false, false, false, true⟩, false, 0, fun _ _ => 0, 0,
  fun i => if i < 4 then [133] else if i = 4 then [125] else [128]⟩
/-- predicted with the vector (0, 0); block 0 has the coefficients 2, 0, -1 -/
def mbP : MbData := ⟨1, ⟨false, true, false, true, false⟩, false, 0, fun _ _ => 0, 32,
  fun i => if i = 0 then [2, 0, -1] else []⟩
/-- mean of both references -/
def mbB : MbData := ⟨1, ⟨false, true, true, false, false⟩, false, 0, fun _ _ => 0, 0, fun _ => []⟩

def sl (row : Nat) (m : MbData) : SliceData := ⟨row, 5, none, [m]⟩

def picI (h pr : Nat) (sls : List SliceData) : Coded :=
  ⟨some ⟨seqH h, seqE pr, []⟩, some ⟨gopH, []⟩, ⟨0, .other 1, 0, []⟩, picE, [], sls⟩
def picP : Coded := ⟨none, none, ⟨2, .p 0 7, 0, []⟩, picE, [], [sl 0 mbP]⟩
def picB : Coded := ⟨none, none, ⟨1, .b 0 7 0 7, 0, []⟩, picE, [], [sl 0 mbB]⟩

/-- the headers in force -/
def cx (h pr : Nat) : Ctx := ⟨seqH h, seqE pr, (seqH h).mats⟩

def envI (h pr : Nat) : PicEnv := (cx h pr).env (picI h pr [])

def codeI (h pr row : Nat) (r : RefPics) (P : Image) :
    MbCode (envI h pr) ((((sl row mbI).start (envI h pr) P).skip (envI h pr) r row none mbI.incr).begin (envI h pr) mbI.type)
      mbI where
  k := 0
  v := 1
  addr := cw (1, 1)
  type := cw (1, 1)
  vecs := fun _ _ => []
  pattern := []
  blocks := Ex.blocks2
  hIncr := rfl
  hAddr := by decide +kernel
  hType := by
    have : (envI h pr).ph.pictureCodingType = 1 := rfl
    rw [this]; decide +kernel
  hDct := fun h => by cases h
  hQ := by decide
  hVec := fun s t hs ht h => by
    rcases (show s = 0 ∨ s = 1 by omega) with rfl | rfl <;> cases h
  hPattern := fun h => by cases h
  hCoded := fun i hi _ => by
    rcases (show i = 0 ∨ i = 1 ∨ i = 2 ∨ i = 3 ∨ i = 4 ∨ i = 5 by omega) with rfl | rfl | rfl | rfl | rfl | rfl
    · exact BlockCode.intra (format := 0) (pred := 128) 5 (cw (5, 3)) [] [] [true, false] rfl (by decide) (by decide +kernel) (.nil _)
        (by decide +kernel) (by decide)
    · exact BlockCode.intra (format := 0) (pred := 133) 0 (cw (4, 3)) [] [] [true, false] rfl (by decide) (by decide +kernel) (.nil _)
        (by decide +kernel) (by decide)
    · exact BlockCode.intra (format := 0) (pred := 133) 0 (cw (4, 3)) [] [] [true, false] rfl (by decide) (by decide +kernel) (.nil _)
        (by decide +kernel) (by decide)
    · exact BlockCode.intra (format := 0) (pred := 133) 0 (cw (4, 3)) [] [] [true, false] rfl (by decide) (by decide +kernel) (.nil _)
        (by decide +kernel) (by decide)
    · exact BlockCode.intra (format := 0) (cc := 1) (pred := 128) (-3) (cw (2, 2)) [] [] [true, false] rfl (by decide) (by decide +kernel)
        (.nil _) (by decide +kernel) (by decide)
    · exact BlockCode.intra (format := 0) (pred := 128) 0 (cw (0, 2)) [] [] [true, false] rfl (by decide) (by decide +kernel) (.nil _)
        (by decide +kernel) (by decide)
  hUncoded := fun i hi h => by cases h
  hDc := fun i hi _ => by
    have : ∀ i < 6, -2 ^ 28 ≤ (mbI.qf i).getD 0 0 ∧ (mbI.qf i).getD 0 0 < 2 ^ 28 := by decide +kernel
    exact this i hi

theorem sliceI (h pr row H : Nat) (hr : row < H) (hr' : row < 175) (r : RefPics) (P : Image) :
    SliceCode (envI h pr) r 1 H P (sl row mbI) ((sl row mbI).head (envI h pr) ++ ((codeI h pr row r P).bits ++ [])) where
  row := hr
  maxRow := hr'
  q := (by decide : 5 < 32)
  info := fun i h => by cases h
  nonempty := by simp [sl]
  body := ⟨_, .cons ⟨by decide, fun a h => (by cases h), fun a h => (by cases h),
    ⟨fun h => (by cases h), fun h => (by cases h)⟩, fun h => (by cases h)⟩ (codeI h pr row r P) .nil, rfl⟩

theorem zero_inside : inside 0 16 16 0 := by unfold inside; decide

def codeP (r : RefPics) (P : Image) : MbCode ((cx 16 1).env picP)
    ((((sl 0 mbP).start ((cx 16 1).env picP) P).skip ((cx 16 1).env picP) r 0 none mbP.incr).begin ((cx 16 1).env picP) mbP.type)
    mbP where
  k := 0
  v := 1
  addr := cw (1, 1)
  type := cw (1, 1)
  vecs := fun _ _ => cw (1, 1)
  pattern := cw (10, 4)
  blocks := fun i => if i = 0 then
    (([false, true, false, false] ++ [false]) ++ (([false, true, true] ++ [true]) ++ [])) ++ [true, false] else []
  hIncr := rfl
  hAddr := by decide +kernel
  hType := by decide +kernel
  hDct := fun h => by cases h
  hQ := by decide
  hVec := fun s t hs ht h => by
    rcases (show s = 0 ∨ s = 1 by omega) with rfl | rfl
    · rcases (show t = 0 ∨ t = 1 by omega) with rfl | rfl <;>
      exact ⟨by unfold mvLegal; decide, by
          have := MvBits.mk (fCode := 1) (d := 0) (cw (1, 1)) (by decide +kernel)
          exact this⟩
    · cases h
  hPattern := fun _ => by decide +kernel
  hCoded := fun i hi h => by
    have h0 : i = 0 := by
      revert h
      have : ∀ i < 6, mbP.coded i = true → i = 0 := by decide +kernel
      exact this i hi
    subst h0
    refine BlockCode.nonintra [(0, 2), (1, -1)] _ _ rfl (by simp) ?_ (by decide +kernel) (by decide)
    refine .cons _ _ _ _ _ _ (.vlc [false, true, false, false] (by decide +kernel) (by decide)) ?_
    exact .cons _ _ _ _ _ _ (.vlc [false, true, true] (by decide +kernel) (by decide)) (.nil _)
  hUncoded := fun i hi h => by
    rcases Nat.eq_zero_or_pos i with rfl | h0
    · cases h
    · exact if_neg (by omega)
  hDc := fun i hi h => by cases h

theorem legalP (r : RefPics) (P : Image) : MbLegal ((cx 16 1).env picP) r 1 1 0 none
    ((sl 0 mbP).start ((cx 16 1).env picP) P) mbP where
  inPicture := by decide
  skipP := fun a h => by cases h
  skipB := fun a h => by cases h
  vectors := ⟨fun _ => ⟨zero_inside, zero_inside⟩, fun h => by cases h⟩
  frameDct := fun h => by cases h

theorem sliceP (r : RefPics) (P : Image) : SliceCode ((cx 16 1).env picP) r 1 1 P (sl 0 mbP)
    ((sl 0 mbP).head ((cx 16 1).env picP) ++ ((codeP r P).bits ++ [])) where
  row := by decide
  maxRow := by decide
  q := (by decide : 5 < 32)
  info := fun i h => by cases h
  nonempty := by simp [sl]
  body := ⟨_, .cons (legalP r P) (codeP r P) .nil, rfl⟩

def codeB (r : RefPics) (P : Image) : MbCode ((cx 16 1).env picB)
    ((((sl 0 mbB).start ((cx 16 1).env picB) P).skip ((cx 16 1).env picB) r 0 none mbB.incr).begin ((cx 16 1).env picB) mbB.type)
    mbB where
  k := 0
  v := 1
  addr := cw (1, 1)
  type := cw (2, 2)
  vecs := fun _ _ => cw (1, 1)
  pattern := []
  blocks := fun _ => []
  hIncr := rfl
  hAddr := by decide +kernel
  hType := by decide +kernel
  hDct := fun h => by cases h
  hQ := by decide
  hVec := fun s t hs ht h => by
    rcases (show s = 0 ∨ s = 1 by omega) with rfl | rfl <;> rcases (show t = 0 ∨ t = 1 by omega) with rfl | rfl <;>
      exact ⟨by unfold mvLegal; decide, by
          have := MvBits.mk (fCode := 1) (d := 0) (cw (1, 1)) (by decide +kernel)
          exact this⟩
  hPattern := fun h => by cases h
  hCoded := fun i hi h => by
    exfalso
    revert h
    have : ∀ i < 6, mbB.coded i = true → False := by decide +kernel
    exact this i hi
  hUncoded := fun i hi h => rfl
  hDc := fun i hi h => by cases h

theorem legalB (r : RefPics) (P : Image) : MbLegal ((cx 16 1).env picB) r 1 1 0 none
    ((sl 0 mbB).start ((cx 16 1).env picB) P) mbB where
  inPicture := by decide
  skipP := fun a h => by cases h
  skipB := fun a h => by cases h
  vectors := ⟨fun _ => ⟨zero_inside, zero_inside⟩, fun h => ⟨zero_inside, zero_inside⟩⟩
  frameDct := fun h => by cases h

theorem sliceB (r : RefPics) (P : Image) : SliceCode ((cx 16 1).env picB) r 1 1 P (sl 0 mbB)
    ((sl 0 mbB).head ((cx 16 1).env picB) ++ ((codeB r P).bits ++ [])) where
  row := by decide
  maxRow := by decide
  q := (by decide : 5 < 32)
  info := fun i h => by cases h
  nonempty := by simp [sl]
  body := ⟨_, .cons (legalB r P) (codeB r P) .nil, rfl⟩

theorem okPic (c : Coded) (h : c.hdr.WF) (hc : c.seq = none ∨ c.seq = some ⟨seqH 16, seqE 1, []⟩)
    (hg : ∀ g, c.gop = some g → g.hdr.WF) (he : c.ext = picE) (hi : c.items = []) (hs : c.slices ≠ []) : c.OK 1 1 where
  seq := fun q hq => by
    rcases hc with hc | hc <;> rw [hc] at hq <;> cases hq
    exact ⟨by decide, by decide, rfl, rfl, rfl, rfl, rfl, fun m h => (by cases h), fun m h => (by cases h)⟩
  gop := hg
  hdr := h
  ext := by
    rw [he]
    refine ⟨by decide, by decide, by decide, by decide, by decide, by decide, by decide, by decide, by decide,
      by decide, ?_⟩
    intro c hc; cases hc
  structure_ := by rw [he]; rfl
  conceal := fun h => by rw [he] at h; cases h
  f00 := by rw [he]; decide
  f01 := by rw [he]; decide
  f10 := by rw [he]; decide
  f11 := by rw [he]; decide
  items := by rw [hi]; intro it h; cases h
  slices := hs

theorem items_ex (i pos : Nat) : ∃ b, ItemsPart i [] pos b := ⟨[], .nil⟩

/-- The stream exists and shows three pictures. -/
theorem stream_at (p : Nat) : ∃ bits imgs, GroupsCode 1 1 0 none none p [⟨picI 16 1 [sl 0 mbI], []⟩, ⟨picP, [picB]⟩] bits imgs ∧
    imgs.length = 3 := by
  have hI : ∀ r pos, ∃ b, Parts pos ((picI 16 1 [sl 0 mbI]).parts (cx 16 1) r 1 1) b := by
    intro r
    refine parts_ex ?_
    intro P hP pos
    simp only [Coded.parts, picI, List.cons_append, List.nil_append, List.mem_cons, List.not_mem_nil, or_false] at hP
    rcases hP with rfl | rfl | rfl | rfl | rfl | rfl | rfl | rfl | rfl
    · exact stuffed_ex _ _
    · exact stuffed_ex _ _
    · exact items_ex _ _
    · exact stuffed_ex _ _
    · exact items_ex _ _
    · exact stuffed_ex _ _
    · exact stuffed_ex _ _
    · exact items_ex _ _
    · exact ⟨_, .cons 1 (sliceI 16 1 0 1 (by decide) (by decide) r blank) .nil⟩
  have hP : ∀ r pos, ∃ b, Parts pos (picP.parts (cx 16 1) r 1 1) b := by
    intro r
    refine parts_ex ?_
    intro P hP pos
    simp only [Coded.parts, picP, List.cons_append, List.nil_append, List.mem_cons, List.not_mem_nil, or_false] at hP
    rcases hP with rfl | rfl | rfl | rfl
    · exact stuffed_ex _ _
    · exact stuffed_ex _ _
    · exact items_ex _ _
    · exact ⟨_, .cons 1 (sliceP r blank) .nil⟩
  have hB : ∀ r pos, ∃ b, Parts pos (picB.parts (cx 16 1) r 1 1) b := by
    intro r
    refine parts_ex ?_
    intro P hP pos
    simp only [Coded.parts, picB, List.cons_append, List.nil_append, List.mem_cons, List.not_mem_nil, or_false] at hP
    rcases hP with rfl | rfl | rfl | rfl
    · exact stuffed_ex _ _
    · exact stuffed_ex _ _
    · exact items_ex _ _
    · exact ⟨_, .cons 1 (sliceB r blank) .nil⟩
  obtain ⟨b1, h1⟩ := hI ⟨none, none⟩ p
  obtain ⟨i1, hi1⟩ : ∃ i, i = (picI 16 1 [sl 0 mbI]).image (cx 16 1) ⟨none, none⟩ := ⟨_, rfl⟩
  obtain ⟨b2, h2⟩ := hP ⟨some i1, none⟩ (p + b1.length + 0)
  obtain ⟨i2, hi2⟩ : ∃ i, i = picP.image (cx 16 1) ⟨some i1, none⟩ := ⟨_, rfl⟩
  obtain ⟨b3, h3⟩ := hB ⟨some i1, some i2⟩ (p + b1.length + 0 + b2.length)
  have okI : (picI 16 1 [sl 0 mbI]).OK 1 1 := okPic _ (by decide) (.inr rfl) (fun g h => by cases h; decide) rfl rfl (by simp [picI])
  have okP : picP.OK 1 1 := okPic _ (by decide) (.inl rfl) (fun g h => by cases h) rfl rfl (by simp [picP])
  have okB : picB.OK 1 1 := okPic _ (by decide) (.inl rfl) (fun g h => by cases h) rfl rfl (by simp [picB])
  have g3 : BsCode 1 1 (some i1) i2 1 (cx 16 1) (p + b1.length + 0 + b2.length) [picB] (b3 ++ [])
      [picB.image (cx 16 1) ⟨some i1, some i2⟩] (cx 16 1) := .cons okB rfl rfl rfl rfl rfl h3 .nil
  rw [hi2] at g3
  have g2 := GroupsCode.cons (base := 1) (base0 := 1) (σ := some (cx 16 1)) (g := ⟨picP, [picB]⟩) (gs := []) okP (.inr rfl)
    rfl rfl rfl h2 g3 .nil
  rw [hi1] at g2
  exact ⟨_, _, GroupsCode.cons (base := 0) (base0 := 0) (σ := none) (g := ⟨picI 16 1 [sl 0 mbI], []⟩) okI (.inl rfl) rfl rfl
    rfl h1 .nil g2, rfl⟩

theorem stream : ∃ bits imgs, GroupsCode 1 1 0 none none 8 [⟨picI 16 1 [sl 0 mbI], []⟩, ⟨picP, [picB]⟩] bits imgs ∧
    imgs.length = 3 := stream_at 8

example : ∃ bits frames t, nexts (bits.length + 1) 2 3 (VS.new ⟨zeros (8 * 1) ++ (bits ++ (bitsOf 32 0x1B7 ++ [])), 0, .eof, []⟩) =
    (.ok frames, t) ∧ frames.length = 3 := by
  obtain ⟨bits, imgs, h, h3⟩ := stream
  obtain ⟨frames, t, h1, h2, _⟩ := C75_partial (lead := 1) (stop := .eof) (later := []) (rest := []) (k := 2) (Nat.le_refl _)
    (List.cons_ne_nil _ _) h
    (Nat.lt_succ_self _)
  exact ⟨bits, frames, t, by rw [← h3]; exact h1, h2.trans h3⟩

end ExStream

/-! ### interlaced sequences with an odd number of rows of 16 lines -/

namespace ExStream

/-- ISO 13818-2 6.3.3: 16 lines of an interlaced sequence need two rows of macroblocks. -/
theorem two_rows : mbWidth (seqH 16) (seqE 0) = 1 ∧ mbHeight (seqH 16) (seqE 0) = 2 := by decide

def byte (l : List Bool) : List Bool := l ++ zeros (padding l.length)

/-- the intra macroblock, in the first row and in the second -/
def tall : List Bool :=
  byte (encSeq (seqH 16)) ++ (byte (encSeqExt (seqE 0)) ++ (byte (encGOP gopH) ++ (byte (encPic ⟨0, .other 1, 0, []⟩) ++
    (byte (encPicExt picE) ++ (byte ((sl 0 mbI).head (envI 16 0) ++ (codeI 16 0 0 ⟨none, none⟩ blank).bits) ++
    byte ((sl 1 mbI).head (envI 16 0) ++ (codeI 16 0 1 ⟨none, none⟩ blank).bits))))))

/-- the outcome of the first call of `Next` is a panic -/
def panics (r : Res Frame × VS) : Bool :=
  match r.1 with
  | .panic => true
  | _ => false

theorem stuffed_byte (h : List Bool) {pos : Nat} (hp : pos % 8 = 0) : Stuffed h pos (byte h) := by
  have : padding (pos + h.length) = padding h.length := by unfold padding; omega
  exact ⟨zeros (padding h.length), 0, by simp [zeros, this], by simp [byte, zeros]⟩

end ExStream
open ExStream

/-- **C75** is false for interlaced sequences that need a row of macroblocks more than the lines fill: with a legal I
picture of 16 x 16 samples, whose two macroblocks (`mbHeight = 2`) make up the slices of rows 0 and 1, the first call of
`Next` panics.  All else is as in `C75_partial`. -/
theorem C75_height_false : ∃ (c : Coded) (q : SeqPart) (y : Ctx) (bits : List Bool), c.seq = some q ∧ q.hdr.WF ∧ q.ext.WF ∧
    mbWidth q.hdr q.ext = 1 ∧ mbHeight q.hdr q.ext = 2 ∧ c.ctx none = some y ∧ c.hdr.kind.code = 1 ∧ c.hdr.temporal = 0 ∧
    Parts 0 (c.parts y ⟨none, none⟩ 1 2) bits ∧
    panics (VS.next (bits.length + 1) 2 (VS.new ⟨bits ++ bitsOf 32 0x1B7, 0, .eof, []⟩)) = true := by
  refine ⟨picI 16 0 [sl 0 mbI, sl 1 mbI], ⟨seqH 16, seqE 0, []⟩, cx 16 0, tall, rfl, by decide, by decide, two_rows.1,
    two_rows.2, rfl, rfl, rfl, ?_, by decide +kernel⟩
  refine .cons (stuffed_byte _ (by decide)) ?_
  refine .cons (stuffed_byte _ (by decide +kernel)) ?_
  refine .cons (b := []) .nil ?_
  refine .cons (stuffed_byte _ (by decide +kernel)) ?_
  refine .cons (b := []) .nil ?_
  refine .cons (stuffed_byte _ (by decide +kernel)) ?_
  refine .cons (stuffed_byte _ (by decide +kernel)) ?_
  refine .cons (b := []) .nil ?_
  have h1 := sliceI 16 0 0 2 (by decide) (by decide) ⟨none, none⟩ blank
  have h2 := sliceI 16 0 1 2 (by decide) (by decide) ⟨none, none⟩ ((sl 0 mbI).image (envI 16 0) ⟨none, none⟩ blank)
  have h3 := Parts.cons (P := fun pos b => SlicesCode (envI 16 0) ⟨none, none⟩ 1 2 pos blank [sl 0 mbI, sl 1 mbI] b)
    (SlicesCode.cons (pos := 376) 0 h1 (.cons 0 h2 .nil)) .nil
  have h4 : ∀ {p p' : Nat} {Ps : List Part} {b b' : List Bool}, Parts p Ps b → p = p' → b = b' → Parts p' Ps b' := by
    rintro p _ Ps b _ h rfl rfl; exact h
  refine h4 h3 ?_ ?_
  · decide +kernel
  · decide +kernel

end Mpeg.Video
