/-
C132: an example with a damaged B picture and a damaged P picture.
-/
import Verif.Video.RoundsProps
namespace Mpeg.Video
open Spec

namespace ExRounds
open ExStream ExResync

variable {stop : Err} {later : List (List Bool × Err)}

theorem no_escape (X : List Bool) (p : Nat) : escapeCount ⟨zeros 18 ++ X, p, stop, later⟩ = (.ok 0, ⟨zeros 18 ++ X, p, stop, later⟩) := by
  have h : BR.peek 11 ⟨zeros 18 ++ X, p, stop, later⟩ = (.ok 0, ⟨zeros 18 ++ X, p, stop, later⟩) := by
    have := BR.peek_bitsOf (r := zeros 7 ++ X) (pos := p) (stop := stop) (later := later) 11 0
    rw [← List.append_assoc, show bitsOf 11 0 ++ zeros 7 = zeros 18 from by decide] at this
    exact this
  unfold escapeCount escapeLoop
  rw [Go.bind_ok h]
  rfl

theorem seven (X : List Bool) (p : Nat) : addressIncrement ⟨zeros 18 ++ X, p, stop, later⟩ =
    (.err .missingHuffmanValue, ⟨zeros 11 ++ X, p + 7, stop, later⟩) := by
  have h : ∀ Y : List Bool, addressIncrement ⟨false :: false :: false :: false :: false :: false :: false :: Y, p, stop, later⟩ =
      (.err .missingHuffmanValue, ⟨Y, p + 7, stop, later⟩) := fun Y => rfl
  exact h (zeros 11 ++ X)

/-- the slice with zeros in place of its first macroblock fails at the seventh of them -/
theorem slice_fails (e : PicEnv) (hv : e.sh.verticalSizeValue = 16) (m : MB) (X : List Bool) (p : Nat)
    (hb : m.br = ⟨prefix1 ++ (bitsOf 8 1 ++ (bitsOf 5 5 ++ ([false] ++ (zeros 18 ++ X)))), p, stop, []⟩) :
    ∃ m', slice e m = (.err .missingHuffmanValue, m') ∧ m'.br = ⟨zeros 11 ++ X, p + 45, stop, []⟩ := by
  obtain ⟨m1, hm1⟩ : ∃ m1 : MB, m1 = { m with br := ⟨bitsOf 5 5 ++ ([false] ++ (zeros 18 ++ X)), p + 32, stop, []⟩ } := ⟨_, rfl⟩
  have h1 : MB.lift (BR.read 32) m = (.ok 0x101, m1) := by
    unfold MB.lift
    rw [hb, ← List.append_assoc, ← code32_bits (by decide), BR.read_bitsOf, hm1]
  obtain ⟨m2, hm2⟩ : ∃ m2 : MB, m2 = { m1 with br := ⟨zeros 18 ++ X, p + 38, stop, []⟩ } := ⟨_, rfl⟩
  have h2 : MB.lift (sliceHeader e.sh.verticalSizeValue) m1 = (.ok 5, m2) := by
    have : sliceHeader 16 ⟨bitsOf 5 5 ++ ([false] ++ (zeros 18 ++ X)), p + 32, stop, []⟩ =
      (.ok 5, ⟨zeros 18 ++ X, p + 38, stop, []⟩) := rfl
    unfold MB.lift
    rw [hv, hm1, this, hm2, hm1]
  obtain ⟨m3, hm3⟩ : ∃ m3 : MB, m3 = { m2 with dcp := DcPred.reset e.pce.intraDCPrecision, mvd := MVD.init, qsc := 5 } := ⟨_, rfl⟩
  have h3 : ∀ row, mbLoopAll e row m3 = (.err .missingHuffmanValue, { m3 with br := ⟨zeros 11 ++ X, p + 45, stop, []⟩ }) := by
    intro row
    have hi : MB.lift mbIncrement m3 = (.err .missingHuffmanValue, { m3 with br := ⟨zeros 11 ++ X, p + 45, stop, []⟩ }) := by
      have hbr : m3.br = ⟨zeros 18 ++ X, p + 38, stop, []⟩ := by rw [hm3, hm2]
      unfold MB.lift
      rw [hbr]
      unfold mbIncrement
      rw [Go.bind_ok (no_escape _ _), Go.bind_err (seven _ _)]
    have hq : ∀ f, mbLoop e row (f + 1) none m3 = (.err .missingHuffmanValue, { m3 with br := ⟨zeros 11 ++ X, p + 45, stop, []⟩ }) := by
      intro f
      unfold mbLoop
      rw [macroblock_eq]
      rw [Go.bind_err (Go.bind_err hi)]
    exact hq _
  refine ⟨{ m3 with br := ⟨zeros 11 ++ X, p + 45, stop, []⟩ }, ?_, rfl⟩
  unfold slice
  rw [Go.bind_ok h1, Go.bind_ok (show Go.check (isSlice 0x101) .unexpectedStartCode m1 = (.ok (), m1) from rfl),
    Go.bind_ok (Go.get_apply m1)]
  rw [if_neg (by
    show ¬ (_ < 16 * 0 * _ ∨ _ < 8 * 0 * _ ∨ _ < 8 * 0 * _)
    simp)]
  rw [Go.bind_ok h2, Go.bind_ok (Go.modify_apply _ _), ← hm3, Go.bind_err (h3 _)]

theorem data_fails {s : VS} (X : List Bool) (p : Nat) {c : Coded} (hat : At 1 1 (cx 16 1) s) (hph : s.ph = some (viewPic c.hdr))
    (hpce : s.pce = some (viewPicExt c.ext))
    (hb : s.br = ⟨prefix1 ++ (bitsOf 8 1 ++ (bitsOf 5 5 ++ ([false] ++ (zeros 18 ++ X)))), p, stop, []⟩) :
    (pictureData s).2.br = ⟨zeros 11 ++ X, p + 45, stop, []⟩ := by
  unfold pictureData
  rw [hat.sh, hat.se, hph, hpce]
  dsimp only
  have hq : ∀ (e : PicEnv) (m : MB) (f : Nat), e.sh.verticalSizeValue = 16 → m.br = s.br → 0 < f →
      ∃ m', (do sliceLoop e f; MB.lift nextStartCode : Go MB Unit) m = (.err .missingHuffmanValue, m') ∧
        m'.br = ⟨zeros 11 ++ X, p + 45, stop, []⟩ := by
    intro e m f hv hm hf
    obtain ⟨m', h1, h2⟩ := slice_fails e hv m X p (hm.trans hb)
    obtain ⟨f', rfl⟩ : ∃ f', f = f' + 1 := ⟨f - 1, by omega⟩
    refine ⟨m', ?_, h2⟩
    unfold sliceLoop
    rw [Go.bind_err (Go.bind_err h1)]
  obtain ⟨m', h1, h2⟩ := hq ⟨viewSeq (cx 16 1).seq, viewSeqExt (cx 16 1).ext, viewPic c.hdr, viewPicExt c.ext, s.qm, s.fs.past, s.fs.future⟩
    ⟨s.br, DcPred.reset (viewPicExt c.ext).intraDCPrecision, MVD.init, 0,
      createFrameBuffer s.size.1.toNat s.size.2.toNat (viewSeqExt (cx 16 1).ext).chromaFormat⟩ (fuelOf s.br) rfl rfl (by unfold fuelOf; omega)
  rw [h1]
  exact h2

/-- The headers of a picture and the damaged slice. -/
def badPic (hdr : List Bool) : List Bool := hdr ++ (prefix1 ++ (bitsOf 8 1 ++ junk))

theorem bad_picture {c : Coded} {hdr more : List Bool} {pos : Nat} (hok : c.OK 1 1) (hc : c.ctx (some (cx 16 1)) = some (cx 16 1))
    (hp : Parts pos c.headers hdr) (ha : pos % 8 = 0) (hl : hdr.length % 8 = 0) (hshort : hdr.length < 900)
    (hd : ∀ p r, c.Damaged (cx 16 1) p (prefix1 ++ (bitsOf 8 1 ++ (bitsOf 5 5 ++ ([false] ++ (zeros 18 ++ r))))))
    (hm : ∃ u, more = bitsOf 32 0x1B8 ++ u) :
    BadPicture 1 1 1000 .eof (some (cx 16 1)) pos c (cx 16 1) (badPic hdr) more where
  ok := hok
  ctx := hc
  code := by
    refine ⟨hdr, 1, junk, rfl, hp, by decide, by decide, by decide, ?_, ?_⟩
    · unfold junk
      simp only [List.append_assoc]
      exact hd _ _
    · obtain ⟨u, rfl⟩ := hm
      intro j h1 h2
      obtain ⟨q, hq⟩ : ∃ q, hdr.length = 8 * q := ⟨hdr.length / 8, by omega⟩
      have hl2 : (badPic hdr).length = hdr.length + 72 := by
        unfold badPic
        rw [List.length_append, show (prefix1 ++ (bitsOf 8 1 ++ junk)).length = 72 from by decide +kernel]
      obtain ⟨i, rfl⟩ : ∃ i, j = q + i := ⟨j - q, by omega⟩
      have hi : i < 9 := by omega
      have e : ((badPic hdr ++ (bitsOf 32 0x1B8 ++ u)).drop (8 * (q + i))).take 32 =
          ((prefix1 ++ (bitsOf 8 1 ++ junk) ++ bitsOf 32 0x1B8).drop (8 * i)).take 32 := by
        unfold badPic
        rw [List.append_assoc, Nat.mul_add, ← List.drop_drop, List.drop_left' hq, ← List.append_assoc,
          List.drop_append_of_le_length (by
            rw [List.length_append, show (prefix1 ++ (bitsOf 8 1 ++ junk)).length = 72 from by decide +kernel, length_bitsOf]; omega),
          List.take_append_of_le_length (by
            rw [List.length_drop, List.length_append, show (prefix1 ++ (bitsOf 8 1 ++ junk)).length = 72 from by decide +kernel,
              length_bitsOf]; omega)]
      rw [e]
      have : ∀ i < 9, ((prefix1 ++ (bitsOf 8 1 ++ junk) ++ bitsOf 32 0x1B8).drop (8 * i)).take 32 ≠ bitsOf 32 0x1B8 := by decide +kernel
      exact this i hi
  whole := by
    unfold badPic
    rw [List.length_append, show (prefix1 ++ (bitsOf 8 1 ++ junk)).length = 72 from by decide +kernel]
    omega
  short := by
    unfold badPic
    rw [List.length_append, show (prefix1 ++ (bitsOf 8 1 ++ junk)).length = 72 from by decide +kernel]
    omega
  stops := by
    intro s hat hw hb
    have e : badPic hdr ++ more = hdr ++ (prefix1 ++ (bitsOf 8 1 ++ (bitsOf 5 5 ++ ([false] ++ (zeros 18 ++ (bitsOf 16 0x55AA ++ more)))))) := by
      unfold badPic junk
      simp only [List.append_assoc]
    obtain ⟨s1, c1, c2, c3, c4, c5, c6, c7, c8⟩ := headers_step (stop := .eof) (later := []) (k := 0) hok (fun _ => hat) hc
      (fun _ => rfl) hp ha (by omega) (fuel := 1000) (n := 1)
      (rest := bitsOf 5 5 ++ ([false] ++ (zeros 18 ++ (bitsOf 16 0x55AA ++ more)))) (by omega) (by decide) (by decide) (by decide)
      (by rw [hb, e]; rfl)
    refine ⟨hdr.length + 45, ?_, ?_⟩
    · unfold badPic
      rw [List.length_append, show (prefix1 ++ (bitsOf 8 1 ++ junk)).length = 72 from by decide +kernel]
      omega
    cases hx : pictureStep s1 with
    | mk r t2 =>
      have hlat : s1.br.later = [] := by rw [c7]
      obtain ⟨fs', hfs'⟩ : ∃ fs', fs' = s1.fs.set (viewPic c.hdr).temporalReference := ⟨_, rfl⟩
      have hfail : ∀ f, (pictureData { s1 with fs := s1.fs.set (viewPic c.hdr).temporalReference }).1 ≠ .ok f := by
        rw [← hfs']
        exact damaged_fails hok (at_lift c2 rfl rfl rfl) c3 c4 hlat (by rw [c7]; exact hd _ _)
      have hbr : t2.br = ⟨zeros 11 ++ (bitsOf 16 0x55AA ++ more), pos + hdr.length + 45, .eof, []⟩ := by
        have hd1 := data_fails (stop := .eof) (s := { s1 with fs := fs' }) (bitsOf 16 0x55AA ++ more) (pos + hdr.length) (c := c)
          (at_lift c2 rfl rfl rfl) c3 c4 c7
        rw [hfs'] at hd1
        unfold pictureStep at hx
        rw [Go.bind_ok (Go.get_apply s1), c3] at hx
        dsimp only at hx
        rw [Go.bind_ok (Go.modify_apply ..)] at hx
        cases hy : pictureData { s1 with fs := s1.fs.set (viewPic c.hdr).temporalReference } with
        | mk q s2 =>
          rw [hy] at hd1 hfail
          cases q with
          | ok f => exact absurd rfl (hfail f)
          | err e => rw [Go.bind_err hy] at hx; cases hx; exact hd1
          | panic => rw [Go.bind_panic hy] at hx; cases hx; exact hd1
          | hang => rw [Go.bind_hang hy] at hx; cases hx; exact hd1
      have hn : (VS.next 1000 1 s).2 = t2 := by
        rw [next_loop hw]
        unfold nextLoop
        rw [hx] at c1
        obtain ⟨d1, _⟩ := pictureStep_fails c3 hfail hx
        cases r with
        | ok f => exact absurd rfl (d1 f)
        | err e => rw [Go.bind_err c1]
        | panic => rw [Go.bind_panic c1]
        | hang => rw [Go.bind_hang c1]
      rw [hn, hbr]
      have hj : (badPic hdr).drop (hdr.length + 45) = zeros 11 ++ bitsOf 16 0x55AA := by
        unfold badPic
        rw [← List.drop_drop, List.drop_left' rfl]
        decide +kernel
      rw [hj, List.append_assoc, Nat.add_assoc]

/-- the headers of a B picture -/
def hdrB : List Bool := byte (encPic picB.hdr) ++ byte (encPicExt picE)

theorem partsB {pos : Nat} (hp : pos % 8 = 0) : Parts pos picB.headers hdrB := by
  have b1 := byte_length (encPic picB.hdr)
  have h := Parts.cons (P := Stuffed (encPic picB.hdr)) (stuffed_byte (encPic picB.hdr) hp)
    (.cons (P := Stuffed (encPicExt picE)) (stuffed_byte (encPicExt picE) (by omega))
      (.cons (P := ItemsPart 2 []) (b := []) .nil .nil))
  exact parts_cast h rfl (by unfold hdrB; simp only [List.append_nil])

theorem okB : picB.OK 1 1 := okPic _ (by decide) (.inl rfl) (fun g h => by cases h) rfl rfl (by simp [picB])

theorem damagedB (pos : Nat) (r : List Bool) :
    picB.Damaged (cx 16 1) pos (prefix1 ++ (bitsOf 8 1 ++ (bitsOf 5 5 ++ ([false] ++ (zeros 18 ++ r))))) := by
  intro e l r' h1 _ _ _ hl hd _
  have hv : ¬ 2800 < e.sh.verticalSizeValue := by rw [h1]; decide
  rw [← List.append_assoc, ← code32_bits (by decide)] at hd
  cases hl with
  | one _ k l h =>
    refine no_slice hv h (m := zeros (padding (pos + l.length)) ++ zeros (8 * k) ++ (prefix1 ++ r')) (r := r) ?_
    rw [hd]
    simp only [List.append_assoc]
  | cons _ k l m h _ =>
    refine no_slice hv h (m := zeros (padding (pos + l.length)) ++ (zeros (8 * k) ++ m) ++ (prefix1 ++ r')) (r := r) ?_
    rw [hd]
    simp only [List.append_assoc]

/-- the P picture -/
def bitsP : List Bool := hdrP ++ byte ((sl 0 mbP).head ((cx 16 1).env picP) ++ ((codeP ⟨none, none⟩ blank).bits ++ []))

theorem partsPic {pos : Nat} (hp : pos % 8 = 0) (prev : Option Image) :
    Parts pos (picP.parts (cx 16 1) ⟨prev, none⟩ 1 1) bitsP := by
  have b1 := byte_length (encPic picP.hdr)
  have b2 := byte_length (encPicExt picE)
  have hs : ∀ {pos : Nat}, pos % 8 = 0 → SlicesCode ((cx 16 1).env picP) ⟨prev, none⟩ 1 1 pos blank [sl 0 mbP]
      (byte ((sl 0 mbP).head ((cx 16 1).env picP) ++ ((codeP ⟨none, none⟩ blank).bits ++ []))) := by
    intro pos hp
    have h := SlicesCode.cons (pos := pos) 0 (sliceP ⟨prev, none⟩ blank) .nil
    have e : ∀ l : List Bool, l ++ (zeros (padding (pos + l.length)) ++ (zeros (8 * 0) ++ ([] : List Bool))) = byte l := by
      intro l
      have : padding (pos + l.length) = padding l.length := by unfold padding; omega
      rw [this]
      simp [byte, zeros]
    rw [e] at h
    exact h
  have h := Parts.cons (P := Stuffed (encPic picP.hdr)) (stuffed_byte (encPic picP.hdr) hp)
    (.cons (P := Stuffed (encPicExt picE)) (stuffed_byte (encPicExt picE) (by omega))
      (.cons (P := ItemsPart 2 []) (b := []) .nil
        (.cons (P := fun pos b => SlicesCode ((cx 16 1).env picP) ⟨prev, none⟩ 1 1 pos blank [sl 0 mbP] b)
          (hs (by simp only [List.length_nil]; omega)) .nil)))
  exact parts_cast h rfl (by unfold bitsP hdrP; simp only [List.nil_append, List.append_nil, List.append_assoc])

/-- The I picture and the P picture before which a B picture is displayed: only the I picture can be displayed so far. -/
theorem begin2 : UpTo 1 1 0 none none (8 * 0) [⟨picI 16 1 [sl 0 mbI], []⟩, ⟨picP, []⟩] (bitsI ++ ([] ++ (bitsP ++ [])))
    [(picI 16 1 [sl 0 mbI]).image (cx 16 1) ⟨none, none⟩] := by
  have hI : bitsI.length % 8 = 0 := by decide +kernel
  exact UpTo.cons (base := 0) (base0 := 0) (σ := none) (g := ⟨picI 16 1 [sl 0 mbI], []⟩) okI (.inl rfl) rfl rfl
    rfl partsI .nil (.part (base0 := 1) (g := ⟨picP, []⟩) okP (.inr rfl) rfl (by decide) rfl (partsPic (by
      simp only [List.length_nil]; omega) _) .nil)

theorem second2 {pos : Nat} (hp : pos % 8 = 0) : UpTo 1 1 0 (some (cx 16 1)) none pos [⟨picG, []⟩] (bitsG ++ ([] ++ []))
    [picG.image (cx 16 1) ⟨none, none⟩] :=
  UpTo.cons (base := 0) (base0 := 0) (σ := some (cx 16 1)) (g := ⟨picG, []⟩) okG (.inl rfl) rfl rfl
    rfl (partsG hp) .nil .nil

/-- I and P picture, a damaged B picture; a group of pictures with an I picture and a damaged P picture; a group of pictures
with an I picture. -/
def stream2 : List Bool :=
  bitsI ++ bitsP ++ (badPic hdrB ++ (bitsG ++ (badPic hdrP ++ (bitsG ++ (bitsOf 32 0x1B7 ++ [true])))))

/-- Three of the six pictures are displayed: the I pictures. -/
example : ∃ f1 f2 f3 t, Viewing 1000 2 (VS.new ⟨stream2, 0, .eof, []⟩) [[f1], [f2], [f3]] t ∧
    Shows 1 1 f1 ((picI 16 1 [sl 0 mbI]).image (cx 16 1) ⟨none, none⟩) ∧
    Shows 1 1 f2 (picG.image (cx 16 1) ⟨none, none⟩) ∧ Shows 1 1 f3 (picG.image (cx 16 1) ⟨none, none⟩) ∧ t.br.bits = [true] := by
  have hI : bitsI.length % 8 = 0 := by decide +kernel
  have hG : bitsG.length % 8 = 0 := by decide +kernel
  have hP : bitsP.length % 8 = 0 := by decide +kernel
  have hb1 : (badPic hdrB).length % 8 = 0 := by decide +kernel
  have hb2 : (badPic hdrP).length % 8 = 0 := by decide +kernel
  have hG8 : ∃ u, bitsG = bitsOf 32 0x1B8 ++ u := ⟨bitsG.drop 32, by decide +kernel⟩
  obtain ⟨u, hu⟩ := hG8
  have r3 : ∀ {pos : Nat}, pos % 8 = 0 → Received 1 1 1000 .eof (cx 16 1) pos (bitsG ++ (bitsOf 32 0x1B7 ++ [true]))
      [[picG.image (cx 16 1) ⟨none, none⟩]] [true] := fun hp => .last closedG (second hp) (by decide +kernel)
  have r2 : ∀ {pos : Nat}, pos % 8 = 0 → Received 1 1 1000 .eof (cx 16 1) pos
      ((bitsG ++ ([] ++ [])) ++ (badPic hdrP ++ (bitsG ++ (bitsOf 32 0x1B7 ++ [true]))))
      [[picG.image (cx 16 1) ⟨none, none⟩], [picG.image (cx 16 1) ⟨none, none⟩]] [true] := by
    intro pos hp
    refine .bad (.inl closedG) (second2 hp) (by decide +kernel) (bad_picture okP rfl (partsP ?_) ?_ (by decide +kernel) (by decide +kernel)
      damaged ⟨_, by rw [hu, List.append_assoc]⟩) (r3 ?_)
    all_goals simp only [List.length_append, List.length_nil] at *; omega
  obtain ⟨fl, t, h1, h2, h3⟩ := C132_partial (stop := .eof) (fuel := 1000) (k := 2) (lead := 0) (Nat.le_refl _) (by decide) (by simp) begin2
    (by decide +kernel)
    (bad_picture okB rfl (partsB (by simp only [List.length_append, List.length_nil]; omega))
      (by simp only [List.length_append, List.length_nil]; omega) (by decide +kernel) (by decide +kernel) damagedB
      ⟨u ++ ([] ++ []) ++ (badPic hdrP ++ (bitsG ++ (bitsOf 32 0x1B7 ++ [true]))), by rw [hu]; simp only [List.append_assoc]⟩)
    (r2 (by simp only [List.length_append, List.length_nil] at *; omega))
  have e : zeros (8 * 0) ++ ((bitsI ++ ([] ++ (bitsP ++ []))) ++ (badPic hdrB ++ ((bitsG ++ ([] ++ [])) ++ (badPic hdrP ++ (bitsG ++ (bitsOf 32 0x1B7 ++ [true])))))) =
      stream2 := by
    unfold stream2
    simp only [List.append_nil, List.nil_append, List.append_assoc]
    rfl
  rw [e] at h1
  rcases h2 with _ | ⟨a1, h2⟩
  rcases h2 with _ | ⟨a2, h2⟩
  rcases h2 with _ | ⟨a3, h2⟩
  cases h2
  rcases a1 with _ | ⟨a1, z⟩
  cases z
  rcases a2 with _ | ⟨a2, z⟩
  cases z
  rcases a3 with _ | ⟨a3, z⟩
  cases z
  exact ⟨_, _, _, t, h1, a1, a2, a3, h3⟩

end ExRounds
end Mpeg.Video
