/-
C130: damage in the slices of a picture that goes unnoticed stays in the macroblock rows of the damaged slices.
-/
import Verif.Video.DamageLemmas
import Verif.Video.RefProps
import Verif.Video.SynProps
namespace Mpeg.Video
open Spec

variable {stop : Err} {later : List (List Bool × Err)}

/-- **C130** A slice with any contents whatsoever (whether it is decoded, rejected or makes the decoder panic) changes no sample
above its macroblock row: neither the samples nor the size of the picture being decoded. -/
theorem C130_above {e : PicEnv} {row : Nat} (hrow : row < 175) {s : MB} {t : List Bool}
    (hb : s.br.bits = bitsOf 32 (0x101 + row) ++ t) {W H : Nat} (hg : Geometry s.frame W H) :
    Geometry (slice e s).2.frame W H ∧ ∀ c x y, x < side c * W → y / side c < row →
      sampleOf (slice e s).2.frame c x y = sampleOf s.frame c x y :=
  have h := slice_below (e := e) hrow hb
  ⟨h.geometry hg, fun _ _ _ hx hy => h.sample hg hx hy⟩

/-- **C130** (partial): a picture is sent as the slices `ps`, and the contents of any number of them are replaced by other bits that
still look like a slice, possibly of another row.  Unless the decoder panics, the picture is decoded without error, the decoder
stands on the start code behind the picture, and every sample that is `unharmed` has the value it was sent with: one that is
given its value by an intact slice such that all damaged slices behind that one lie below it.

`s` is the decoder with what arrives; the same decoder with what was sent returns `f0`.

Partial: as C71; the damaged bits are a slice by its syntax (otherwise an error is reported, C97, and there is no picture). -/
theorem C130_partial {s : VS} {sh : SequenceHeader} {se : SequenceExtension} {ph : PictureHeader}
    {pce : PictureCodingExtension} (h1 : s.sh = some sh) (h2 : s.se = some se) (h3 : s.ph = some ph)
    (h4 : s.pce = some pce) {r : RefPics} {W H : Nat} (hW : W = (s.size.1.toNat + 15) / 16)
    (hH : H = (s.size.2.toNat + 15) / 16) (hc : Covered (s.env sh se ph pce)) (hrr : RefsRel W H (s.env sh se ph pce) r)
    (s1 : Samples r.past) (s2 : Samples r.future) {c : Nat} (hc8 : c < 256) (hcs : ¬ (1 ≤ c ∧ c ≤ 0xAF))
    {ps : List DPiece} {rest : List Bool} {pos : Nat} (hpos : pos % 8 = 0) (hne : ps ≠ [])
    (hok : ∀ p ∈ ps, p.OK (s.env sh se ph pce) r W H)
    (hbr : s.br = ⟨receivedBits ps ++ (prefix1 ++ (bitsOf 8 c ++ rest)), pos, stop, later⟩)
    (hp : (pictureData s).1 ≠ .panic) :
    ∃ f f0,
      pictureData s = (.ok f, { s with br := ⟨prefix1 ++ (bitsOf 8 c ++ rest), pos + (receivedBits ps).length, stop, later⟩ }) ∧
      pictureData { s with br := ⟨sentBits ps ++ (prefix1 ++ (bitsOf 8 c ++ rest)), pos, stop, later⟩ } =
        (.ok f0, { s with br := ⟨prefix1 ++ (bitsOf 8 c ++ rest), pos + (sentBits ps).length, stop, later⟩ }) ∧
      Geometry f W H ∧ Geometry f0 W H ∧
      ∀ a x y, a < 3 → x < side a * W → y < side a * H → unharmed ph.pictureCodingType a x y True ps →
        sampleOf f a x y = sampleOf f0 a x y := by
  have k2 : SlicesCode (s.env sh se ph pce) r W H pos blank (ps.map (·.slice)) (sentBits ps) := by
    have := slices_join (ps := ps.map fun p => (p.slice, p.bits)) (P := blank) hpos (by
      intro p hp
      obtain ⟨q, hq, rfl⟩ := List.mem_map.1 hp
      exact (hok q hq).1)
    simpa [sentBits, List.flatMap_map, Function.comp_def] using this
  obtain ⟨f0, g1, g2⟩ := C71_partial
    (s := { s with br := ⟨sentBits ps ++ (prefix1 ++ (bitsOf 8 c ++ rest)), pos, stop, later⟩ })
    h1 h2 h3 h4 hW hH hc hrr s1 s2 hc8 hcs (by simpa using hne) k2 rfl
  have hcf : se.chromaFormat = 1 := hc.chroma
  have hshow := created_blank s.size.1.toNat s.size.2.toNat
  rw [← hW, ← hH] at hshow
  have hlen : ps.length ≤ fuelOf s.br := by
    have hl : ∀ qs : List DPiece, (∀ q ∈ qs, q.OK (s.env sh se ph pce) r W H) → qs.length ≤ (receivedBits qs).length := by
      intro qs
      induction qs with
      | nil => intro _; exact Nat.le_refl _
      | cons q qs ih =>
        intro hq
        obtain ⟨c, t, -, ht⟩ := piece_start (hq q List.mem_cons_self)
        have := ih fun q h => hq q (List.mem_cons_of_mem _ h)
        have e1 : (receivedBits (q :: qs)).length = q.received.length + (receivedBits qs).length := List.length_append
        have e2 : 24 ≤ q.received.length := by rw [ht, List.length_append]; exact Nat.le_add_right _ _
        rw [e1, List.length_cons]
        omega
    have := hl ps hok
    rw [hbr]
    unfold fuelOf
    simp only [List.length_append]
    omega
  rcases sliceLoop_damaged (stop := stop) (later := later) hc hrr s1 s2 hc8 hcs rest ps hok hne pos blank blank (fuelOf s.br)
    ⟨s.br, DcPred.reset pce.intraDCPrecision, MVD.init, 0, createFrameBuffer s.size.1.toNat s.size.2.toNat 1⟩ hpos hlen hshow hbr with
    h | ⟨m', Q, k1, k2, k3, k4⟩
  · exfalso
    apply hp
    unfold pictureData
    rw [h1, h2, h3, h4]
    dsimp only
    rw [hcf]
    have : ((do sliceLoop (s.env sh se ph pce) (fuelOf s.br); MB.lift nextStartCode : Go MB Unit)
        ⟨s.br, DcPred.reset pce.intraDCPrecision, MVD.init, 0, createFrameBuffer s.size.1.toNat s.size.2.toNat 1⟩).1 = .panic :=
      Reads.bind_panic' h
    unfold VS.env at this
    split <;> rename_i heq <;> rw [heq] at this <;> first | rfl | cases this
  · have hb8 : (pos + (receivedBits ps).length) % 8 = 0 := by
      have hl : ∀ qs : List DPiece, (∀ q ∈ qs, q.OK (s.env sh se ph pce) r W H) → (receivedBits qs).length % 8 = 0 := by
        intro qs
        induction qs with
        | nil => intro _; rfl
        | cons q qs ih =>
          intro hq
          have e1 : (receivedBits (q :: qs)).length = q.received.length + (receivedBits qs).length := List.length_append
          have e2 := piece_bytes (hq q List.mem_cons_self)
          have e3 := ih fun q h => hq q (List.mem_cons_of_mem _ h)
          omega
      have := hl ps hok
      omega
    have g4 : nextStartCode m'.br = (.ok (), m'.br) := by
      rw [k2]
      have := nextStartCode_tail (stop := stop) (later := later) (pos := pos + (receivedBits ps).length) ⟨[], 0, bitsOf 8 c ++ rest⟩
        (by unfold Tail.OK padding; rw [hb8]; rfl)
      simpa [Tail.bits, Tail.after, zeros] using this
    have g5 : (do sliceLoop (s.env sh se ph pce) (fuelOf s.br); MB.lift nextStartCode : Go MB Unit)
        ⟨s.br, DcPred.reset pce.intraDCPrecision, MVD.init, 0, createFrameBuffer s.size.1.toNat s.size.2.toNat 1⟩ =
        (.ok (), m') := by
      rw [Go.bind_ok k1]
      exact mlift_run g4
    refine ⟨m'.frame, f0, ?_, g1, k3.1, g2.1, fun a x y ha hx hy hu => ?_⟩
    · unfold pictureData
      rw [h1, h2, h3, h4]
      dsimp only
      rw [hcf]
      unfold VS.env at g5
      rw [g5]
      dsimp only
      rw [k2]
    · rw [k3.2 a x y ha hx hy, g2.2 a x y ha hx hy]
      exact (k4 a x y ha hx hy True (fun _ => rfl) hu).symm

/-! ### pictures that consist of all their macroblocks, in order -/

theorem unharmed_mono {pct c x y : Nat} : ∀ (ps : List DPiece) {A B : Prop}, (A → B) → unharmed pct c x y A ps → unharmed pct c x y B ps
  | [], _, _, h, hu => h hu
  | p :: ps, A, B, h, hu => by
    unfold unharmed at hu ⊢
    cases hd : p.damage with
    | none => rw [hd] at hu; exact unharmed_mono ps (Or.imp_left h) hu
    | some d => rw [hd] at hu; exact unharmed_mono ps (And.imp_left h) hu

/-- A sample in a row without damaged slices is unharmed behind the slices above that row. -/
theorem unharmed_row {pct c x y : Nat} : ∀ (ps : List DPiece), (∀ p ∈ ps, ∀ d, p.damage = some d →
    d.1 = p.slice.row ∧ p.slice.row ≠ y / side c) → ps.Pairwise (fun p q => p.slice.row ≤ q.slice.row) →
    (∀ A : Prop, A → (∀ p ∈ ps, y / side c < p.slice.row ∨ p.damage = none) → unharmed pct c x y A ps) ∧
    ((∃ p ∈ ps, p.damage = none ∧ p.slice.Covers pct c x y) → ∀ A : Prop, unharmed pct c x y A ps)
  | [], _, _ => ⟨fun _ h _ => h, fun ⟨p, hp, _⟩ => by cases hp⟩
  | p :: ps, hd, hs => by
    obtain ⟨i1, i2⟩ := unharmed_row (pct := pct) (x := x) ps (fun q hq => hd q (List.mem_cons_of_mem _ hq)) (List.pairwise_cons.1 hs).2
    have hs1 := (List.pairwise_cons.1 hs).1
    refine ⟨fun A hA hb => ?_, fun ⟨q, hq, hn, hcov⟩ A => ?_⟩
    · unfold unharmed
      have ht := fun q hq => hb q (List.mem_cons_of_mem _ hq)
      cases hk : p.damage with
      | none => exact i1 _ (.inl hA) ht
      | some d =>
        obtain ⟨e1, e2⟩ := hd p List.mem_cons_self d hk
        rcases hb p List.mem_cons_self with h | h
        · exact i1 _ ⟨hA, by omega, fun hcov => e2 hcov.1.symm⟩ ht
        · rw [h] at hk; cases hk
    · unfold unharmed
      rcases List.mem_cons.1 hq with rfl | hq'
      · rw [hn]
        refine i1 _ (.inr hcov) fun q' hq' => ?_
        have hle := hs1 q' hq'
        cases hk : q'.damage with
        | none => exact .inr rfl
        | some d =>
          have := (hd q' (List.mem_cons_of_mem _ hq') d hk).2
          have hrow := hcov.1
          left
          omega
      · cases hk : p.damage with
        | none => exact i2 ⟨q, hq', hn, hcov⟩ _
        | some d => exact i2 ⟨q, hq', hn, hcov⟩ _

/-- **C130** (partial), for pictures as the standard wants them (slices in the order of their rows): if the damaged slices stay in
their rows, every sample of a row without damaged slices that is coded by some slice has the value it was sent with.  So damage
that is not noticed does not leave the macroblock rows in which it occurs.

Partial: as `C130_partial`; within its row, a damaged slice may destroy the macroblocks of other slices (`C130_row_false`). -/
theorem C130_rows_partial {s : VS} {sh : SequenceHeader} {se : SequenceExtension} {ph : PictureHeader}
    {pce : PictureCodingExtension} (h1 : s.sh = some sh) (h2 : s.se = some se) (h3 : s.ph = some ph)
    (h4 : s.pce = some pce) {r : RefPics} {W H : Nat} (hW : W = (s.size.1.toNat + 15) / 16)
    (hH : H = (s.size.2.toNat + 15) / 16) (hc : Covered (s.env sh se ph pce)) (hrr : RefsRel W H (s.env sh se ph pce) r)
    (s1 : Samples r.past) (s2 : Samples r.future) {c : Nat} (hc8 : c < 256) (hcs : ¬ (1 ≤ c ∧ c ≤ 0xAF))
    {ps : List DPiece} {rest : List Bool} {pos : Nat} (hpos : pos % 8 = 0) (hne : ps ≠ [])
    (hok : ∀ p ∈ ps, p.OK (s.env sh se ph pce) r W H)
    (horder : ps.Pairwise fun p q => p.slice.row ≤ q.slice.row) (hrows : ∀ p ∈ ps, ∀ d, p.damage = some d → d.1 = p.slice.row)
    (hbr : s.br = ⟨receivedBits ps ++ (prefix1 ++ (bitsOf 8 c ++ rest)), pos, stop, later⟩)
    (hp : (pictureData s).1 ≠ .panic) :
    ∃ f f0,
      pictureData s = (.ok f, { s with br := ⟨prefix1 ++ (bitsOf 8 c ++ rest), pos + (receivedBits ps).length, stop, later⟩ }) ∧
      pictureData { s with br := ⟨sentBits ps ++ (prefix1 ++ (bitsOf 8 c ++ rest)), pos, stop, later⟩ } =
        (.ok f0, { s with br := ⟨prefix1 ++ (bitsOf 8 c ++ rest), pos + (sentBits ps).length, stop, later⟩ }) ∧
      ∀ a x y, a < 3 → x < side a * W → y < side a * H → (∀ p ∈ ps, p.damage ≠ none → p.slice.row ≠ y / side a) →
        (∃ p ∈ ps, p.slice.Covers ph.pictureCodingType a x y) → sampleOf f a x y = sampleOf f0 a x y := by
  obtain ⟨f, f0, g1, g2, -, -, g3⟩ := C130_partial h1 h2 h3 h4 hW hH hc hrr s1 s2 hc8 hcs hpos hne hok hbr hp
  refine ⟨f, f0, g1, g2, fun a x y ha hx hy hd ⟨p, hp, hcov⟩ => g3 a x y ha hx hy ?_⟩
  have hnone : p.damage = none := by
    cases hk : p.damage with
    | none => rfl
    | some d => exact absurd hcov.1.symm (hd p hp (by rw [hk]; exact Option.some_ne_none _))
  exact (unharmed_row ps (fun q hq d hk => ⟨hrows q hq d hk, hd q hq (by rw [hk]; exact Option.some_ne_none _)⟩) horder).2
    ⟨p, hp, hnone, hcov⟩ True

/-! ### an I picture of 2 × 2 macroblocks

The first row is sent as two slices of one macroblock each, the second row as a slice of its first macroblock.  The second
slice is damaged: what arrives has macroblocks at addresses 0 and 2, the latter of which is beyond the end of the row. -/

namespace DamageEx
def sh : SequenceHeader := ⟨32, 32, 1, 3, 100, 20, false, false, false, [], []⟩
def e : PicEnv := { SynEx.e 1 with sh := sh, past := none }
def r : RefPics := ⟨none, none⟩

theorem covered : Covered e :=
  ⟨rfl, rfl, .inr rfl, fun h => (by cases h), by decide, fun s t hs ht => by
    rcases (show s = 0 ∨ s = 1 by omega) with rfl | rfl <;> rcases (show t = 0 ∨ t = 1 by omega) with rfl | rfl <;>
      decide, by decide +kernel, by decide +kernel⟩
theorem refs : RefsRel 2 2 e r := ⟨fun h => absurd rfl h, fun h => absurd h (by decide)⟩

/-- an intra macroblock with DC values 133 (luma), 125, 128 -/
def mb (incr : Nat) : MbData := ⟨incr, ⟨false, false, false, false, true⟩, false, 0, fun _ _ => 0, 0,
  fun i => if i < 4 then [133] else if i = 4 then [125] else [128]⟩
/-- a slice of one macroblock -/
def sl (row incr : Nat) : SliceData := ⟨row, 5, none, [mb incr]⟩

theorem dc0 (row v : Nat) : ((((sl row v).start e blank).skip e r row none (mb v).incr).begin e (mb v).type).dc = fun _ => 128 := by
  unfold DState.begin DState.skip
  split <;> rfl

def code (row v : Nat) (a : List Bool) (h : (a, v) ∈ isoAddress) :
    MbCode e ((((sl row v).start e blank).skip e r row none (mb v).incr).begin e (mb v).type) (mb v) where
  k := 0
  v := v
  addr := a
  type := [true]
  vecs := fun _ _ => []
  pattern := []
  blocks := Ex.blocks2
  hIncr := by show v = _; omega
  hAddr := h
  hType := by show ([true], (⟨false, false, false, false, true⟩ : MacroblockType)) ∈ isoType 1; decide +kernel
  hDct := fun h => by cases h
  hQ := by show 0 < 32; decide
  hVec := fun s t hs ht h => by
    rcases (show s = 0 ∨ s = 1 by omega) with rfl | rfl <;> cases h
  hPattern := fun h => by cases h
  hCoded := fun i hi _ => by
    rw [dc0]
    rcases (show i = 0 ∨ i = 1 ∨ i = 2 ∨ i = 3 ∨ i = 4 ∨ i = 5 by omega) with rfl | rfl | rfl | rfl | rfl | rfl
    · exact BlockCode.intra (format := 0) (cc := 0) (pred := 128) 5 (cw (5, 3)) [] [] [true, false] rfl (by decide) (by decide +kernel) (.nil _)
        (by decide +kernel) (by decide)
    · exact BlockCode.intra (format := 0) (cc := 0) (pred := 133) 0 (cw (4, 3)) [] [] [true, false] rfl (by decide) (by decide +kernel) (.nil _)
        (by decide +kernel) (by decide)
    · exact BlockCode.intra (format := 0) (cc := 0) (pred := 133) 0 (cw (4, 3)) [] [] [true, false] rfl (by decide) (by decide +kernel) (.nil _)
        (by decide +kernel) (by decide)
    · exact BlockCode.intra (format := 0) (cc := 0) (pred := 133) 0 (cw (4, 3)) [] [] [true, false] rfl (by decide) (by decide +kernel) (.nil _)
        (by decide +kernel) (by decide)
    · exact BlockCode.intra (format := 0) (cc := 1) (pred := 128) (-3) (cw (2, 2)) [] [] [true, false] rfl (by decide) (by decide +kernel)
        (.nil _) (by decide +kernel) (by decide)
    · exact BlockCode.intra (format := 0) (cc := 2) (pred := 128) 0 (cw (0, 2)) [] [] [true, false] rfl (by decide) (by decide +kernel) (.nil _)
        (by decide +kernel) (by decide)
  hUncoded := fun i hi h => by cases h
  hDc := fun i hi _ => by
    have : ∀ i < 6, -2 ^ 28 ≤ ((mb 1).qf i).getD 0 0 ∧ ((mb 1).qf i).getD 0 0 < 2 ^ 28 := by decide +kernel
    exact this i hi

theorem sliceCode {row v : Nat} (hr : row < 2) (hv1 : 1 ≤ v) (hv : v ≤ 2) (a : List Bool) (h : (a, v) ∈ isoAddress) :
    SliceCode e r 2 2 blank (sl row v) ((sl row v).head e ++ ((code row v a h).bits ++ [])) where
  row := hr
  maxRow := by show row < 175; omega
  q := by show 5 < 32; decide
  info := fun i h => by cases h
  nonempty := by simp [sl]
  body := ⟨_, .cons
    { inPicture := by show v - 1 < 2; omega
      skipP := fun a h => by cases h
      skipB := fun a h => by cases h
      vectors := ⟨fun h => (by cases h), fun h => (by cases h)⟩
      frameDct := fun h => by cases h } (code row v a h) .nil, rfl⟩

theorem addr1 : (cw (1, 1), 1) ∈ isoAddress := by decide +kernel
theorem addr2 : (cw (3, 3), 2) ∈ isoAddress := by decide +kernel

def bits (row v : Nat) (a : List Bool) (h : (a, v) ∈ isoAddress) : List Bool :=
  let b := (sl row v).head e ++ ((code row v a h).bits ++ [])
  b ++ (zeros (padding (0 + b.length)) ++ (zeros (8 * 0) ++ []))

/-- an intra macroblock with other coefficients -/
def bad (a : List Bool) : List Bool :=
  escapes 0 ++ (a ++ ([true] ++ ([] ++ ([] ++ ([] ++ ([] ++ ([] ++ []))))))) ++
    ([] ++ (SynEx.blkY ++ (SynEx.blkY ++ (SynEx.blkY ++ (SynEx.blkY ++ (SynEx.blkC ++ (SynEx.blkC ++ [])))))))

theorem badWord {a : List Bool} {v : Nat} (h : (a, v) ∈ isoAddress) : MbWord e (bad a) := by
  refine .mk ⟨false, false, false, false, true⟩ _ [] _ 0
    (.mk 0 v _ a [true] [] [] [] [] [] [] h (by decide +kernel) rfl rfl rfl rfl rfl rfl) rfl ?_
  exact .coded _ _ _ _ rfl (SynEx.wordY 0 rfl) <| .coded _ _ _ _ rfl (SynEx.wordY 1 rfl) <| .coded _ _ _ _ rfl (SynEx.wordY 2 rfl) <|
    .coded _ _ _ _ rfl (SynEx.wordY 3 rfl) <| .coded _ _ _ _ rfl (SynEx.wordC 4 (by decide)) <|
    .coded _ _ _ _ rfl (SynEx.wordC 5 (by decide)) <| .nil _

/-- what arrives: macroblocks at addresses 0 and 2 of the first row -/
def word : List Bool := bitsOf 32 (0x101 + 0) ++ ([] ++ (bitsOf 5 8 ++ (infoBits none ++ (bad (cw (1, 1)) ++ bad (cw (3, 3))))))
def damaged : List Bool := word ++ (zeros (padding word.length) ++ zeros (8 * 1))

theorem looks : LooksLikeSlice e 0 damaged :=
  ⟨word, 1, _, .mk 0 [] (bitsOf 5 8) _ none (by decide) rfl (length_bitsOf ..) (fun i hi => by cases hi)
    (.cons _ _ (.inl (badWord addr1)) (.one _ (.inl (badWord addr2)))), by decide, rfl, rfl⟩

def ps : List DPiece := [⟨sl 0 1, bits 0 1 _ addr1, none⟩, ⟨sl 0 2, bits 0 2 _ addr2, some (0, damaged)⟩,
  ⟨sl 1 1, bits 1 1 _ addr1, none⟩]

theorem ok : ∀ p ∈ ps, p.OK e r 2 2 := by
  intro p hp
  unfold ps at hp
  simp only [List.mem_cons, List.not_mem_nil, or_false] at hp
  rcases hp with rfl | rfl | rfl
  · exact ⟨.cons 0 (sliceCode (by decide) (by decide) (by decide) _ addr1) .nil, fun d h => by cases h⟩
  · exact ⟨.cons 0 (sliceCode (by decide) (by decide) (by decide) _ addr2) .nil, fun d h => by cases h; exact looks⟩
  · exact ⟨.cons 0 (sliceCode (by decide) (by decide) (by decide) _ addr1) .nil, fun d h => by cases h⟩

/-- the decoder in front of the slices -/
def vs (bits : List Bool) : VS :=
  { VS.new ⟨bits ++ (prefix1 ++ (bitsOf 8 0 ++ [])), 0, .eof, []⟩ with
    sh := some sh, se := some SynEx.se, ph := some (SynEx.ph 1), pce := some SynEx.pce, qm := SynEx.qm }

/-- the sample at `(x, y)` of the picture that is decoded, none if there is none -/
def lumaAt (bits : List Bool) (x y : Nat) : Option Nat :=
  match pictureData (vs bits) with
  | (.ok f, _) => some (sampleOf f 0 x y)
  | _ => none

/-- The hypotheses of `C130_rows_partial` are met; the damage goes unnoticed. -/
theorem decoded : (pictureData (vs (receivedBits ps))).1 ≠ .panic := by
  intro h
  have : (lumaAt (receivedBits ps) 0 0).isSome = true := by decide +kernel
  unfold lumaAt at this
  split at this
  · rename_i heq; rw [heq] at h; cases h
  · cases this

/-- In the second row, nothing is harmed: neither here, where the damaged slice has written to line 16 ... -/
example : ∃ f f0 s' s0', pictureData (vs (receivedBits ps)) = (.ok f, s') ∧ pictureData (vs (sentBits ps)) = (.ok f0, s0') ∧
    ∀ x < 16, sampleOf f 0 x 16 = sampleOf f0 0 x 16 := by
  obtain ⟨f, f0, g1, g2, g3⟩ := C130_rows_partial (s := vs (receivedBits ps)) (stop := .eof) (later := []) (c := 0) (rest := []) (pos := 0)
    (ps := ps) (r := r) (W := 2) (H := 2) rfl rfl rfl rfl (by decide) (by decide) covered refs (fun _ h => by cases h) (fun _ h => by cases h)
    (by decide) (by decide) rfl (by simp [ps]) ok (by decide) (fun p hp d hd => by
      unfold ps at hp
      simp only [List.mem_cons, List.not_mem_nil, or_false] at hp
      rcases hp with rfl | rfl | rfl <;> cases hd
      rfl) rfl decoded
  refine ⟨f, f0, _, _, g1, g2, fun x hx => g3 0 x 16 (by decide) (by show x < 16 * 2; omega) (by decide) (fun p hp hd => ?_) ?_⟩
  · unfold ps at hp
    simp only [List.mem_cons, List.not_mem_nil, or_false] at hp
    rcases hp with rfl | rfl | rfl
    · exact absurd rfl hd
    · decide
    · exact absurd rfl hd
  · refine ⟨⟨sl 1 1, bits 1 1 _ addr1, none⟩, by simp [ps], rfl, ?_⟩
    show x / 16 ∈ [0]
    rw [Nat.div_eq_of_lt hx]
    exact List.mem_cons_self

end DamageEx

/-- **C130** Within its row a damaged slice may destroy macroblocks of other slices: the first macroblock of the picture above
was received without damage, but is not decoded to what was sent. -/
theorem C130_row_false : DamageEx.ps.head?.map (·.damage) = some none ∧
    (DamageEx.lumaAt (sentBits DamageEx.ps) 0 0).isSome = true ∧ (DamageEx.lumaAt (receivedBits DamageEx.ps) 0 0).isSome = true ∧
    DamageEx.lumaAt (sentBits DamageEx.ps) 0 0 ≠ DamageEx.lumaAt (receivedBits DamageEx.ps) 0 0 := by
  refine ⟨rfl, ?_, ?_, ?_⟩ <;> decide +kernel

end Mpeg.Video
