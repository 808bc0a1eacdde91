/-
C72, C73, C74: extension ids, the sequence display and picture temporal scalable extensions, sequences of extensions and
user data.
-/
import Verif.Video.ExtLemmas
import Verif.Video.HeaderTotal
namespace Mpeg.Video
open Spec

section
variable {pos : Nat} {stop : Err} {later : List (List Bool × Err)}

/-! ### C72 -/

/-- **C72** (sequence display extension): every field is reported as coded, the colour description exactly if it is
present; the parser stops on the next start code, after any stuffing. -/
theorem C72_display (h : SeqDisp) (hw : h.WF) (t : Tail) (ht : t.OK (pos + (encSeqDisp h).length)) :
    ∃ x, readSequenceDisplayExtension ⟨encSeqDisp h ++ t.bits, pos, stop, later⟩ =
        (.ok x, t.after (pos + (encSeqDisp h).length) stop later) ∧
      x.videoFormat = h.format ∧ x.displayHorizontalSize = h.width ∧ x.displayVerticalSize = h.height ∧
      (h.colour = none → x.colourDescription = false) ∧
      (∀ p c m, h.colour = some (p, c, m) → x.colourDescription = true ∧ x.colourPrimaries = p ∧
        x.transferCharacteristics = c ∧ x.matrixCoefficients = m) := by
  refine ⟨viewDisp h, readSequenceDisplayExtension_enc h hw t ht, rfl, rfl, rfl, fun hc => ?_, fun p c m hc => ?_⟩
  · unfold viewDisp; rw [hc]; rfl
  · unfold viewDisp; rw [hc]; exact ⟨rfl, rfl, rfl, rfl⟩

/-- **C72** (picture temporal scalable extension) -/
theorem C72_temporal (h : TempExt) (hw : h.WF) (t : Tail) (ht : t.OK (pos + (encTemp h).length)) :
    ∃ x, readPictureTemporalScalableExtension ⟨encTemp h ++ t.bits, pos, stop, later⟩ =
        (.ok x, t.after (pos + (encTemp h).length) stop later) ∧
      x.referenceSelectCode = h.select ∧ x.forwardTemporalReference = h.forward ∧
      x.backwardTemporalReference = h.backward :=
  ⟨viewTemp h, readTemp_enc h hw t ht, rfl, rfl, rfl⟩

/-- 720 x 576, PAL, BT.470 colours -/
example : (⟨1, some (5, 5, 5), 720, 576⟩ : SeqDisp).WF ∧ (⟨2, 1000, 3⟩ : TempExt).WF :=
  ⟨⟨by decide, fun c hc => by cases hc; decide, by decide, by decide⟩, by decide⟩

/-! ### C73 -/

/-- **C73** (partial): any sequence of user data and extensions of a place in the stream (display extensions after the
sequence extension; quantiser matrix and temporal scalable extensions after the picture coding extension; only user data
after a group of pictures header), in any order and number, is consumed completely: the decoder stands on the start code
that follows, its matrices are those of the quantiser matrix extensions in their order, and nothing else has changed.

Partial: the copyright, picture display, spatial scalable and sequence scalable extensions are missing, see
`C73_rejected`. -/
theorem C73_partial {i c : Nat} (hc : c < 256) (h1 : c ≠ 0xB5) (h2 : c ≠ 0xB2) {rest : List Bool} {its : List Item}
    {bits : List Bool} (h : ItemsCode i pos its bits) (ha : pos % 8 = 0) {s : VS} {q : Mats}
    (hq : s.qm = ⟨q.m0, q.m1, q.m2, q.m3⟩)
    (hb : s.br = ⟨bits ++ (prefix1 ++ (bitsOf 8 c ++ rest)), pos, stop, later⟩) {fuel : Nat}
    (hf : 2 * its.length + 1 ≤ fuel) :
    ∃ q', q' = its.foldl Item.load q ∧
      extensionAndUserData i fuel s = (.ok (), { s with
        br := ⟨prefix1 ++ (bitsOf 8 c ++ rest), pos + bits.length, stop, later⟩
        qm := ⟨q'.m0, q'.m1, q'.m2, q'.m3⟩ }) :=
  ⟨_, rfl, items_run hc h1 h2 h ha hq hb hf⟩

/-- **C73**: the other extensions of the standard make the decoder panic: sequence scalable (5) after the sequence
extension; copyright (4), picture display (7) and picture spatial scalable (9) after the picture coding extension. -/
theorem C73_rejected {i id fuel : Nat} (hid : (i = 0 ∧ id = 5) ∨ (i = 2 ∧ (id = 4 ∨ id = 7 ∨ id = 9))) (r : List Bool)
    (hr : i = 0 → 6 ≤ r.length) {s : VS} (hb : s.br = ⟨bitsOf 32 0x1B5 ++ (bitsOf 4 id ++ r), pos, stop, later⟩)
    (hf : 2 ≤ fuel) : (extensionAndUserData i fuel s).1 = .panic := by
  obtain ⟨fuel, rfl⟩ : ∃ f, fuel = f + 2 := ⟨fuel - 2, by omega⟩
  have hp : VS.lift (BR.peek 32) s = (.ok 0x1B5, s) := vpeek_code s (by decide) hb
  have e0 : Go.ignoreErr (VS.lift (BR.skip 32)) s = (.ok (), { s with br := ⟨bitsOf 4 id ++ r, pos + 32, stop, later⟩ }) := by
    unfold Go.ignoreErr
    rw [lift_ok (by rw [hb]; exact BR.skip_bitsOf 32 _)]
  have h1 : VS.lift (BR.peek 4) { s with br := ⟨bitsOf 4 id ++ r, pos + 32, stop, later⟩ } =
      (.ok id, { s with br := ⟨bitsOf 4 id ++ r, pos + 32, stop, later⟩ }) := by
    refine lift_ok ?_
    have := BR.peek_bitsOf (r := r) (pos := pos + 32) (stop := stop) (later := later) 4 id
    rw [Nat.mod_eq_of_lt (by omega)] at this
    exact this
  have hstep : (extensionDataStep i s).1 = .panic := by
    unfold extensionDataStep
    rw [Go.bind_ok e0]
    rcases hid with ⟨rfl, rfl⟩ | ⟨rfl, hid⟩
    · rw [if_pos rfl, Go.bind_ok h1, if_neg (by decide)]
      show (readSequenceScalableExtension ⟨bitsOf 4 5 ++ r, pos + 32, stop, later⟩).1 = .panic
      unfold readSequenceScalableExtension
      have hr6 := hr rfl
      rw [Go.bind_ok (extensionID_bits 5 (by decide))]
      have a1 : BR.read 2 ⟨r, pos + 32 + 4, stop, later⟩ = (.ok (natOfBits (r.take 2)), ⟨r.drop 2, pos + 32 + 4 + 2, stop, later⟩) := by
        rw [BR.read_ok (by show 2 ≤ r.length; omega)]; rfl
      have a2 : BR.read 4 ⟨r.drop 2, pos + 32 + 4 + 2, stop, later⟩ =
          (.ok (natOfBits ((r.drop 2).take 4)), ⟨(r.drop 2).drop 4, pos + 32 + 4 + 2 + 4, stop, later⟩) := by
        rw [BR.read_ok (by show 4 ≤ (r.drop 2).length; rw [List.length_drop]; omega)]; rfl
      rw [Go.bind_ok a1, Go.bind_ok a2]
      rfl
    · rw [if_neg (by decide), if_pos rfl, Go.bind_ok h1, if_neg (by show ¬ id = 3; omega),
        if_pos (by show id = 4 ∨ id = 7 ∨ id = 9; omega)]
      rfl
  have hi1 : i ≠ 1 := by omega
  have hd : (extensionData i (fuel + 1) s).1 = .panic := by
    unfold extensionData
    rw [Go.bind_ok hp, if_pos rfl, Go.bind_panic (Prod.ext hstep rfl)]
  unfold extensionAndUserData
  rw [Go.bind_ok hp, if_pos rfl, if_pos hi1, Go.bind_panic (Prod.ext hd rfl)]

/-- User data `48 69`, a quantiser matrix extension with a flat non intra matrix, a temporal scalable extension and user
data again, after a picture coding extension. -/
example : ∃ bits, ItemsCode 2 0 [.user [0x48, 0x69], .quant ⟨none, some (List.replicate 64 20), none, none⟩,
    .temporal ⟨1, 2, 3⟩, .user []] bits := by
  have u1 : UserOK [0x48, 0x69] := ⟨by decide, by decide +kernel⟩
  refine ⟨_, .user u1 (.ext (pad := []) 1 ⟨rfl, by decide +kernel⟩ (by intro d h; cases h) (by decide +kernel)
    (.ext (pad := [true, true, true, true, true]) 0 ⟨rfl, by decide⟩ (by intro d h; cases h) (by decide +kernel)
      (.user ⟨by decide, by intro j hj; cases hj⟩ .nil)))⟩

/-- The last of several matrices counts. -/
example (q : Mats) : ([Item.quant ⟨some (List.replicate 64 20), none, none, none⟩, .user [1],
    .quant ⟨none, none, some (List.replicate 64 30), none⟩].foldl Item.load q) =
    ⟨List.replicate 64 20, q.m1, List.replicate 64 30, q.m3⟩ := rfl

/-! ### C74 -/

/-- Table 6-2 of ISO 13818-2: the reserved values of `extension_start_code_identifier`. -/
def reservedIds : List Nat := [0, 6, 11, 12, 13, 14, 15]

/-- **C74** (partial): `IsReserved` agrees with the table, except for 11. -/
theorem C74_partial (id : Nat) (h : id < 16) (h11 : id ≠ 11) : isReservedID id = decide (id ∈ reservedIds) := by
  revert h11
  revert id
  decide

/-- **C74** is false for 11, which the table reserves. -/
theorem C74_false : 11 ∈ reservedIds ∧ isReservedID 11 = false := by decide

end
end Mpeg.Video
