/-
Property C95: the header parsers accept exactly the headers of the standard.
-/
import Verif.Video.AcceptLemmas
import Verif.Video.ExtProps
set_option linter.all false
namespace Mpeg.Video
open Spec
open _root_.Mpeg.BR (Took)

/-- The unread bits begin with a header from `codes` and what `next_start_code` accepts behind it. -/
def Wellformed (codes : List Bool → Prop) (s : BR) : Prop :=
  ∃ l t, codes l ∧ Tail.OK t (s.pos + l.length) ∧ s.bits = l ++ t.bits

theorem mk_of_bits {s : BR} {l : List Bool} (h : s.bits = l) : s = ⟨l, s.pos, s.stop, s.later⟩ := by
  cases s; simp only at h; rw [h]

theorem store_inv {α : Type} {m : Go BR α} {put : VS → Option α → VS} {s s' : VS} {u : Unit}
    (hput : ∀ s a, (put s a).br = s.br) (h : storeHeader m put s = (.ok u, s')) :
    ∃ a b, m s.br = (.ok a, b) ∧ nextStartCode b = (.ok (), s'.br) := by
  unfold storeHeader at h
  cases hm : VS.lift m s with
  | mk r s1 =>
    rw [hm] at h
    cases r with
    | ok a =>
      obtain ⟨k1, -⟩ := lift_inv hm
      simp only at h
      obtain ⟨k2, -⟩ := lift_inv h
      rw [hput] at k2
      exact ⟨a, _, k1, k2⟩
    | err e => cases h
    | panic => cases h
    | hang => cases h

/-- **C95**, sequence headers: exactly the sequence headers of the standard (6.2.2.1), followed by `next_start_code`, are
accepted. -/
theorem C95_sequence (s : VS) :
    (∃ s', sequenceHeader s = (.ok (), s')) ↔ Wellformed (fun l => ∃ e : Seq, e.WF ∧ l = encSeq e) s.br := by
  constructor
  · rintro ⟨s', h⟩
    unfold sequenceHeader at h
    obtain ⟨x, s1, h1, -⟩ := Go.bind_eq_ok h
    obtain ⟨k1, -⟩ := lift_inv h1
    obtain ⟨e, t, w, -, o1, o2, -⟩ := readSequenceHeader_inv k1
    exact ⟨_, t, ⟨e, w, rfl⟩, o1, o2⟩
  · rintro ⟨_, t, ⟨e, w, rfl⟩, o1, o2⟩
    obtain ⟨x, h, -⟩ := C36_partial e w t o1 s (mk_of_bits o2)
    exact ⟨_, h⟩

/-- **C95**, sequence extensions: exactly those of the standard (6.2.2.3) with the marker bit set are accepted. -/
theorem C95_extension (s : VS) :
    (∃ s', sequenceExtension s = (.ok (), s')) ↔
      Wellformed (fun l => ∃ e : SeqExt, e.WF ∧ e.marker = true ∧ l = encSeqExt e) s.br := by
  constructor
  · rintro ⟨s', h⟩
    unfold sequenceExtension at h
    obtain ⟨a, b, h1, h2⟩ := store_inv (by exact fun _ _ => rfl) h
    obtain ⟨e, w, m, -, t⟩ := readSequenceExtension_inv h1
    obtain ⟨t, o1, o2, -⟩ := tail_inv t h2
    exact ⟨_, t, ⟨e, w, m, rfl⟩, o1, o2⟩
  · rintro ⟨_, t, ⟨e, w, m, rfl⟩, o1, o2⟩
    obtain ⟨x, h, -⟩ := C38 e w m t o1 s (mk_of_bits o2)
    exact ⟨_, h⟩

/-- **C95**, group of pictures headers: exactly those of the standard (6.2.2.6) are accepted; the marker bit inside the
time code is not looked at. -/
theorem C95_group (s : BR) :
    (∃ x s', readGOPHeader s = (.ok x, s')) ↔ Wellformed (fun l => ∃ e : GOP, e.WF ∧ l = encGOP e) s := by
  constructor
  · rintro ⟨x, s', h⟩
    obtain ⟨e, t, w, -, o1, o2, -⟩ := readGOPHeader_inv h
    exact ⟨_, t, ⟨e, w, rfl⟩, o1, o2⟩
  · rintro ⟨_, t, ⟨e, w, rfl⟩, o1, o2⟩
    rw [mk_of_bits o2]
    exact ⟨_, _, readGOPHeader_enc e w t o1⟩

/-- **C95**, picture headers: exactly those of the standard (6.2.3), of any coding type, are accepted. -/
theorem C95_picture (s : VS) :
    (∃ s', pictureHeader s = (.ok (), s')) ↔ Wellformed (fun l => ∃ e : Pic, e.WF ∧ l = encPic e) s.br := by
  constructor
  · rintro ⟨s', h⟩
    unfold pictureHeader at h
    obtain ⟨a, b, h1, h2⟩ := store_inv (by exact fun _ _ => rfl) h
    obtain ⟨e, w, -, t⟩ := readPictureHeader_inv h1
    obtain ⟨t, o1, o2, -⟩ := tail_inv t h2
    exact ⟨_, t, ⟨e, w, rfl⟩, o1, o2⟩
  · rintro ⟨_, t, ⟨e, w, rfl⟩, o1, o2⟩
    obtain ⟨x, h, -⟩ := C40 e w t o1 s (mk_of_bits o2)
    exact ⟨_, h⟩

/-- **C95**, picture coding extensions: exactly those of the standard (6.2.3.1) are accepted. -/
theorem C95_pictureExtension (s : VS) :
    (∃ s', pictureCodingExtension s = (.ok (), s')) ↔ Wellformed (fun l => ∃ e : PicExt, e.WF ∧ l = encPicExt e) s.br := by
  constructor
  · rintro ⟨s', h⟩
    unfold pictureCodingExtension at h
    obtain ⟨a, b, h1, h2⟩ := store_inv (by exact fun _ _ => rfl) h
    obtain ⟨e, w, -, t⟩ := readPictureCodingExtension_inv h1
    obtain ⟨t, o1, o2, -⟩ := tail_inv t h2
    exact ⟨_, t, ⟨e, w, rfl⟩, o1, o2⟩
  · rintro ⟨_, t, ⟨e, w, rfl⟩, o1, o2⟩
    obtain ⟨x, h, -⟩ := C41 e w t o1 s (mk_of_bits o2)
    exact ⟨_, h⟩

/-- **C95**, everything else is refused with an error. -/
theorem C95_refused (s : VS) :
    (¬ Wellformed (fun l => ∃ e : Seq, e.WF ∧ l = encSeq e) s.br → ∃ x, (sequenceHeader s).1 = .err x) ∧
    (¬ Wellformed (fun l => ∃ e : SeqExt, e.WF ∧ e.marker = true ∧ l = encSeqExt e) s.br → ∃ x, (sequenceExtension s).1 = .err x) ∧
    (¬ Wellformed (fun l => ∃ e : GOP, e.WF ∧ l = encGOP e) s.br → ∃ x, (readGOPHeader s.br).1 = .err x) ∧
    (¬ Wellformed (fun l => ∃ e : Pic, e.WF ∧ l = encPic e) s.br → ∃ x, (pictureHeader s).1 = .err x) ∧
    (¬ Wellformed (fun l => ∃ e : PicExt, e.WF ∧ l = encPicExt e) s.br → ∃ x, (pictureCodingExtension s).1 = .err x) := by
  have key : ∀ {σ α : Type} {m : Go σ α} (s : σ), Go.Safe m → (¬ ∃ a s', m s = (.ok a, s')) → ∃ x, (m s).1 = .err x := by
    intro σ α m s hs hn
    obtain ⟨k1, k2⟩ := hs s
    cases h : m s with
    | mk r s' =>
      rw [h] at k1 k2
      cases r with
      | ok a => exact absurd ⟨a, s', h⟩ hn
      | err x => exact ⟨x, rfl⟩
      | panic => exact absurd rfl k1
      | hang => exact absurd rfl k2
  obtain ⟨h1, h2, h3, h4, h5, -⟩ := C66
  refine ⟨fun h => key _ h1 ?_, fun h => key _ h2 ?_, fun h => key _ h3 ?_, fun h => key _ h4 ?_, fun h => key _ h5 ?_⟩
  · rintro ⟨_, s', e⟩; exact h ((C95_sequence s).mp ⟨s', e⟩)
  · rintro ⟨_, s', e⟩; exact h ((C95_extension s).mp ⟨s', e⟩)
  · rintro ⟨x, s', e⟩; exact h ((C95_group s.br).mp ⟨x, s', e⟩)
  · rintro ⟨_, s', e⟩; exact h ((C95_picture s).mp ⟨s', e⟩)
  · rintro ⟨_, s', e⟩; exact h ((C95_pictureExtension s).mp ⟨s', e⟩)

/-- **C95**, extension and user data: on a byte boundary, and with nothing to be read behind the end of the data, whatever is
accepted in front of the next start code is a list of user data and extensions of the standard that belong there; the
matrices are those of the list. -/
theorem C95_items {i : Nat} (hi : i ≤ 2) {fuel : Nat} {s s' : VS} (hl : s.br.later = []) (ha : s.br.pos % 8 = 0)
    (h : extensionAndUserData i fuel s = (.ok (), s')) :
    ∃ its bits c rest, ItemsCode i s.br.pos its bits ∧ c < 2 ^ 32 ∧ c ≠ 0x1B5 ∧ c ≠ 0x1B2 ∧
      s.br.bits = bits ++ (bitsOf 32 c ++ rest) ∧ (its ≠ [] → c / 2 ^ 8 = 1) ∧
      s' = { s with br := ⟨bitsOf 32 c ++ rest, s.br.pos + bits.length, s.br.stop, []⟩
                    qm := ((its.foldl Item.load (matsOf s.qm)).qm) } := by
  obtain ⟨its, bits, r, c, h0, h1, h2, h3⟩ := items_read hi fuel hl ha h
  refine ⟨its, bits, c, s'.br.bits.drop 32, r.code, h0, h1, h2, by rw [r.took.bits, ← h3], ?_, ?_⟩
  · intro hn
    rcases r.stopped with e | ⟨t, ht⟩
    · exact absurd e hn
    · rw [ht] at h3
      rw [show (32 : Nat) = 24 + 8 from rfl, bitsOf_append, prefix1_eq, List.append_assoc] at h3
      have h4 := (List.append_inj h3 (by rw [length_bitsOf, length_bitsOf])).1
      have h5 := congrArg natOfBits h4
      rw [natOfBits_bitsOf, natOfBits_bitsOf] at h5
      rw [Nat.mod_eq_of_lt (show c / 2 ^ 8 < 2 ^ 24 by omega)] at h5
      exact h5.symm
  · rw [← h3]
    obtain ⟨k1, k2, k3, k4⟩ := r.took
    have e : s'.br = ⟨s'.br.bits, s.br.pos + bits.length, s.br.stop, []⟩ := by
      rw [← k2, ← k3, ← hl, ← k4]
    rw [← e]
    exact r.state

/-- A sequence header at any position is accepted; the same header with its marker bit cleared is not, whatever its tail. -/
example : Wellformed (fun l => ∃ e : Seq, e.WF ∧ l = encSeq e) exSeqVS.br ∧
    (sequenceHeader (VS.new ⟨(encSeq exSeq).set 82 false ++ Tail.bits ⟨[], 1, bitsOf 8 0xB5⟩, 0, .eof, []⟩)).1 =
      .err .missingMarkerBit := by
  refine ⟨⟨encSeq exSeq, ⟨[], 1, bitsOf 8 0xB5⟩, ⟨exSeq, by decide +kernel, rfl⟩, by decide +kernel, rfl⟩, by decide +kernel⟩

/-- User data and a quantiser matrix extension in front of a slice. -/
example : ((extensionAndUserData 2 9 (VS.new ⟨encUser [0x48, 0x69] ++ (bitsOf 32 0x1B5 ++ (encQExt ⟨none, none, none, none⟩ ++
    bitsOf 32 0x101)), 0, .eof, []⟩)).1 matches .ok ()) = true := by decide +kernel

end Mpeg.Video
