/-
Where the reader stands after a picture.
-/
import Verif.Video.StreamLemmas2
set_option linter.all false
namespace Mpeg.Video
open Spec

/-- on a byte-aligned start code that is not one of a slice -/
def AtCode (s : BR) : Prop :=
  ∃ c rest, c < 256 ∧ (c = 0 ∨ 0xB0 ≤ c) ∧ s.bits = bitsOf 32 (0x100 + c) ++ rest ∧ s.pos % 8 = 0

theorem nextStartCode_ok {s s' : BR} (h : nextStartCode s = (.ok (), s')) :
    (∃ r, s'.bits = prefix1 ++ r) ∧ s'.pos % 8 = 0 := by
  have h1 := nextStartCode_result s
  rw [h] at h1
  generalize hx : s.adv (padding s.pos) = x at h1
  have hp : x.pos % 8 = 0 := by
    rw [← hx]; simp only [BR.adv]; unfold padding; omega
  cases h1 with
  | found k r h1 =>
    refine ⟨⟨r, ?_⟩, ?_⟩
    · simp only [BR.adv, h1]
      rw [List.drop_append_of_le_length (by simp [zeros]), List.drop_eq_nil_of_le (by simp [zeros]), List.nil_append]
    · simp only [BR.adv]; omega

theorem nextStartCode_stay {s s' : BR} (h : nextStartCode s = (.ok (), s')) {r : List Bool} (hb : s.bits = prefix1 ++ r)
    (hp : s.pos % 8 = 0) : s' = s := by
  have h0 : padding s.pos = 0 := by unfold padding; omega
  have h2 := nextStartCode_tail (stop := s.stop) (later := s.later) (pos := s.pos) ⟨[], 0, r⟩ (by show 0 = _; omega)
  have h3 : s = ⟨Tail.bits ⟨[], 0, r⟩, s.pos, s.stop, s.later⟩ := by
    cases s; simp only at hb; subst hb; rfl
  rw [← h3, h] at h2
  have h4 := (Prod.mk.inj h2).2
  rw [h4]
  conv => rhs; rw [h3]
  simp [Tail.after, Tail.bits, zeros]

theorem mlift_inv {α : Type} {m : Go BR α} {s s' : MB} {a : α} (h : MB.lift m s = (.ok a, s')) : m s.br = (.ok a, s'.br) := by
  unfold MB.lift at h
  rw [Prod.mk.injEq] at h
  obtain ⟨h1, rfl⟩ := h
  exact Prod.ext h1 rfl

theorem slice_sync {e : PicEnv} {s s' : MB} (h : slice e s = (.ok (), s')) :
    (∃ r, s'.br.bits = prefix1 ++ r) ∧ s'.br.pos % 8 = 0 := by
  unfold slice at h
  obtain ⟨_, _, _, h⟩ := Go.bind_eq_ok h
  obtain ⟨_, _, _, h⟩ := Go.bind_eq_ok h
  obtain ⟨_, _, _, h⟩ := Go.bind_eq_ok h
  split at h
  · cases h
  · obtain ⟨_, _, _, h⟩ := Go.bind_eq_ok h
    obtain ⟨_, _, _, h⟩ := Go.bind_eq_ok h
    obtain ⟨_, _, _, h⟩ := Go.bind_eq_ok h
    exact nextStartCode_ok (mlift_inv h)

theorem sliceLoop_sync {e : PicEnv} : ∀ (n : Nat) {s s' : MB}, sliceLoop e n s = (.ok (), s') → AtCode s'.br
  | 0, _, _, h => by cases h
  | n + 1, s, s', h => by
    unfold sliceLoop at h
    obtain ⟨_, s1, h1, h⟩ := Go.bind_eq_ok h
    obtain ⟨v, s2, h2, h⟩ := Go.bind_eq_ok h
    split at h
    · exact sliceLoop_sync n h
    · rename_i hv
      rw [Go.pure_apply, Prod.mk.injEq] at h
      obtain ⟨_, rfl⟩ := h
      obtain ⟨⟨r, hr⟩, hp⟩ := slice_sync h1
      obtain ⟨h3, h4, h5⟩ := BR.peek_inv (mlift_inv h2)
      rw [h3]
      rw [hr, List.length_append] at h4
      have hl : prefix1.length = 24 := by decide
      have hr8 : (r.take 8).length = 8 := by rw [List.length_take]; omega
      have hc : natOfBits (r.take 8) < 256 := by have := natOfBits_lt (r.take 8); rwa [hr8] at this
      have he : bitsOf 32 (0x100 + natOfBits (r.take 8)) = prefix1 ++ r.take 8 := by
        rw [code32_bits hc]
        congr 1
        have := bitsOf_natOfBits (r.take 8)
        rwa [hr8] at this
      have hbits : s1.br.bits = bitsOf 32 (0x100 + natOfBits (r.take 8)) ++ r.drop 8 := by
        rw [he, hr, List.append_assoc, List.take_append_drop]
      refine ⟨_, r.drop 8, hc, ?_, hbits, hp⟩
      rw [hbits, List.take_append_of_le_length (by rw [length_bitsOf]; exact Nat.le_refl _),
        List.take_of_length_le (by rw [length_bitsOf]; exact Nat.le_refl _), natOfBits_bitsOf, Nat.mod_eq_of_lt (by omega)] at h5
      subst h5
      simp only [isSlice, minSliceStartCode, maxSliceStartCode, Bool.and_eq_true, decide_eq_true_eq] at hv
      omega

theorem pictureData_sync {s s' : VS} {f : Frame} (h : pictureData s = (.ok f, s')) : AtCode s'.br := by
  unfold pictureData at h
  split at h
  · dsimp only at h
    split at h
    · rename_i h1
      rw [Prod.mk.injEq] at h
      obtain ⟨_, rfl⟩ := h
      obtain ⟨_, s1, h1, h2⟩ := Go.bind_eq_ok h1
      have h3 := sliceLoop_sync _ h1
      have h4 := h3
      obtain ⟨c, rest, hc, _, hb, hp⟩ := h4
      rw [code32_bits hc, List.append_assoc] at hb
      have := nextStartCode_stay (mlift_inv h2) hb hp
      show AtCode _
      rw [this]; exact h3
    all_goals cases h
  · cases h

theorem moreFrames_sync {fuel : Nat} {s s' : VS} {f : Frame} (h : moreFrames fuel s = (.ok f, s')) : AtCode s'.br := by
  unfold moreFrames at h
  obtain ⟨_, _, _, h⟩ := Go.bind_eq_ok h
  obtain ⟨_, _, _, h⟩ := Go.bind_eq_ok h
  obtain ⟨_, _, _, h⟩ := Go.bind_eq_ok h
  obtain ⟨_, _, _, h⟩ := Go.bind_eq_ok h
  unfold pictureStep at h
  obtain ⟨a, s1, _, h⟩ := Go.bind_eq_ok h
  cases hph : a.ph with
  | none => simp only [hph] at h; cases h
  | some ph =>
    simp only [hph] at h
    obtain ⟨_, _, _, h⟩ := Go.bind_eq_ok h
    obtain ⟨_, s2, h2, h⟩ := Go.bind_eq_ok h
    obtain ⟨_, s3, h3, h⟩ := Go.bind_eq_ok h
    rw [Go.pure_apply, Prod.mk.injEq] at h
    obtain ⟨_, rfl⟩ := h
    rw [Go.modify_apply, Prod.mk.injEq] at h3
    obtain ⟨_, rfl⟩ := h3
    have := pictureData_sync h2
    split <;> exact this

theorem step_sync {fuel : Nat} {s s' : VS} {f : Frame} (h : step fuel s = (.ok f, s')) : AtCode s'.br := by
  unfold step at h
  split at h
  · unfold resume at h
    obtain ⟨_, _, _, h⟩ := Go.bind_eq_ok h
    split at h
    · exact moreFrames_sync h
    · split at h
      · obtain ⟨_, _, _, h⟩ := Go.bind_eq_ok h
        cases h
      · obtain ⟨_, _, _, h⟩ := Go.bind_eq_ok h
        obtain ⟨_, _, _, h⟩ := Go.bind_eq_ok h
        obtain ⟨_, _, _, h⟩ := Go.bind_eq_ok h
        exact moreFrames_sync h
  · unfold start at h
    obtain ⟨_, _, _, h⟩ := Go.bind_eq_ok h
    obtain ⟨_, _, _, h⟩ := Go.bind_eq_ok h
    obtain ⟨_, _, _, h⟩ := Go.bind_eq_ok h
    obtain ⟨_, _, _, h⟩ := Go.bind_eq_ok h
    obtain ⟨_, _, _, h⟩ := Go.bind_eq_ok h
    obtain ⟨_, _, _, h⟩ := Go.bind_eq_ok h
    exact moreFrames_sync h

theorem nextLoop_sync {fuel : Nat} : ∀ (k : Nat) {s s' : VS} {f : Frame}, nextLoop fuel k s = (.ok f, s') → AtCode s'.br
  | 0, _, _, _, h => by cases h
  | k + 1, s, s', f, h => by
    unfold nextLoop at h
    obtain ⟨_, s1, h1, h⟩ := Go.bind_eq_ok h
    obtain ⟨_, s2, h2, h⟩ := Go.bind_eq_ok h
    cases h2
    cases hph : s1.ph with
    | none => simp only [hph] at h; cases h
    | some ph =>
      simp only [hph] at h
      split at h
      · obtain ⟨_, s3, h3, h⟩ := Go.bind_eq_ok h
        rw [Go.pure_apply, Prod.mk.injEq] at h
        obtain ⟨_, rfl⟩ := h
        rw [Go.modify_apply, Prod.mk.injEq] at h3
        obtain ⟨_, rfl⟩ := h3
        have := step_sync h1
        exact this
      · exact nextLoop_sync k h

end Mpeg.Video
