/-
Packet parsing on arbitrary input: what a successful run consumed, when it can panic,
resynchronisation and truncation.
-/
import Verif.TS.Lemmas
import Verif.Base.Meta
set_option linter.all false
namespace Mpeg.TS
open Spec

/-! ### consumption -/

theorem opt_inv {σ α : Type} {c : Bool} {d : α} {m : Go σ α} {s s' : σ} {a : α}
    (h : Go.opt c d m s = (.ok a, s')) :
    (c = true ∧ m s = (.ok a, s')) ∨ (c = false ∧ a = d ∧ s' = s) := by
  cases c
  · simp at h; exact Or.inr ⟨rfl, h.1.symm, h.2.symm⟩
  · exact Or.inl ⟨rfl, h⟩

theorem map_inv {σ α β : Type} {f : α → β} {m : Go σ α} {s s' : σ} {b : β}
    (h : (f <$> m) s = (.ok b, s')) : ∃ a, m s = (.ok a, s') ∧ f a = b := by
  rw [Go.map_apply] at h
  cases hm : m s with
  | mk r s1 =>
    rw [hm] at h
    cases r <;> simp at h
    exact ⟨_, by rw [h.2], h.1⟩

theorem readFullUE_inv {n : Nat} {bs : List UInt8} {s s' : BR}
    (h : readFullUE n s = (.ok bs, s')) :
    BR.Took s (bitsOfBytes bs) s' ∧ bs.length = n := by
  unfold readFullUE at h
  obtain ⟨⟨bs', e⟩, s1, h1, h2⟩ := Go.bind_eq_ok h
  cases e with
  | none => simp at h2; obtain ⟨rfl, rfl⟩ := h2; exact BR.readFull_inv h1
  | some e => cases e <;> simp at h2

theorem readPcr_inv {v : Nat} {s s' : BR} (h : readPcr s = (.ok v, s')) :
    ∃ l, BR.Took s l s' ∧ l.length = 48 := by
  unfold readPcr at h
  obtain ⟨_, s1, h1, h⟩ := Go.bind_eq_ok h
  obtain ⟨_, s2, h2, h⟩ := Go.bind_eq_ok h
  obtain ⟨_, s3, h3, h⟩ := Go.bind_eq_ok h
  simp at h
  obtain ⟨l1, t1, e1, _⟩ := BR.read_inv h1
  obtain ⟨l2, t2, e2, _⟩ := BR.read_inv h2
  obtain ⟨l3, t3, e3, _⟩ := BR.read_inv h3
  rw [← h.2]
  exact ⟨_, (t1.trans t2).trans t3, by simp; omega⟩

theorem newTransportPrivateData_inv {v : TransportPrivateData} {n : Nat} {s s' : BR}
    (h : newTransportPrivateData s = (.ok (v, n), s')) :
    ∃ l, BR.Took s l s' ∧ l.length = 8 * (1 + n) ∧ n < 256 := by
  unfold newTransportPrivateData at h
  obtain ⟨len, s1, h1, h⟩ := Go.bind_eq_ok h
  obtain ⟨d, s2, h2, h⟩ := Go.bind_eq_ok h
  simp at h
  obtain ⟨l1, t1, e1, ev⟩ := BR.read_inv h1
  have hlt : len < 256 := by have := natOfBits_lt l1; rw [e1] at this; omega
  obtain ⟨⟨_, rfl⟩, rfl⟩ := h
  rcases opt_inv h2 with ⟨_, h2⟩ | ⟨hc, _, rfl⟩
  · obtain ⟨t2, e2⟩ := readFullUE_inv h2
    exact ⟨_, t1.trans t2, by simp; omega, hlt⟩
  · simp at hc; exact ⟨_, t1, by omega, hlt⟩

theorem afFlags_inv {c : Bool} {f : AdaptationField} {s s' : BR} (h : afFlags c s = (.ok f, s')) :
    ∃ l, BR.Took s l s' ∧ l.length = (if c then 8 else 0) ∧
      (c = false → f = {}) := by
  unfold afFlags at h
  rcases opt_inv h with ⟨hc, h⟩ | ⟨hc, hf, rfl⟩
  · obtain ⟨_, s1, h1, h⟩ := Go.bind_eq_ok h
    obtain ⟨_, s2, h2, h⟩ := Go.bind_eq_ok h
    obtain ⟨_, s3, h3, h⟩ := Go.bind_eq_ok h
    obtain ⟨_, s4, h4, h⟩ := Go.bind_eq_ok h
    obtain ⟨_, s5, h5, h⟩ := Go.bind_eq_ok h
    obtain ⟨_, s6, h6, h⟩ := Go.bind_eq_ok h
    obtain ⟨_, s7, h7, h⟩ := Go.bind_eq_ok h
    obtain ⟨_, s8, h8, h⟩ := Go.bind_eq_ok h
    simp at h
    rw [← h.2]
    have t := ((((((((BR.read1_inv h1).trans (BR.read1_inv h2)).trans (BR.read1_inv h3)).trans
      (BR.read1_inv h4)).trans (BR.read1_inv h5)).trans (BR.read1_inv h6)).trans (BR.read1_inv h7)).trans
      (BR.read1_inv h8))
    exact ⟨_, t, by simp [hc], by simp [hc]⟩
  · exact ⟨[], BR.Took.refl _, by simp [hc], fun _ => hf⟩

theorem optPcr_inv {c : Bool} {v : Nat} {s s' : BR} (h : Go.opt c 0 readPcr s = (.ok v, s')) :
    ∃ l, BR.Took s l s' ∧ l.length = (if c then 48 else 0) := by
  rcases opt_inv h with ⟨rfl, h⟩ | ⟨rfl, hf, rfl⟩
  · simpa using readPcr_inv h
  · exact ⟨[], BR.Took.refl _, by simp⟩

theorem optRead_inv {c : Bool} {k v : Nat} {s s' : BR} (h : Go.opt c 0 (BR.read k) s = (.ok v, s')) :
    ∃ l, BR.Took s l s' ∧ l.length = (if c then k else 0) := by
  rcases opt_inv h with ⟨rfl, h⟩ | ⟨rfl, hf, rfl⟩
  · obtain ⟨l, t, e, _⟩ := BR.read_inv h
    exact ⟨l, t, by simpa using e⟩
  · exact ⟨[], BR.Took.refl _, by simp⟩

/-- A successful run of the adaptation field parser that reported no extension consumed exactly the
field, if the input is shorter than 4 GiB. -/
theorem newAdaptationField_inv {af : AdaptationField} {len : Nat} {s s' : BR}
    (h : newAdaptationField s = (.ok (af, len), s'))
    (hext : af.adaptationExtension = none) (hsz : s.bits.length < 8 * (2 ^ 32 - 256)) :
    ∃ l, BR.Took s l s' ∧ l.length = 8 * (1 + len) ∧ af.length = len ∧ len < 256 := by
  unfold newAdaptationField at h
  obtain ⟨len', s1, h1, h⟩ := Go.bind_eq_ok h
  obtain ⟨f, s2, h2, h⟩ := Go.bind_eq_ok h
  obtain ⟨pcr, s3, h3, h⟩ := Go.bind_eq_ok h
  obtain ⟨opcr, s4, h4, h⟩ := Go.bind_eq_ok h
  obtain ⟨sc, s5, h5, h⟩ := Go.bind_eq_ok h
  obtain ⟨tpd, s6, h6, h⟩ := Go.bind_eq_ok h
  obtain ⟨ext, s7, h7, h⟩ := Go.bind_eq_ok h
  obtain ⟨junk, s8, h8, h⟩ := Go.bind_eq_ok h
  simp at h
  obtain ⟨⟨rfl, rfl⟩, rfl⟩ := h
  simp only [Option.map_eq_none_iff] at hext
  subst hext
  obtain ⟨l1, t1, e1, ev⟩ := BR.read_inv h1
  have hlt : len' < 256 := by have := natOfBits_lt l1; rw [e1] at this; omega
  obtain ⟨l2, t2, e2, hf⟩ := afFlags_inv h2
  obtain ⟨l3, t3, e3⟩ := optPcr_inv h3
  obtain ⟨l4, t4, e4⟩ := optPcr_inv h4
  obtain ⟨l5, t5, e5⟩ := optRead_inv h5
  have t67 : s7 = s6 := by
    rcases opt_inv h7 with ⟨hc, h⟩ | ⟨_, _, h⟩
    · obtain ⟨_, _, h⟩ := map_inv h; simp at h
    · exact h
  subst t67
  simp only [afterPart] at h8
  generalize hr1 : (if len' ≥ 1 then len' - 1 else len') = r1 at *
  generalize hr2 : (if (decide (r1 ≥ 6) && f.pcrFlag) = true then r1 - 6 else r1) = r2 at *
  generalize hr3 : (if (decide (r2 ≥ 6) && f.opcrFlag) = true then r2 - 6 else r2) = r3 at *
  generalize hr4 : (if (decide (r3 ≥ 1) && f.splicingPointFlag) = true then r3 - 1 else r3) = r4 at *
  have a1 : 8 * len' = (if decide (len' ≥ 1) = true then 8 else 0) + 8 * r1 := by
    by_cases hc : len' ≥ 1 <;> simp [hc] at hr1 ⊢ <;> omega
  have a2 : 8 * r1 = (if (decide (r1 ≥ 6) && f.pcrFlag) = true then 48 else 0) + 8 * r2 := by
    by_cases hc : (decide (r1 ≥ 6) && f.pcrFlag) = true
    · simp only [hc, if_true] at hr2 ⊢; simp at hc; omega
    · simp only [if_neg hc] at hr2 ⊢; omega
  have a3 : 8 * r2 = (if (decide (r2 ≥ 6) && f.opcrFlag) = true then 48 else 0) + 8 * r3 := by
    by_cases hc : (decide (r2 ≥ 6) && f.opcrFlag) = true
    · simp only [hc, if_true] at hr3 ⊢; simp at hc; omega
    · simp only [if_neg hc] at hr3 ⊢; omega
  have a4 : 8 * r3 = (if (decide (r3 ≥ 1) && f.splicingPointFlag) = true then 8 else 0) + 8 * r4 := by
    by_cases hc : (decide (r3 ≥ 1) && f.splicingPointFlag) = true
    · simp only [hc, if_true] at hr4 ⊢; simp at hc; omega
    · simp only [if_neg hc] at hr4 ⊢; omega
  have t := ((((t1.trans t2).trans t3).trans t4).trans t5)
  have hl : ∀ {l}, BR.Took s l s8 → l.length ≤ s.bits.length := by
    intro l h; rw [h.bits]; simp
  have hj : ∀ {n : Nat}, Go.opt (decide (n > 0)) [] (readFullUE n) s7 = (.ok junk, s8) →
      ∃ l, BR.Took s7 l s8 ∧ l.length = 8 * n := by
    intro n h
    rcases opt_inv h with ⟨_, h⟩ | ⟨hc, _, rfl⟩
    · obtain ⟨t, e⟩ := readFullUE_inv h; exact ⟨_, t, by simp [e]⟩
    · simp at hc; exact ⟨[], BR.Took.refl _, by simp [hc]⟩
  rcases opt_inv h6 with ⟨hc, h6⟩ | ⟨hc, rfl, rfl⟩
  · obtain ⟨⟨v, n⟩, h6', rfl⟩ := map_inv h6
    obtain ⟨l6, t6, e6, hn⟩ := newTransportPrivateData_inv h6'
    simp only [afterPart] at h8
    obtain ⟨l8, t8, e8⟩ := hj h8
    have T := (t.trans t6).trans t8
    refine ⟨_, T, ?_, rfl, hlt⟩
    have hle := hl T
    simp only [List.length_append] at hle ⊢
    by_cases hu : n + 1 ≤ r4
    · rw [sub32_le hu (by omega)] at e8; omega
    · exfalso
      have : sub32 r4 (n + 1) ≥ 2 ^ 32 - 256 := by unfold sub32; omega
      omega
  · simp only [afterPart] at h8
    obtain ⟨l8, t8, e8⟩ := hj h8
    have T := t.trans t8
    refine ⟨_, T, ?_, rfl, hlt⟩
    simp only [List.length_append]
    omega

end Mpeg.TS
