/-
Property C65: which pack headers are accepted.
-/
import Verif.PS.Total
import Verif.PS.Lemmas
set_option linter.all false
namespace Mpeg.PS
open Spec

/-- the first 14 bytes of a pack header (2.5.3.3), announcing `n` stuffing bytes -/
def encPackCore (base ext rate reserved n : Nat) : List Bool :=
  bitsOf 32 0x1ba ++ bitsOf 2 1 ++ bitsOf 3 (base / 2 ^ 30) ++ [true] ++
  bitsOf 15 (base / 2 ^ 15 % 2 ^ 15) ++ [true] ++ bitsOf 15 (base % 2 ^ 15) ++ [true] ++
  bitsOf 9 ext ++ [true] ++ bitsOf 22 rate ++ [true, true] ++ bitsOf 5 reserved ++ bitsOf 3 n

theorem read_inv_bits {k v : Nat} {s s' : BR} (h : BR.read k s = (.ok v, s')) :
    BR.Took s (bitsOf k v) s' ∧ v < 2 ^ k := PES.read_inv' h

theorem marker_inv {k v : Nat} {u : Unit} {s s' : BR} (h : marker k v s = (.ok u, s')) :
    BR.Took s (bitsOf k v) s' := by
  unfold marker at h
  obtain ⟨x, s1, h1, h⟩ := Go.bind_eq_ok h
  obtain ⟨t, _⟩ := PES.read_inv' h1
  cases hx : (x == v) with
  | true =>
    rw [hx] at h
    simp only [Go.check_true, Go.pure_apply, Prod.mk.injEq, true_and] at h
    subst h
    have : x = v := eq_of_beq hx
    subst this; exact t
  | false => rw [hx] at h; simp at h

theorem codeAssert_inv {k c : Nat} {e : Err} {u : Unit} {s s' : BR} (h : codeAssert k c e s = (.ok u, s')) :
    BR.Took s (bitsOf k c) s' := by
  unfold codeAssert codeCheck at h
  obtain ⟨t, s1, h1, h3⟩ := Go.bind_eq_ok h
  obtain ⟨v, s0, h0, h2⟩ := Go.bind_eq_ok h1
  obtain ⟨rfl, hl, hv⟩ := BR.peek_inv h0
  rw [Go.pure_apply] at h2
  cases h2
  cases hx : (v == c) with
  | false =>
    rw [hx] at h3
    obtain ⟨_, _, h4, _⟩ := Go.bind_eq_ok h3
    simp at h4
  | true =>
    rw [hx] at h3
    simp only [Go.check_true] at h3
    rw [Go.bind_ok (Go.pure_apply ..), BR.skip_ok hl] at h3
    cases h3
    have hc : v = c := eq_of_beq hx
    rw [← hc, hv, bitsOf_natOfBits' (by rw [List.length_take]; omega)]
    exact BR.took_adv hl

theorem core_split (v1 v2 v3 : Nat) (h1 : v1 < 2 ^ 3) (h2 : v2 < 2 ^ 15) (h3 : v3 < 2 ^ 15) :
    let b := v1 * 2 ^ 30 + v2 * 2 ^ 15 + v3
    b / 2 ^ 30 = v1 ∧ b / 2 ^ 15 % 2 ^ 15 = v2 ∧ b % 2 ^ 15 = v3 ∧ b < 2 ^ 33 := by
  refine ⟨?_, ?_, ?_, ?_⟩ <;> omega

theorem skipStuffing_ok : ∀ (n : Nat) (s : BR), (skipStuffing n s).1 = .ok () := by
  intro n
  induction n with
  | zero => intro s; rfl
  | succ n ih =>
    intro s
    unfold skipStuffing
    by_cases h : 8 ≤ s.bits.length
    · have e : Go.ignoreErr (BR.skip 8) s = (.ok (), s.adv 8) := by unfold Go.ignoreErr; rw [BR.skip_ok h]
      rw [Go.bind_ok e]; exact ih _
    · have e : Go.ignoreErr (BR.skip 8) s = (.ok (), s.failTo) := by
        unfold Go.ignoreErr; rw [BR.skip_short (by omega)]
      rw [Go.bind_ok e]; exact ih _

theorem readPackFixed_inv {x : PackHeader} {s s' : BR} (h : readPackFixed s = (.ok x, s')) :
    ∃ base ext rate reserved n s1, base < 2 ^ 33 ∧ ext < 2 ^ 9 ∧ rate < 2 ^ 22 ∧ reserved < 2 ^ 5 ∧ n < 2 ^ 3 ∧
      BR.Took s (encPackCore base ext rate reserved n) s1 ∧ skipStuffing n s1 = (.ok (), s') := by
  unfold readPackFixed at h
  obtain ⟨_, s1, h1, h⟩ := Go.bind_eq_ok h
  obtain ⟨_, s2, h2, h⟩ := Go.bind_eq_ok h
  obtain ⟨v1, s3, h3, h⟩ := Go.bind_eq_ok h
  obtain ⟨_, s4, h4, h⟩ := Go.bind_eq_ok h
  obtain ⟨v2, s5, h5, h⟩ := Go.bind_eq_ok h
  obtain ⟨_, s6, h6, h⟩ := Go.bind_eq_ok h
  obtain ⟨v3, s7, h7, h⟩ := Go.bind_eq_ok h
  obtain ⟨_, s8, h8, h⟩ := Go.bind_eq_ok h
  obtain ⟨ext, s9, h9, h⟩ := Go.bind_eq_ok h
  obtain ⟨_, s10, h10, h⟩ := Go.bind_eq_ok h
  obtain ⟨rate, s11, h11, h⟩ := Go.bind_eq_ok h
  obtain ⟨_, s12, h12, h⟩ := Go.bind_eq_ok h
  obtain ⟨_, s13, h13, h⟩ := Go.bind_eq_ok h
  obtain ⟨_, s14, h14, h⟩ := Go.bind_eq_ok h
  obtain ⟨n, s15, h15, h⟩ := Go.bind_eq_ok h
  obtain ⟨_, s16, h16, h⟩ := Go.bind_eq_ok h
  cases h
  obtain ⟨t3, b3⟩ := read_inv_bits h3
  obtain ⟨t5, b5⟩ := read_inv_bits h5
  obtain ⟨t7, b7⟩ := read_inv_bits h7
  obtain ⟨t9, b9⟩ := read_inv_bits h9
  obtain ⟨t11, b11⟩ := read_inv_bits h11
  obtain ⟨l, t14, hl⟩ := BR.skip_inv h14
  obtain ⟨t15, b15⟩ := read_inv_bits h15
  obtain ⟨c1, c2, c3, c4⟩ := core_split v1 v2 v3 b3 b5 b7
  refine ⟨v1 * 2 ^ 30 + v2 * 2 ^ 15 + v3, ext, rate, natOfBits l, n, s15, c4, b9, b11, hl ▸ natOfBits_lt l, b15, ?_, h16⟩
  have t := (codeAssert_inv h1).trans ((marker_inv h2).trans (t3.trans ((marker_inv h4).trans (t5.trans
    ((marker_inv h6).trans (t7.trans ((marker_inv h8).trans (t9.trans ((marker_inv h10).trans (t11.trans
    ((marker_inv h12).trans ((marker_inv h13).trans (t14.trans t15)))))))))))))
  unfold encPackCore
  rw [c1, c2, c3, bitsOf_natOfBits' hl]
  simpa only [List.append_assoc, List.cons_append, List.nil_append, show bitsOf 1 1 = [true] from rfl] using t

/-- **C65** Whatever `NewPackHeader` accepts starts with a well-formed pack header: the pack start code, the `01`
bits and all six marker bits are where the standard puts them. -/
theorem C65 (s s' : BR) (x : PackHeader) (h : newPackHeader s = (.ok x, s')) :
    ∃ base ext rate reserved n r, base < 2 ^ 33 ∧ ext < 2 ^ 9 ∧ rate < 2 ^ 22 ∧ reserved < 2 ^ 5 ∧ n < 8 ∧
      s.bits = encPackCore base ext rate reserved n ++ r := by
  unfold newPackHeader at h
  obtain ⟨y, s1, h1, -⟩ := Go.bind_eq_ok h
  obtain ⟨base, ext, rate, res, n, s2, b1, b2, b3, b4, b5, t, -⟩ := readPackFixed_inv h1
  exact ⟨base, ext, rate, res, n, s2.bits, b1, b2, b3, b4, b5, t.bits⟩

/-- an accepted header, and one with a zero marker bit that is rejected -/
example : ((newPackHeader (BR.ofBits (encPackCore 12345678901 299 50000 31 0 ++ bitsOf 32 0x1e0))).1 =
      .ok { scrBase := 12345678901 % 2 ^ 32, scrExtension := 299, muxRate := 50000 }) ∧
    (newPackHeader (BR.ofBits ((encPackCore 12345678901 299 50000 31 0).set 37 false ++ bitsOf 32 0x1e0))).1 =
      .err .markerNotFound := by decide +kernel

end Mpeg.PS
