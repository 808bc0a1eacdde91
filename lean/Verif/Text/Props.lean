/-
C94: the printed forms.  C96: the exported header functions and their two results.
-/
import Verif.Text.Model
import Verif.Video.AcceptProps
import Mathlib.Tactic.Tauto
namespace Mpeg
open Video

/-! ### digits -/

theorem digitChar_inj : ∀ a < 16, ∀ b < 16, Nat.digitChar a = Nat.digitChar b → a = b := by decide +kernel

theorem toDigits_inj {b : Nat} (hb : 1 < b) (hb' : b ≤ 16) : ∀ m n : Nat, Nat.toDigits b m = Nat.toDigits b n → m = n := by
  intro m
  induction m using Nat.strongRecOn with
  | _ m ih =>
    intro n h
    by_cases hm : m < b
    · by_cases hn : n < b
      · rw [Nat.toDigits_of_lt_base hm, Nat.toDigits_of_lt_base hn] at h
        exact digitChar_inj m (by omega) n (by omega) (by simpa using h)
      · exfalso
        rw [Nat.toDigits_of_lt_base hm, Nat.toDigits_of_base_le hb (by omega)] at h
        have h1 := congrArg List.length h
        have h2 := @Nat.length_toDigits_pos b (n / b)
        rw [List.length_append] at h1
        simp only [List.length_cons, List.length_nil] at h1
        omega
    · by_cases hn : n < b
      · exfalso
        rw [Nat.toDigits_of_lt_base hn, Nat.toDigits_of_base_le hb (by omega)] at h
        have h1 := congrArg List.length h
        have h2 := @Nat.length_toDigits_pos b (m / b)
        rw [List.length_append] at h1
        simp only [List.length_cons, List.length_nil] at h1
        omega
      · rw [Nat.toDigits_of_base_le (n := m) hb (by omega), Nat.toDigits_of_base_le (n := n) hb (by omega)] at h
        obtain ⟨h1, h2⟩ := List.append_inj' h rfl
        have e1 := ih (m / b) (Nat.div_lt_self (by omega) hb) _ h1
        have e2 := digitChar_inj (m % b) (by have := Nat.mod_lt m (show 0 < b by omega); omega) (n % b)
          (by have := Nat.mod_lt n (show 0 < b by omega); omega) (by simpa using h2)
        rw [← Nat.div_add_mod m b, ← Nat.div_add_mod n b, e1, e2]

/-- the characters of numbers -/
def isHex (c : Char) : Bool := c.isDigit || (c.val ≥ 97 && c.val ≤ 102)

theorem digitChar_hex : ∀ a < 16, isHex (Nat.digitChar a) = true := by decide +kernel
theorem digitChar_dec : ∀ a < 10, (Nat.digitChar a).isDigit = true := by decide +kernel

theorem toDigits_all {b : Nat} (hb : 1 < b) {P : Char → Bool} (hP : ∀ a < b, P (Nat.digitChar a) = true) :
    ∀ m : Nat, ∀ c ∈ Nat.toDigits b m, P c = true := by
  intro m
  induction m using Nat.strongRecOn with
  | _ m ih =>
    intro c hc
    by_cases hm : m < b
    · rw [Nat.toDigits_of_lt_base hm, List.mem_singleton] at hc
      subst hc
      exact hP m hm
    · rw [Nat.toDigits_of_base_le hb (by omega), List.mem_append, List.mem_singleton] at hc
      rcases hc with hc | rfl
      · exact ih _ (Nat.div_lt_self (by omega) hb) c hc
      · exact hP _ (Nat.mod_lt _ (by omega))

theorem pad2_all {P : Char → Bool} (h0 : P '0' = true) {l : List Char} (h : ∀ c ∈ l, P c = true) : ∀ c ∈ pad2 l, P c = true := by
  intro c hc
  unfold pad2 at hc
  rw [List.mem_append] at hc
  rcases hc with hc | hc
  · rw [List.eq_of_mem_replicate hc]; exact h0
  · exact h c hc

theorem toDigits_cons_zero {b : Nat} (hb : 1 < b) : ∀ n : Nat, ∀ l, Nat.toDigits b n = '0' :: l → b ≤ 16 → n = 0 := by
  intro n
  induction n using Nat.strongRecOn with
  | _ n ih =>
    intro l h hb'
    by_cases hn : n < b
    · rw [Nat.toDigits_of_lt_base hn] at h
      refine digitChar_inj n (by omega) 0 (by omega) ?_
      simp only [List.cons.injEq] at h
      exact h.1
    · exfalso
      rw [Nat.toDigits_of_base_le hb (by omega)] at h
      cases hd : Nat.toDigits b (n / b) with
      | nil => exact absurd hd Nat.toDigits_ne_nil
      | cons c r =>
        rw [hd] at h
        simp only [List.cons_append, List.cons.injEq] at h
        have := ih (n / b) (Nat.div_lt_self (by omega) hb) r (by rw [hd, h.1]) hb'
        rw [Nat.div_eq_zero_iff] at this
        omega

theorem pad2_inj {b : Nat} (hb : 1 < b) (hb' : b ≤ 16) {m n : Nat} (h : pad2 (Nat.toDigits b m) = pad2 (Nat.toDigits b n)) :
    m = n := by
  have pm := @Nat.length_toDigits_pos b m
  have pn := @Nat.length_toDigits_pos b n
  have hl : ∀ k : Nat, 0 < (Nat.toDigits b k).length → (pad2 (Nat.toDigits b k)) = Nat.toDigits b k ∧ 2 ≤ (Nat.toDigits b k).length ∨
      pad2 (Nat.toDigits b k) = '0' :: Nat.toDigits b k ∧ (Nat.toDigits b k).length = 1 := by
    intro k hk
    by_cases h2 : 2 ≤ (Nat.toDigits b k).length
    · left
      refine ⟨?_, h2⟩
      unfold pad2
      rw [show 2 - (Nat.toDigits b k).length = 0 by omega]
      rfl
    · right
      refine ⟨?_, by omega⟩
      unfold pad2
      rw [show 2 - (Nat.toDigits b k).length = 1 by omega]
      rfl
  rcases hl m pm with ⟨e1, l1⟩ | ⟨e1, l1⟩ <;> rcases hl n pn with ⟨e2, l2⟩ | ⟨e2, l2⟩
  · rw [e1, e2] at h
    exact toDigits_inj hb hb' m n h
  · rw [e1, e2] at h
    have := toDigits_cons_zero hb m _ h hb'
    rw [this, Nat.toDigits_zero] at l1
    exact absurd l1 (by decide)
  · rw [e1, e2] at h
    have := toDigits_cons_zero hb n _ h.symm hb'
    rw [this, Nat.toDigits_zero] at l2
    exact absurd l2 (by decide)
  · rw [e1, e2] at h
    simp only [List.cons.injEq, true_and] at h
    exact toDigits_inj hb hb' m n h

/-- Two texts that begin with characters in `P` followed by one that is not. -/
theorem split_unique {P : Char → Bool} : ∀ {a a' r r' : List Char} {c c' : Char}, (∀ x ∈ a, P x = true) → (∀ x ∈ a', P x = true) →
    P c = false → P c' = false → a ++ c :: r = a' ++ c' :: r' → a = a' ∧ c = c' ∧ r = r'
  | [], [], _, _, _, _, _, _, _, _, h => by simpa using h
  | [], x :: a', _, _, c, _, _, h2, h3, _, h => by
    exfalso
    simp only [List.nil_append, List.cons_append, List.cons.injEq] at h
    have := h2 x List.mem_cons_self
    rw [← h.1, h3] at this
    cases this
  | x :: a, [], _, _, _, c', h1, _, _, h4, h => by
    exfalso
    simp only [List.nil_append, List.cons_append, List.cons.injEq] at h
    have := h1 x List.mem_cons_self
    rw [h.1, h4] at this
    cases this
  | x :: a, y :: a', _, _, _, _, h1, h2, h3, h4, h => by
    simp only [List.cons_append, List.cons.injEq] at h
    obtain ⟨e1, e2, e3⟩ := split_unique (fun z hz => h1 z (List.mem_cons_of_mem _ hz)) (fun z hz => h2 z (List.mem_cons_of_mem _ hz))
      h3 h4 h.2
    exact ⟨by rw [h.1, e1], e2, e3⟩

theorem dec_all (n : Nat) : ∀ c ∈ fmtDec n, Char.isDigit c = true := toDigits_all (by decide) digitChar_dec n
theorem hex_all (n : Nat) : ∀ c ∈ fmtHex n, isHex c = true := toDigits_all (by decide) digitChar_hex n

/-! ### C94 -/

/-- **C94**, time codes: different time codes are printed differently. -/
theorem C94_timecode (a b : TimeCode) (h : a.text = b.text) : a = b := by
  obtain ⟨d1, h1, m1, s1, p1⟩ := a
  obtain ⟨d2, h2, m2, s2, p2⟩ := b
  unfold TimeCode.text at h
  dsimp only at h
  obtain ⟨e1, _, h⟩ := split_unique (P := Char.isDigit) (dec_all h1) (dec_all h2) (by decide) (by decide) h
  obtain ⟨e2, _, h⟩ := split_unique (P := Char.isDigit) (pad2_all (by decide) (dec_all m1)) (pad2_all (by decide) (dec_all m2))
    (by decide) (by decide) h
  have key : ∀ d : Bool, ∃ c : Char, (if d = true then ";".toList else ":".toList) = [c] ∧ Char.isDigit c = false ∧
      c = (if d then ';' else ':') := by
    intro d
    cases d
    · exact ⟨':', by decide, by decide, rfl⟩
    · exact ⟨';', by decide, by decide, rfl⟩
  obtain ⟨c1, k1, k2, k3⟩ := key d1
  obtain ⟨c2, l1, l2, l3⟩ := key d2
  rw [k1, l1] at h
  obtain ⟨e3, e4, h⟩ := split_unique (P := Char.isDigit) (pad2_all (by decide) (dec_all s1)) (pad2_all (by decide) (dec_all s2)) k2 l2 h
  have q1 := toDigits_inj (by decide) (by decide) _ _ e1
  have q2 := pad2_inj (by decide) (by decide) e2
  have q3 := pad2_inj (by decide) (by decide) e3
  have q4 := pad2_inj (by decide) (by decide) h
  have q5 : d1 = d2 := by
    rw [k3, l3] at e4
    revert e4
    cases d1 <;> cases d2 <;> decide
  subst q1 q2 q3 q4 q5
  rfl

/-- A number below 100 with two digits. -/
def twoDigits (n : Nat) : List Char := [Nat.digitChar (n / 10), Nat.digitChar (n % 10)]

/-- The documented form, "HH:MM:SS:FF", with a semicolon in front of the frames of drop frame codes. -/
def smpte (t : TimeCode) : List Char :=
  twoDigits t.hours ++ [':'] ++ twoDigits t.minutes ++ [':'] ++ twoDigits t.seconds ++ [if t.dropFrame then ';' else ':'] ++
    twoDigits t.pictures

theorem pad2_two : ∀ n < 64, pad2 (fmtDec n) = twoDigits n := by decide +kernel
theorem dec_two : ∀ n < 32, 10 ≤ n → fmtDec n = twoDigits n := by decide +kernel
theorem dec_one : ∀ n < 10, fmtDec n = (twoDigits n).tail ∧ (twoDigits n).head? = some '0' := by decide +kernel

theorem gop_bounds (g : GOPHeader) : g.time.hours < 32 ∧ g.time.minutes < 64 ∧ g.time.seconds < 64 ∧ g.time.pictures < 64 := by
  unfold GOPHeader.time
  dsimp only
  refine ⟨?_, ?_, ?_, ?_⟩
  · exact Nat.lt_of_le_of_lt (Nat.and_le_right) (by decide)
  · exact Nat.lt_of_le_of_lt (Nat.and_le_right) (by decide)
  · exact Nat.lt_of_le_of_lt (Nat.and_le_right) (by decide)
  · exact Nat.lt_of_le_of_lt (Nat.and_le_right) (by decide)

/-- **C94**, form of time codes (partial): the time code of every group of pictures header from ten o'clock on is printed in
the documented form.  Before ten o'clock the first digit is missing (`C94_hours_false`). -/
theorem C94_form_partial (g : GOPHeader) (h : 10 ≤ g.time.hours) : g.time.text = smpte g.time := by
  obtain ⟨h1, h2, h3, h4⟩ := gop_bounds g
  unfold TimeCode.text smpte
  rw [pad2_two _ h2, pad2_two _ h3, pad2_two _ h4, dec_two _ h1 h]
  have e : ∀ d : Bool, (if d = true then ";".toList else ":".toList) = [if d then ';' else ':'] := by decide +kernel
  rw [e]
  simp only [List.append_assoc]
  rfl

/-- Every time code before ten o'clock lacks the zero in front of the hours. -/
theorem C94_hours_false (g : GOPHeader) (h : g.time.hours < 10) : smpte g.time = '0' :: g.time.text ∧ g.time.text ≠ smpte g.time := by
  obtain ⟨h1, h2, h3, h4⟩ := gop_bounds g
  have h5 : smpte g.time = '0' :: g.time.text := by
    unfold TimeCode.text smpte
    obtain ⟨d1, d2⟩ := dec_one _ h
    rw [pad2_two _ h2, pad2_two _ h3, pad2_two _ h4, d1]
    have e : ∀ d : Bool, (if d = true then ";".toList else ":".toList) = [if d then ';' else ':'] := by decide +kernel
    rw [e]
    have e2 : twoDigits g.time.hours = '0' :: (twoDigits g.time.hours).tail := by
      cases ht : twoDigits g.time.hours with
      | nil => rw [ht] at d2; cases d2
      | cons c r => rw [ht] at d2; cases d2; rfl
    generalize (twoDigits g.time.hours).tail = x at e2 ⊢
    rw [e2]
    simp only [List.append_assoc]
    rfl
  refine ⟨h5, fun he => ?_⟩
  rw [h5] at he
  have := congrArg List.length he
  simp at this

theorem codingTypeText_split (t : Nat) : ∃ pre c, codingTypeText t = pre ++ [c] ∧ (∀ x ∈ pre, Char.isDigit x = true) ∧
    Char.isDigit c = false ∧
    ((t = 1 ∧ c = 'I') ∨ (t = 2 ∧ c = 'P') ∨ (t = 3 ∧ c = 'B') ∨ (t = 4 ∧ c = 'D') ∨ (pre = fmtDec t ∧ c = '?')) := by
  unfold codingTypeText
  split
  · exact ⟨[], 'I', by decide, by simp, by decide, by tauto⟩
  split
  · exact ⟨[], 'P', by decide, by simp, by decide, by tauto⟩
  split
  · exact ⟨[], 'B', by decide, by simp, by decide, by tauto⟩
  split
  · exact ⟨[], 'D', by decide, by simp, by decide, by tauto⟩
  · exact ⟨fmtDec t, '?', rfl, dec_all t, by decide, by tauto⟩

/-- **C94**, picture headers: the printed form tells the picture coding type and the temporal reference. -/
theorem C94_picture (a b : PictureHeader) :
    a.text = b.text ↔ a.pictureCodingType = b.pictureCodingType ∧ a.temporalReference = b.temporalReference := by
  refine ⟨fun h => ?_, fun ⟨h1, h2⟩ => by unfold PictureHeader.text; rw [h1, h2]⟩
  unfold PictureHeader.text at h
  obtain ⟨p1, c1, e1, k1, k2, k3⟩ := codingTypeText_split a.pictureCodingType
  obtain ⟨p2, c2, e2, l1, l2, l3⟩ := codingTypeText_split b.pictureCodingType
  have h := List.append_cancel_left h
  rw [e1, e2, List.append_assoc, List.append_assoc] at h
  obtain ⟨q1, q2, h⟩ := split_unique k1 l1 k2 l2 h
  have h := toDigits_inj (by decide) (by decide) _ _ (List.append_cancel_right h)
  refine ⟨?_, h⟩
  subst q1 q2
  rcases k3 with ⟨k, rfl⟩ | ⟨k, rfl⟩ | ⟨k, rfl⟩ | ⟨k, rfl⟩ | ⟨k, rfl⟩ <;>
    rcases l3 with ⟨l, hc⟩ | ⟨l, hc⟩ | ⟨l, hc⟩ | ⟨l, hc⟩ | ⟨l, hc⟩
  all_goals first
    | exact absurd hc (by decide)
    | exact k.trans l.symm
    | exact toDigits_inj (by decide) (by decide) _ _ (k.symm.trans l)

/-- **C94**, transport packets: the printed form tells the PID and the continuity counter. -/
theorem C94_packet (a b : TS.Packet) :
    a.text = b.text ↔ a.pid = b.pid ∧ a.continuityCounter = b.continuityCounter := by
  refine ⟨fun h => ?_, fun ⟨h1, h2⟩ => by unfold TS.Packet.text; rw [h1, h2]⟩
  unfold TS.Packet.text at h
  have h := List.append_cancel_left h
  obtain ⟨e1, _, h⟩ := split_unique (P := isHex) (pad2_all (by decide) (hex_all a.pid)) (pad2_all (by decide) (hex_all b.pid))
    (c := ',') (c' := ',') (by decide) (by decide) h
  have h := List.append_cancel_right (List.append_cancel_left (as := " Counter: ".toList) h)
  exact ⟨pad2_inj (by decide) (by decide) e1, toDigits_inj (by decide) (by decide) _ _ h⟩

/-- **C94**, chroma formats: each of the three formats has its own name and everything else is called invalid. -/
theorem C94_chroma (a b : Nat) : (chromaText a = chromaText b ↔ a = b ∨ (a ∉ [1, 2, 3] ∧ b ∉ [1, 2, 3])) := by
  have key : ∀ n : Nat, n = 1 ∨ n = 2 ∨ n = 3 ∨ (n ∉ [1, 2, 3] ∧ chromaText n = "[Invalid]".toList) := by
    intro n
    by_cases h1 : n = 1
    · tauto
    by_cases h2 : n = 2
    · tauto
    by_cases h3 : n = 3
    · tauto
    refine .inr (.inr (.inr ⟨by simp [h1, h2, h3], ?_⟩))
    unfold chromaText
    rw [if_neg h1, if_neg h2, if_neg h3]
  rcases key a with rfl | rfl | rfl | ⟨ha, ta⟩ <;> rcases key b with rfl | rfl | rfl | ⟨hb, tb⟩
  all_goals first
    | decide
    | (rw [tb]; constructor
       · intro h; exact absurd h (by decide)
       · rintro (rfl | ⟨h, _⟩)
         · exact absurd hb (by decide)
         · exact absurd h (by decide))
    | (rw [ta]; constructor
       · intro h; exact absurd h (by decide)
       · rintro (rfl | ⟨_, h⟩)
         · exact absurd ha (by decide)
         · exact absurd h (by decide))
    | (rw [ta, tb]; exact ⟨fun _ => .inr ⟨ha, hb⟩, fun _ => rfl⟩)

/-- Printed forms of actual values: half past nine in a drop frame code, a B picture, a packet of PID 0x1fff, 4:2:2. -/
example : String.ofList (TimeCode.text ⟨true, 9, 30, 5, 29⟩) = "9:30:05;29" ∧
    String.ofList (PictureHeader.text ⟨17, 3, 0, 0, 0, 0, 0, []⟩) = "[B17]" ∧ String.ofList (chromaText 2) = "4:2:2" := by
  decide +kernel

/-- Ten o'clock. -/
example : 10 ≤ (GOPHeader.time ⟨10 * 2 ^ 19, true, false⟩).hours ∧ (GOPHeader.time ⟨9 * 2 ^ 19, true, false⟩).hours < 10 := by
  decide +kernel

/-! ### C96 -/

namespace Video
open Spec
open _root_.Mpeg.BR (Took)

theorem withNext_ok {α : Type} {m : Go BR α} {s b : BR} {x : α} (h : m s = (.ok x, b)) :
    withNext m s = (match nextStartCode b with
      | (.err e, s') => (.ok (some x, some e), s')
      | (_, s') => (.ok (some x, none), s')) := by
  unfold withNext
  rw [h]
  have := safe_nextStartCode b
  cases hn : nextStartCode b with
  | mk r s' =>
    rw [hn] at this
    cases r with
    | ok u => dsimp only; rw [hn]
    | err e => dsimp only; rw [hn]
    | panic => exact absurd rfl this.1
    | hang => exact absurd rfl this.2

theorem withNext_inv {α : Type} {m : Go BR α} {s s' : BR} {x : α} {e : Option Err}
    (h : withNext m s = (.ok (some x, e), s')) : ∃ b, m s = (.ok x, b) := by
  unfold withNext at h
  cases hm : m s with
  | mk r b =>
    rw [hm] at h
    cases r with
    | ok a =>
      simp only at h
      cases hn : nextStartCode b with
      | mk r' s1 =>
        rw [hn] at h
        cases r' <;> cases h
        all_goals exact ⟨b, rfl⟩
    | err e => cases h
    | panic => cases h
    | hang => cases h

theorem sequenceHeaderFields_enc {r : List Bool} {pos : Nat} {stop : Err} {later : List (List Bool × Err)} (h : Seq) (hw : h.WF) :
    sequenceHeaderFields ⟨encSeq h ++ r, pos, stop, later⟩ = (.ok (viewSeq h), ⟨r, pos + (encSeq h).length, stop, later⟩) := by
  have hl := length_encSeq h hw
  rw [hl]
  obtain ⟨h1, h2, h3, h4, h5, h6, h7, h8⟩ := hw
  unfold sequenceHeaderFields
  simp only [encSeq, List.append_assoc, List.cons_append, List.nil_append]
  rw [Go.bind_ok (startCode_bits _ (by decide)), Go.bind_ok (BR.read_bitsOf ..), Go.bind_ok (BR.read_bitsOf ..),
    Go.bind_ok (BR.read_bitsOf ..), Go.bind_ok (BR.read_bitsOf ..), Go.bind_ok (BR.read_bitsOf ..),
    Go.bind_ok (markerBit_cons true), Go.bind_ok (BR.read_bitsOf ..), Go.bind_ok (BR.read1_cons _),
    Go.bind_ok (readFlag_enc _), Go.bind_ok (optMatrix_enc _ _ h7 rfl), Go.bind_ok (readFlag_enc _),
    Go.bind_ok (optMatrix_enc _ _ h8 rfl)]
  have hpos : pos + 32 + 12 + 12 + 4 + 4 + 18 + 1 + 10 + 1 + loadLen h.intra + loadLen h.nonIntra =
      pos + (94 + loadLen h.intra + loadLen h.nonIntra) := by omega
  rw [hpos, Go.pure_apply, Nat.mod_eq_of_lt h1, Nat.mod_eq_of_lt h2,
    Nat.mod_eq_of_lt h3, Nat.mod_eq_of_lt h4, Nat.mod_eq_of_lt h5, Nat.mod_eq_of_lt h6]
  rfl

theorem gopHeaderFields_enc {r : List Bool} {pos : Nat} {stop : Err} {later : List (List Bool × Err)} (h : GOP) (hw : h.WF) :
    gopHeaderFields ⟨encGOP h ++ r, pos, stop, later⟩ =
      (.ok ⟨timeOf h, h.closed, h.broken⟩, ⟨r, pos + (encGOP h).length, stop, later⟩) := by
  rw [length_encGOP]
  unfold gopHeaderFields encGOP
  rw [timeOf_bits h hw]
  simp only [List.append_assoc, List.cons_append, List.nil_append]
  rw [Go.bind_ok (startCode_bits _ (by decide)), Go.bind_ok (BR.read_bitsOf ..), Go.bind_ok (BR.read1_cons _),
    Go.bind_ok (BR.read1_cons _), Go.pure_apply, Nat.mod_eq_of_lt (timeOf_lt h hw)]

theorem sequenceHeaderFields_inv {x : SequenceHeader} {s s' : BR} (h : sequenceHeaderFields s = (.ok x, s')) :
    ∃ e : Seq, e.WF ∧ Took s (encSeq e) s' := by
  unfold sequenceHeaderFields at h
  obtain ⟨_, s1, h1, h⟩ := Go.bind_eq_ok h
  obtain ⟨v1, s2, h2, h⟩ := Go.bind_eq_ok h
  obtain ⟨v2, s3, h3, h⟩ := Go.bind_eq_ok h
  obtain ⟨v3, s4, h4, h⟩ := Go.bind_eq_ok h
  obtain ⟨v4, s5, h5, h⟩ := Go.bind_eq_ok h
  obtain ⟨v5, s6, h6, h⟩ := Go.bind_eq_ok h
  obtain ⟨_, s7, h7, h⟩ := Go.bind_eq_ok h
  obtain ⟨v6, s8, h8, h⟩ := Go.bind_eq_ok h
  obtain ⟨v7, s9, h9, h⟩ := Go.bind_eq_ok h
  obtain ⟨f1, s10, h10, h⟩ := Go.bind_eq_ok h
  obtain ⟨m1, s11, h11, h⟩ := Go.bind_eq_ok h
  obtain ⟨f2, s12, h12, h⟩ := Go.bind_eq_ok h
  obtain ⟨m2, s13, h13, h⟩ := Go.bind_eq_ok h
  simp only [Go.pure_apply, Prod.mk.injEq, Res.ok.injEq] at h
  obtain ⟨rfl, rfl⟩ := h
  obtain ⟨t2, b2⟩ := PES.read_inv' h2
  obtain ⟨t3, b3⟩ := PES.read_inv' h3
  obtain ⟨t4, b4⟩ := PES.read_inv' h4
  obtain ⟨t5, b5⟩ := PES.read_inv' h5
  obtain ⟨t6, b6⟩ := PES.read_inv' h6
  obtain ⟨t8, b8⟩ := PES.read_inv' h8
  obtain ⟨x1, w1, t10, rfl, rfl⟩ := load_inv h10 h11
  obtain ⟨x2, w2, t12, rfl, rfl⟩ := load_inv h12 h13
  refine ⟨⟨v1, v2, v3, v4, v5, v6, v7, x1, x2⟩, ⟨b2, b3, b4, b5, b6, b8, w1, w2⟩, ?_⟩
  have := (startCode_inv h1).trans (t2.trans (t3.trans (t4.trans (t5.trans (t6.trans ((markerBit_inv h7).trans
    (t8.trans ((BR.read1_inv h9).trans (t10.trans t12)))))))))
  simpa only [encSeq, List.append_assoc] using this

theorem gopHeaderFields_inv {x : GOPHeader} {s s' : BR} (h : gopHeaderFields s = (.ok x, s')) :
    ∃ e : GOP, e.WF ∧ Took s (encGOP e) s' := by
  unfold gopHeaderFields at h
  obtain ⟨_, s1, h1, h⟩ := Go.bind_eq_ok h
  obtain ⟨v2, s2, h2, h⟩ := Go.bind_eq_ok h
  obtain ⟨v3, s3, h3, h⟩ := Go.bind_eq_ok h
  obtain ⟨v4, s4, h4, h⟩ := Go.bind_eq_ok h
  simp only [Go.pure_apply, Prod.mk.injEq, Res.ok.injEq] at h
  obtain ⟨rfl, rfl⟩ := h
  obtain ⟨t2, b2⟩ := PES.read_inv' h2
  obtain ⟨e, w, rfl, rfl, rfl⟩ := timeOf_split v2 b2 v3 v4
  refine ⟨e, w, ?_⟩
  have := (startCode_inv h1).trans (t2.trans ((BR.read1_inv h3).trans (BR.read1_inv h4)))
  unfold encGOP
  rw [timeOf_bits e w]
  simpa only [List.append_assoc] using this

theorem safe_sequenceFields : Go.Safe sequenceHeaderFields := by unfold sequenceHeaderFields; safe_steps
theorem safe_gopFields : Go.Safe gopHeaderFields := by unfold gopHeaderFields; safe_steps

theorem withNext_total {α : Type} {m : Go BR α} (hm : Go.Safe m) (s : BR) :
    (∃ p s', withNext m s = (.ok p, s')) ∧ ∀ s', withNext m s ≠ (.ok (none, none), s') := by
  unfold withNext
  obtain ⟨k1, k2⟩ := hm s
  cases h : m s with
  | mk r b =>
    rw [h] at k1 k2
    cases r with
    | ok x =>
      have := safe_nextStartCode b
      dsimp only
      cases hn : nextStartCode b with
      | mk r' s1 =>
        rw [hn] at this
        cases r' with
        | ok u => exact ⟨⟨_, _, rfl⟩, fun s' e => by cases e⟩
        | err e => exact ⟨⟨_, _, rfl⟩, fun s' e => by cases e⟩
        | panic => exact absurd rfl this.1
        | hang => exact absurd rfl this.2
    | err e => exact ⟨⟨_, _, rfl⟩, fun s' e => by cases e⟩
    | panic => exact absurd rfl k1
    | hang => exact absurd rfl k2

/-- The fields of a sequence header and the header with `next_start_code` behind it. -/
theorem readSequenceHeader_eq : readSequenceHeader = (do let h ← sequenceHeaderFields; nextStartCode; pure h) := by
  unfold readSequenceHeader sequenceHeaderFields
  simp only [bind_assoc, pure_bind]

theorem readGOPHeader_eq : readGOPHeader = (do let h ← gopHeaderFields; nextStartCode; pure h) := by
  unfold readGOPHeader gopHeaderFields
  simp only [bind_assoc, pure_bind]

/-- The two results and the single result of a parser. -/
theorem both_iff {α : Type} {m : Go BR α} {s s' : BR} {x : α} :
    withNext m s = (.ok (some x, none), s') ↔ (do let h ← m; nextStartCode; pure h) s = (.ok x, s') := by
  constructor
  · intro h
    obtain ⟨b, hb⟩ := withNext_inv h
    rw [withNext_ok hb] at h
    refine (Go.bind_ok hb).trans ?_
    have := safe_nextStartCode b
    cases hn : nextStartCode b with
    | mk r s1 =>
      rw [hn] at h this
      cases r with
      | ok u => cases h; exact (Go.bind_ok hn).trans rfl
      | err e => cases h
      | panic => exact absurd rfl this.1
      | hang => exact absurd rfl this.2
  · intro h
    obtain ⟨y, b, hb, h⟩ := Go.bind_eq_ok h
    obtain ⟨u, b1, hn, h⟩ := Go.bind_eq_ok h
    simp only [Go.pure_apply, Prod.mk.injEq, Res.ok.injEq] at h
    obtain ⟨rfl, rfl⟩ := h
    rw [withNext_ok hb, hn]

variable {r : List Bool} {pos : Nat} {stop : Err} {later : List (List Bool × Err)}

/-- **C96**, `ReadSequenceHeader`: after every sequence header, whatever follows it, the header is returned with exactly its
fields; the error is that of the search for the next start code (`C34_fail`), and nil if there is one.  In particular the
header is not lost when the data ends behind it. -/
theorem C96_sequence (h : Seq) (hw : h.WF) :
    ∃ x e s', readSequenceHeaderBoth ⟨encSeq h ++ r, pos, stop, later⟩ = (.ok (some x, e), s') ∧
      x.horizontalSizeValue = h.width ∧ x.verticalSizeValue = h.height ∧ x.aspectRatioInformation = h.aspect ∧
      x.frameRateCode = h.rate ∧ x.bitRateValue = h.bitRate ∧ x.vbvBufferSizeValue = h.vbv ∧
      x.constrainedParametersFlag = h.constrained ∧ x.loadIntra = h.intra.isSome ∧ x.loadNonIntra = h.nonIntra.isSome ∧
      (∀ m, h.intra = some m → x.intra = m) ∧ (∀ m, h.nonIntra = some m → x.nonIntra = m) ∧
      (∀ e', e = some e' ↔ (nextStartCode ⟨r, pos + (encSeq h).length, stop, later⟩).1 = .err e') ∧
      s' = (nextStartCode ⟨r, pos + (encSeq h).length, stop, later⟩).2 := by
  have h1 := withNext_ok (sequenceHeaderFields_enc (r := r) (pos := pos) (stop := stop) (later := later) h hw)
  unfold readSequenceHeaderBoth
  rw [h1]
  have hs := safe_nextStartCode ⟨r, pos + (encSeq h).length, stop, later⟩
  cases hn : nextStartCode ⟨r, pos + (encSeq h).length, stop, later⟩ with
  | mk res s' =>
    rw [hn] at hs
    cases res with
    | ok u =>
      refine ⟨viewSeq h, none, s', rfl, rfl, rfl, rfl, rfl, rfl, rfl, rfl, rfl, rfl, ?_, ?_, by simp, rfl⟩
      · intro m hm; simp [viewSeq, hm]
      · intro m hm; simp [viewSeq, hm]
    | err e =>
      refine ⟨viewSeq h, some e, s', rfl, rfl, rfl, rfl, rfl, rfl, rfl, rfl, rfl, rfl, ?_, ?_, by simp, rfl⟩
      · intro m hm; simp [viewSeq, hm]
      · intro m hm; simp [viewSeq, hm]
    | panic => exact absurd rfl hs.1
    | hang => exact absurd rfl hs.2

/-- **C96**, `ReadGOPHeader`: the same. -/
theorem C96_group (h : GOP) (hw : h.WF) :
    ∃ x e s', readGOPHeaderBoth ⟨encGOP h ++ r, pos, stop, later⟩ = (.ok (some x, e), s') ∧
      x.time = ⟨h.dropFrame, h.hours, h.minutes, h.seconds, h.pictures⟩ ∧ x.closedGOP = h.closed ∧ x.brokenLink = h.broken ∧
      (∀ e', e = some e' ↔ (nextStartCode ⟨r, pos + (encGOP h).length, stop, later⟩).1 = .err e') ∧
      s' = (nextStartCode ⟨r, pos + (encGOP h).length, stop, later⟩).2 := by
  have h1 := withNext_ok (gopHeaderFields_enc (r := r) (pos := pos) (stop := stop) (later := later) h hw)
  unfold readGOPHeaderBoth
  rw [h1]
  have hs := safe_nextStartCode ⟨r, pos + (encGOP h).length, stop, later⟩
  cases hn : nextStartCode ⟨r, pos + (encGOP h).length, stop, later⟩ with
  | mk res s' =>
    rw [hn] at hs
    cases res with
    | ok u => exact ⟨_, none, s', rfl, time_eq h hw _ _, rfl, rfl, by simp, rfl⟩
    | err e => exact ⟨_, some e, s', rfl, time_eq h hw _ _, rfl, rfl, by simp, rfl⟩
    | panic => exact absurd rfl hs.1
    | hang => exact absurd rfl hs.2

/-- **C96**, converse: a header is returned only when the data begins with one, and nothing is invented: a nil header comes
with an error, and neither function ever panics or fails to return. -/
theorem C96_only (s : BR) :
    ((∃ x e s', readSequenceHeaderBoth s = (.ok (some x, e), s')) ↔ ∃ h r, Seq.WF h ∧ s.bits = encSeq h ++ r) ∧
    ((∃ x e s', readGOPHeaderBoth s = (.ok (some x, e), s')) ↔ ∃ h r, GOP.WF h ∧ s.bits = encGOP h ++ r) ∧
    (∀ s', readSequenceHeaderBoth s ≠ (.ok (none, none), s')) ∧ (∀ s', readGOPHeaderBoth s ≠ (.ok (none, none), s')) ∧
    (∃ p s', readSequenceHeaderBoth s = (.ok p, s')) ∧ (∃ p s', readGOPHeaderBoth s = (.ok p, s')) := by
  refine ⟨⟨?_, ?_⟩, ⟨?_, ?_⟩, (withNext_total safe_sequenceFields s).2, (withNext_total safe_gopFields s).2,
    (withNext_total safe_sequenceFields s).1, (withNext_total safe_gopFields s).1⟩
  · rintro ⟨x, e, s', h⟩
    obtain ⟨b, hb⟩ := withNext_inv h
    obtain ⟨h, w, t⟩ := sequenceHeaderFields_inv hb
    exact ⟨h, _, w, t.bits⟩
  · rintro ⟨h, r, w, hb⟩
    obtain ⟨x, e, s', k, -⟩ := C96_sequence (r := r) (pos := s.pos) (stop := s.stop) (later := s.later) h w
    exact ⟨x, e, s', by rw [mk_of_bits hb]; exact k⟩
  · rintro ⟨x, e, s', h⟩
    obtain ⟨b, hb⟩ := withNext_inv h
    obtain ⟨h, w, t⟩ := gopHeaderFields_inv hb
    exact ⟨h, _, w, t.bits⟩
  · rintro ⟨h, r, w, hb⟩
    obtain ⟨x, e, s', k, -⟩ := C96_group (r := r) (pos := s.pos) (stop := s.stop) (later := s.later) h w
    exact ⟨x, e, s', by rw [mk_of_bits hb]; exact k⟩

/-- **C96**, internal use: `sequence_header` and the group loop drop the header when there is an error, which is what the
models used elsewhere return. -/
theorem C96_internal (s s' : BR) :
    (∀ x, readSequenceHeaderBoth s = (.ok (some x, none), s') ↔ readSequenceHeader s = (.ok x, s')) ∧
    (∀ x, readGOPHeaderBoth s = (.ok (some x, none), s') ↔ readGOPHeader s = (.ok x, s')) := by
  unfold readSequenceHeaderBoth readGOPHeaderBoth
  rw [readSequenceHeader_eq, readGOPHeader_eq]
  exact ⟨fun x => both_iff, fun x => both_iff⟩

/-- A header at the end of the data is returned together with `io.EOF`. -/
example : (match (readSequenceHeaderBoth ⟨encSeq exSeq, 0, .eof, []⟩).1 with
    | .ok (some x, e) => x.horizontalSizeValue == 720 && x.verticalSizeValue == 576 && decide (e = some .eof)
    | _ => false) = true := by decide +kernel

end Video
end Mpeg
