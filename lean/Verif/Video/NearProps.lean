/-
C125: how far the decoder looks ahead.
-/
import Verif.Video.NearLemmas2
import Verif.Video.CausProps
import Verif.Video.Mpeg1Props
set_option linter.all false
namespace Mpeg.Video
open Spec
open HasBR (ext br)

/-- **C125** The decoder looks at most 32 bits ahead.  From any state of the decoder, on any input `X ++ t`: if `Next` stops
at least 32 bits before the end of `X`, then its result - a picture, an error, a panic - and the state that it leaves depend
on `X` only.  Whatever follows `X` in place of `t`, and also if nothing follows, `Next` returns the same, leaves the same
state and stands at the same place of the input. -/
theorem C125 (fuel k : Nat) (s : VS) (p : Nat) (X t : List Bool)
    (h : t.length + 32 ≤ (VS.next fuel k { s with br := ⟨X ++ t, p, .eof, []⟩ }).2.br.bits.length) :
    ∃ (r : Res Frame) (s1 : VS) (rest : List Bool) (q : Nat), ∀ t', VS.next fuel k { s with br := ⟨X ++ t', p, .eof, []⟩ } =
      (r, { s1 with br := ⟨rest ++ t', q, .eof, []⟩ }) := by
  obtain ⟨h1, h2, h3⟩ := near_next fuel k { s with br := ⟨X, p, .eof, []⟩ } ⟨rfl, rfl⟩
  have h4 : VS.next fuel k { s with br := ⟨X ++ t, p, .eof, []⟩ } = _ := (h3 t).resolve_right fun h5 => by
    have h6 : (VS.next fuel k { s with br := ⟨X ++ t, p, .eof, []⟩ }).2.br.bits.length < t.length + 32 := h5.1
    omega
  rw [h4] at h
  have h5 : 32 ≤ (VS.next fuel k { s with br := ⟨X, p, .eof, []⟩ }).2.br.bits.length := by
    have h6 : t.length + 32 ≤ ((VS.next fuel k { s with br := ⟨X, p, .eof, []⟩ }).2.br.bits ++ t).length := h
    rw [List.length_append] at h6; omega
  generalize VS.next fuel k { s with br := ⟨X, p, .eof, []⟩ } = x at h1 h3 h5
  obtain ⟨r, s1⟩ := x
  refine ⟨r, s1, s1.br.bits, s1.br.pos, fun t' => ?_⟩
  have h6 : VS.next fuel k { s with br := ⟨X ++ t', p, .eof, []⟩ } = (r, { s1 with br := s1.br.ext t' }) :=
    (h3 t').resolve_right fun h7 => by
      have h8 : s1.br.bits.length = 0 := h7.2
      have h9 : 32 ≤ s1.br.bits.length := h5
      omega
  rw [h6]
  have h1 : s1.br.stop = .eof ∧ s1.br.later = [] := h1
  have h7 : s1.br.ext t' = ⟨s1.br.bits ++ t', s1.br.pos, .eof, []⟩ := by
    unfold BR.ext; rw [h1.1, h1.2]
  rw [h7]

theorem moves_plain {a b : BR} (h : BR.Moves a b) (hp : a.Plain) :
    b.Plain ∧ ∃ j, b.bits = a.bits.drop j ∧ (b.bits ≠ [] → b.pos = a.pos + j) := by
  induction h with
  | refl => exact ⟨hp, 0, rfl, fun _ => rfl⟩
  | adv k h ih =>
    obtain ⟨h1, j, h2, h3⟩ := ih
    refine ⟨h1, j + k, ?_, ?_⟩
    · show List.drop k _ = _
      rw [h2, List.drop_drop]
    · intro h4
      have h5 := h3 (fun h6 => h4 (by show List.drop k _ = []; rw [h6]; exact List.drop_nil))
      show _ + k = _
      rw [h5]; omega
  | fail h ih =>
    obtain ⟨h1, j, h2, h3⟩ := ih
    refine ⟨BR.plain_failTo h1, a.bits.length, ?_, fun h4 => absurd (BR.failTo_bits h1) h4⟩
    rw [BR.failTo_bits h1, List.drop_length]

/-- **C125** (pictures) A picture is there exactly when the start code behind it is there.  If `Next`, from any state of the
decoder, reads from an input and returns a picture, the input consists of what was read, one start code, and the rest; the
reader stands on the start code.  Whatever follows the start code, and also if nothing does, `Next` returns this very
picture and leaves the same state; and on every shorter input it reports the end of the input - no other error, and no
panic. -/
theorem C125_picture {fuel k : Nat} {s s' : VS} {p : Nat} {I : List Bool} {f : Frame}
    (h : VS.next fuel k { s with br := ⟨I, p, .eof, []⟩ } = (.ok f, s')) (hm : s'.br.bits ≠ I) :
    ∃ C c rest, I = C ++ (bitsOf 32 (0x100 + c) ++ rest) ∧ c < 256 ∧ (c = 0 ∨ 0xB0 ≤ c) ∧ (p + C.length) % 8 = 0 ∧
      (∀ t, VS.next fuel k { s with br := ⟨C ++ (bitsOf 32 (0x100 + c) ++ t), p, .eof, []⟩ } =
        (.ok f, { s' with br := ⟨bitsOf 32 (0x100 + c) ++ t, p + C.length, .eof, []⟩ })) ∧
      ∀ Z, Z.length < C.length + 32 → Z <+: C ++ bitsOf 32 (0x100 + c) →
        ∃ e s'', VS.next fuel k { s with br := ⟨Z, p, .eof, []⟩ } = (.err e, s'') ∧ (e = .eof ∨ e = .unexpectedEOF) := by
  have hl : (bitsOf 32 (0x100 + 0)).length = 32 := rfl
  have h81 := C81 h
  rcases h81 with h81 | ⟨c, rest, hc, hc', hb, hpos⟩
  · rw [h81] at hm; exact absurd rfl hm
  have hlen : (bitsOf 32 (0x100 + c)).length = 32 := length_bitsOf ..
  obtain ⟨hpl, j, hj, hq⟩ := moves_plain (mv_next fuel k { s with br := ⟨I, p, .eof, []⟩ }) ⟨rfl, rfl⟩
  rw [h] at hpl hj hq
  have hpl : s'.br.stop = .eof ∧ s'.br.later = [] := hpl
  have hj : s'.br.bits = I.drop j := hj
  have hq : s'.br.bits ≠ [] → s'.br.pos = p + j := hq
  have hne : s'.br.bits ≠ [] := by
    rw [hb]; intro h1
    have := congrArg List.length h1
    rw [List.length_append, hlen] at this
    simp at this
  have hq := hq hne
  have hjl : j ≤ I.length := by
    rcases Nat.lt_or_ge I.length j with h1 | h1
    · rw [List.drop_eq_nil_of_le (by omega)] at hj; exact absurd hj hne
    · exact h1
  have hI : I = I.take j ++ (bitsOf 32 (0x100 + c) ++ rest) := by
    rw [← hb, hj, List.take_append_drop]
  have hCl : (I.take j).length = j := by rw [List.length_take]; omega
  generalize hC : I.take j = C at hI hCl
  have hwait : s.fs.tryGet s.frameCounter = none := by
    cases hw : s.fs.tryGet s.frameCounter with
    | none => rfl
    | some g =>
      unfold VS.next at h
      rw [show VS.fs { s with br := ⟨I, p, .eof, []⟩ } = s.fs from rfl,
        show VS.frameCounter { s with br := ⟨I, p, .eof, []⟩ } = s.frameCounter from rfl, hw] at h
      cases h
      exact absurd rfl hm
  have hfull : ∀ t, VS.next fuel k { s with br := ⟨C ++ (bitsOf 32 (0x100 + c) ++ t), p, .eof, []⟩ } =
        (.ok f, { s' with br := ⟨bitsOf 32 (0x100 + c) ++ t, p + C.length, .eof, []⟩ }) := by
    obtain ⟨r, s1, rest', q, h1⟩ := C125 fuel k s p (C ++ bitsOf 32 (0x100 + c)) rest (by
      rw [List.append_assoc, ← hI, h]
      show rest.length + 32 ≤ s'.br.bits.length
      rw [hb, List.length_append, hlen]; omega)
    have h2 := h1 rest
    rw [List.append_assoc, ← hI, h] at h2
    injection h2 with h2 h3
    subst h2
    intro t
    rw [← List.append_assoc, h1 t, h3]
    have h4 : s'.br = ⟨rest' ++ rest, q, .eof, []⟩ := by rw [h3]
    rw [h4] at hb hq
    have h5 : rest' = bitsOf 32 (0x100 + c) := List.append_cancel_right hb
    have hq : q = p + j := hq
    rw [h5, hq, hCl]
  refine ⟨C, c, rest, hI, hc, hc', by rw [hCl, ← hq]; exact hpos, hfull, ?_⟩
  rintro Z hZ ⟨u, hu⟩
  have hul : 0 < u.length := by
    have := congrArg List.length hu
    simp only [List.length_append, hlen] at this
    omega
  have h1 := caus_next fuel k { s with br := ⟨Z, p, .eof, []⟩ } u ⟨rfl, rfl⟩
  have h2 := hfull []
  rw [List.append_nil, ← hu] at h2
  have h3 : VS.next fuel k (ext ({ s with br := ⟨Z, p, .eof, []⟩ } : VS) u) = _ := h2
  rw [h3] at h1
  generalize hx : VS.next fuel k { s with br := ⟨Z, p, .eof, []⟩ } = x at h1
  obtain ⟨r, s1⟩ := x
  obtain ⟨h4, h5⟩ := h1
  cases r with
  | ok g =>
    exfalso
    rcases h5 with h5 | ⟨⟨⟩, _⟩
    injection h5 with h6 h7
    have h8 : (⟨bitsOf 32 (0x100 + c), p + C.length, .eof, []⟩ : BR) = s1.br.ext u := congrArg VS.br h7
    have h9 : (bitsOf 32 (0x100 + c)).length = s1.br.bits.length + u.length := by
      rw [show bitsOf 32 (0x100 + c) = (s1.br.ext u).bits by rw [← h8]]
      exact List.length_append
    unfold VS.next at hx
    rw [show VS.fs { s with br := ⟨Z, p, .eof, []⟩ } = s.fs from rfl,
      show VS.frameCounter { s with br := ⟨Z, p, .eof, []⟩ } = s.frameCounter from rfl, hwait] at hx
    obtain ⟨c2, rest2, _, _, hb2, _⟩ := nextLoop_sync k hx
    have h10 := congrArg List.length hb2
    rw [List.length_append, length_bitsOf] at h10
    omega
  | err e =>
    rcases h5 with h5 | ⟨_, h5⟩
    · exact ⟨e, s1, rfl, h5.1⟩
    · cases h5
  | panic => cases h5
  | hang => cases h5

/-- the state after `n` calls of `Next` -/
def afterCalls (fuel k : Nat) : Nat → VS → VS
  | 0, s => s
  | n + 1, s => afterCalls fuel k n (VS.next fuel k s).2

theorem afterCalls_len (fuel k : Nat) : ∀ n (s : VS), s.br.Plain →
    (afterCalls fuel k n s).br.bits.length ≤ s.br.bits.length
  | 0, s, _ => Nat.le_refl _
  | n + 1, s, hp => by
    obtain ⟨h1, h2, _⟩ := near_next fuel k s hp
    exact Nat.le_trans (afterCalls_len fuel k n _ h1) h2

/-- **C125** (calls) The same holds for any number of calls: if the last of `n` calls of `Next` stops at least 32 bits before
the end of `X`, what the calls return depends on `X` only. -/
theorem C125_calls (fuel k : Nat) : ∀ (n : Nat) (s : VS) (p : Nat) (X t : List Bool),
    t.length + 32 ≤ (afterCalls fuel k n { s with br := ⟨X ++ t, p, .eof, []⟩ }).br.bits.length →
    ∀ t', outcomes fuel k n { s with br := ⟨X ++ t', p, .eof, []⟩ } = outcomes fuel k n { s with br := ⟨X ++ t, p, .eof, []⟩ }
  | 0, _, _, _, _, _, _ => rfl
  | n + 1, s, p, X, t, h, t' => by
    have h0 : t.length + 32 ≤ (afterCalls fuel k n (VS.next fuel k { s with br := ⟨X ++ t, p, .eof, []⟩ }).2).br.bits.length := h
    obtain ⟨hp, _⟩ := near_next fuel k { s with br := ⟨X ++ t, p, .eof, []⟩ } ⟨rfl, rfl⟩
    obtain ⟨r, s1, rest, q, h1⟩ := C125 fuel k s p X t
      (Nat.le_trans h0 (afterCalls_len fuel k n (VS.next fuel k { s with br := ⟨X ++ t, p, .eof, []⟩ }).2 hp))
    rw [h1 t] at h0
    have h2 := C125_calls fuel k n s1 q rest t h0 t'
    unfold outcomes
    rw [h1 t', h1 t]
    cases r with
    | ok f => simp only [h2]
    | err e => simp only [h2]
    | panic => rfl
    | hang => rfl

/-! ### concrete cases -/

open ExStream

/-- The stream of one picture: after the first call its sequence end code is left, so whatever follows the sequence end code
does not matter to the picture. -/
example : ([] : List Bool).length + 32 ≤
    (VS.next 1000 2 { VS.new (.ofBits []) with br := ⟨one ++ [], 0, .eof, []⟩ }).2.br.bits.length := by decide +kernel
example (t' : List Bool) : outcomes 1000 2 1 { VS.new (.ofBits []) with br := ⟨one ++ t', 0, .eof, []⟩ } =
    outcomes 1000 2 1 { VS.new (.ofBits []) with br := ⟨one ++ [], 0, .eof, []⟩ } :=
  C125_calls 1000 2 1 _ 0 one [] (by decide +kernel) t'
/-- and one bit less gives no picture -/
example : kinds (outcomes 1000 2 1 (VS.new (.ofBits (one.take (one.length - 1))))) = [2] := by decide +kernel

end Mpeg.Video
