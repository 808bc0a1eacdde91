/-
C148 for any number of gaps.
-/
import Verif.Video.GapProps
set_option linter.all false
namespace Mpeg.Video
open Spec

namespace Spec

/-- A part of a stream of C147, cut out anywhere, in which no element with the start code `n` begins. -/
def CleanPart (n : Nat) (m : List Bool) : Prop :=
  ∃ cs p b, CleanStream cs (p ++ (m ++ b)) ∧ ((p ≠ [] ∧ n ∉ cs.tail) ∨ n ∉ cs)

/-- An application that looks for the start code `n`: it calls `AlignTo`; `k` times the element turns out to be false, the start code is
skipped and `AlignTo` called again. -/
inductive Finds (n : Nat) : Nat → BR → BR → Prop
  | here {s t : BR} (h : alignTo (0x100 + n) s = (.ok (), t)) : Finds n 0 s t
  | again {k : Nat} {s s1 s2 t : BR} (h1 : alignTo (0x100 + n) s = (.ok (), s1)) (h2 : BR.skip 32 s1 = (.ok (), s2)) (h3 : Finds n k s2 t) :
      Finds n (k + 1) s t

end Spec

/-- the start code `n` does not occur in `m` -/
def CodeAbsent (n : Nat) (m : List Bool) : Prop := ∀ i, i + 32 ≤ m.length → (m.drop i).take 32 ≠ bitsOf 32 (0x100 + n)

theorem CodeAbsent.drop {n : Nat} {m : List Bool} (h : CodeAbsent n m) (x : Nat) : CodeAbsent n (m.drop x) := by
  intro i hi
  rw [List.length_drop] at hi
  rw [List.drop_drop]
  exact h _ (by omega)

theorem part_absent {n : Nat} (hn : n < 256) {m : List Bool} (h : CleanPart n m) : CodeAbsent n m := by
  obtain ⟨cs, p, b, h1, h2⟩ := h
  intro i hi
  have := C147_absent h1 hn h2 [] i (by rw [List.length_append]; omega)
  rw [List.append_assoc, List.drop_append_of_le_length (by omega), List.take_append_of_le_length (by rw [List.length_drop]; omega)] at this
  exact this

/-- the rest of parts -/
theorem gap_drop {n : Nat} : ∀ (ms : List (List Bool)) (x : Nat), x ≤ ms.flatten.length → (∀ m ∈ ms, CodeAbsent n m) →
    ∃ ms' : List (List Bool), ms.flatten.drop x = ms'.flatten ∧ ms'.length ≤ ms.length ∧ ∀ m ∈ ms', CodeAbsent n m
  | [], x, hx, _ => ⟨[], by simp, Nat.le_refl _, fun m hm => by cases hm⟩
  | m :: ms, x, hx, h => by
    rw [List.flatten_cons, List.length_append] at hx
    by_cases hm : x ≤ m.length
    · refine ⟨m.drop x :: ms, by rw [List.flatten_cons, List.flatten_cons, List.drop_append_of_le_length hm], Nat.le_refl _, fun y hy => ?_⟩
      cases hy with
      | head => exact (h m (.head _)).drop x
      | tail _ hy => exact h y (.tail _ hy)
    · obtain ⟨ms', e1, e2, e3⟩ := gap_drop ms (x - m.length) (by omega) fun y hy => h y (.tail _ hy)
      refine ⟨ms', ?_, by rw [List.length_cons]; omega, e3⟩
      rw [List.flatten_cons, List.drop_append, List.drop_eq_nil_of_le (by omega), List.nil_append, e1]

/-- behind a start code that occurs in no part there is at least one part less -/
theorem gap_code {n : Nat} : ∀ (ms : List (List Bool)) (i : Nat), i + 32 ≤ ms.flatten.length → (∀ m ∈ ms, CodeAbsent n m) →
    (ms.flatten.drop i).take 32 = bitsOf 32 (0x100 + n) →
    ∃ ms' : List (List Bool), ms.flatten.drop (i + 32) = ms'.flatten ∧ ms'.length < ms.length ∧ ∀ m ∈ ms', CodeAbsent n m
  | [], i, hi, _, _ => by simp at hi
  | m :: ms, i, hi, h, hc => by
    rw [List.flatten_cons, List.length_append] at hi
    rw [List.flatten_cons] at hc ⊢
    by_cases hm : m.length ≤ i
    · rw [List.drop_append, List.drop_eq_nil_of_le hm, List.nil_append] at hc
      obtain ⟨ms', e1, e2, e3⟩ := gap_code ms (i - m.length) (by omega) (fun y hy => h y (.tail _ hy)) hc
      refine ⟨ms', ?_, by rw [List.length_cons]; omega, e3⟩
      rw [List.drop_append, List.drop_eq_nil_of_le (by omega), List.nil_append, ← e1, show i + 32 - m.length = i - m.length + 32 by omega]
    · by_cases hm2 : i + 32 ≤ m.length
      · rw [List.drop_append_of_le_length (by omega), List.take_append_of_le_length (by rw [List.length_drop]; omega)] at hc
        exact absurd hc (h m (.head _) i hm2)
      · obtain ⟨ms', e1, e2, e3⟩ := gap_drop ms (i + 32 - m.length) (by omega) fun y hy => h y (.tail _ hy)
        refine ⟨ms', ?_, by rw [List.length_cons]; omega, e3⟩
        rw [List.drop_append, List.drop_eq_nil_of_le (by omega), List.nil_append, e1]

theorem finds_parts {n : Nat} (hn : n < 256) (h0 : n ≠ 0) (r : List Bool) : ∀ (c : Nat) (ms : List (List Bool)), ms.length ≤ c → (∀ m ∈ ms, CodeAbsent n m) →
    ∀ s : BR, fromBoundary s = ms.flatten ++ (bitsOf 32 (0x100 + n) ++ r) → ms.flatten.length % 8 = 0 →
    ∃ k, k ≤ ms.length ∧ Finds n k s ⟨bitsOf 32 (0x100 + n) ++ r, s.pos + padding s.pos + ms.flatten.length, s.stop, s.later⟩ := by
  intro c
  induction c with
  | zero =>
    intro ms hc h s hb h8
    obtain rfl : ms = [] := List.length_eq_zero_iff.mp (by omega)
    refine ⟨0, Nat.le_refl _, .here ?_⟩
    have := C147_alignTo (p := []) (m := []) (r := r) .nil hn (.inr (by simp)) s hb rfl
    exact this
  | succ c ih =>
    intro ms hc h s hb h8
    obtain ⟨q, hq⟩ : ∃ q, ms.flatten.length = 8 * q := ⟨ms.flatten.length / 8, by omega⟩
    have hat : ((fromBoundary s).drop (8 * q)).take 32 = bitsOf 32 (0x100 + n) := by
      rw [hb, List.drop_left' hq, List.take_left' (length_bitsOf ..)]
    rcases C35 (0x100 + n) (by omega) s with ⟨j, m1, m2, m3⟩ | ⟨m1, _⟩
    · have hjq : j ≤ q := Nat.le_of_not_lt fun hgt => absurd hat (m3 q hgt)
      rcases Nat.lt_or_ge j q with hlt | hge
      · -- a false start code
        have hin : 8 * j + 32 ≤ ms.flatten.length := by
          refine Nat.le_of_not_lt fun hgt => ?_
          have hx : fromBoundary s = (fromBoundary s).take (8 * j) ++ (prefix1 ++ (bitsOf 8 n ++ (fromBoundary s).drop (8 * j + 32))) := by
            rw [← List.append_assoc prefix1, ← bits_code hn, ← m2, ← List.drop_drop, List.take_append_drop, List.take_append_drop]
          have hx2 : fromBoundary s = ms.flatten ++ (prefix1 ++ (bitsOf 8 n ++ r)) := by
            rw [hb, bits_code hn, List.append_assoc]
          have hl : ((fromBoundary s).take (8 * j)).length = 8 * j := by
            rw [List.length_take, hb]
            simp only [List.length_append]
            omega
          have hap := prefix_apart (hx.symm.trans hx2) (by rw [hl]; omega)
          rw [hl] at hap
          have h24 : 8 * j + 24 = ms.flatten.length := by omega
          -- the last byte of the code is the first byte of the prefix
          have e1 : ((fromBoundary s).drop (8 * j + 24)).take 8 = bitsOf 8 n := by
            have : ((fromBoundary s).drop (8 * j)).take 32 = prefix1 ++ bitsOf 8 n := by rw [m2, bits_code hn]
            have h2 := congrArg (fun l => l.drop 24) this
            have h3 : (((fromBoundary s).drop (8 * j)).take 32).drop 24 = (prefix1 ++ bitsOf 8 n).drop 24 := h2
            rw [List.drop_take, List.drop_drop] at h3
            rw [h3]
            rfl
          have e2 : ((fromBoundary s).drop (8 * j + 24)).take 8 = zeros 8 := by
            rw [h24, hx2, List.drop_left' rfl, List.take_append_of_le_length (by decide)]
            rfl
          have : natOfBits (bitsOf 8 n) = natOfBits (zeros 8) := by rw [← e1, e2]
          rw [natOfBits_bitsOf, show natOfBits (zeros 8) = 0 by decide] at this
          omega
        have hcode : (ms.flatten.drop (8 * j)).take 32 = bitsOf 32 (0x100 + n) := by
          rw [hb, List.drop_append_of_le_length (by omega), List.take_append_of_le_length (by rw [List.length_drop]; omega)] at m2
          exact m2
        obtain ⟨ms', e1, e2, e3⟩ := gap_code ms (8 * j) hin h hcode
        have el : ms.flatten.length = 8 * j + 32 + ms'.flatten.length := by
          rw [← e1, List.length_drop]; omega
        have hpad : (s.pos + padding s.pos) % 8 = 0 := by unfold padding; omega
        have e0 : padding (s.pos + padding s.pos + 8 * j + 32) = 0 := by
          generalize s.pos + padding s.pos = q at hpad
          unfold padding; omega
        have hskip : BR.skip 32 ⟨(fromBoundary s).drop (8 * j), s.pos + padding s.pos + 8 * j, s.stop, s.later⟩ =
            (.ok (), BR.adv ⟨(fromBoundary s).drop (8 * j), s.pos + padding s.pos + 8 * j, s.stop, s.later⟩ 32) :=
          BR.skip_ok (by
            show 32 ≤ ((fromBoundary s).drop (8 * j)).length
            rw [List.length_drop, hb]
            simp only [List.length_append, length_bitsOf]
            omega)
        obtain ⟨k, k1, k2⟩ := ih ms' (by omega) e3 (BR.adv ⟨(fromBoundary s).drop (8 * j), s.pos + padding s.pos + 8 * j, s.stop, s.later⟩ 32) (by
          show ((((fromBoundary s).drop (8 * j)).drop 32).drop (padding (s.pos + padding s.pos + 8 * j + 32))) = _
          rw [e0, List.drop_zero, List.drop_drop, hb, List.drop_append_of_le_length (by omega), e1]) (by omega)
        refine ⟨k + 1, by omega, .again m1 hskip ?_⟩
        have ep : s.pos + padding s.pos + 8 * j + 32 + padding (s.pos + padding s.pos + 8 * j + 32) + ms'.flatten.length =
            s.pos + padding s.pos + ms.flatten.length := by rw [e0]; omega
        have k3 : Finds n k _ ⟨bitsOf 32 (0x100 + n) ++ r, s.pos + padding s.pos + 8 * j + 32 + padding (s.pos + padding s.pos + 8 * j + 32) + ms'.flatten.length,
          s.stop, s.later⟩ := k2
        rw [ep] at k3
        exact k3
      · obtain rfl : j = q := by omega
        refine ⟨0, Nat.zero_le _, .here ?_⟩
        rw [m1, hb, List.drop_left' hq, hq]
    · exact absurd hat (m1 q)

/-- **C148**, any number of gaps: of streams of elements any parts are received, cut anywhere, one behind the other, and then an element with the
start code `n`.  An application that calls `AlignTo`, and once more behind every false start code, gets to the true one, and there are at most
as many false ones as gaps (one behind every part). -/
theorem C148_gaps {n : Nat} (hn : n < 256) (h0 : n ≠ 0) {ms : List (List Bool)} (h : ∀ m ∈ ms, CleanPart n m) (s : BR) {r : List Bool}
    (hb : fromBoundary s = ms.flatten ++ (bitsOf 32 (0x100 + n) ++ r)) (h8 : ms.flatten.length % 8 = 0) :
    ∃ k, k ≤ ms.length ∧ Finds n k s ⟨bitsOf 32 (0x100 + n) ++ r, s.pos + padding s.pos + ms.flatten.length, s.stop, s.later⟩ :=
  finds_parts hn h0 r ms.length ms (Nat.le_refl _) (fun m hm => part_absent hn (h m hm)) s hb h8

/-- **C148**, resuming behind any number of gaps (partial: as C87): the decoder is in any state, and the data before the next sequence header are
any parts of streams.  With at most as many false sequence headers as gaps the application gets to the true one, and the calls of `Next` return
the pictures of the sequence. -/
theorem C148_resume_partial {W H fuel k base : Nat} {σ : Option Ctx} {prev : Option Image} {gs : List CGroup} {ms : List (List Bool)}
    {bits rest : List Bool} {imgs : List Image} (hk : 2 ≤ k) (hent : Entry gs) (s : VS)
    (hb : fromBoundary s.br = ms.flatten ++ (bits ++ (bitsOf 32 0x1B7 ++ rest))) (h8 : ms.flatten.length % 8 = 0)
    (hm : ∀ m ∈ ms, CleanPart 0xB3 m)
    (h : GroupsCode W H base σ prev (s.br.pos + padding s.br.pos + ms.flatten.length) gs bits imgs) (hf : bits.length < fuel) :
    ∃ c br, c ≤ ms.length ∧ Finds 0xB3 c s.br br ∧
      ∃ w frames t, nexts fuel k (w.length + imgs.length) { s with br := br } = (.ok (w ++ frames), t) ∧
      w.length ≤ 2 ∧ (∀ f ∈ w, ∃ r, (s.fs.f0 = some r ∨ s.fs.f1 = some r) ∧ r.frame = f) ∧
      (s.fs.tryGet s.frameCounter = none → w = []) ∧
      frames.length = imgs.length ∧ (∀ i (h1 : i < frames.length) (h2 : i < imgs.length), Shows W H frames[i] imgs[i]) ∧
      (VS.next fuel k t).1 = .err .eos ∧ (VS.next fuel k t).2.br.bits = rest := by
  obtain ⟨u, hu⟩ := entry_starts hent h
  have hpad : (s.br.pos + padding s.br.pos) % 8 = 0 := by unfold padding; omega
  obtain ⟨c, c1, c2⟩ := C148_gaps (n := 0xB3) (by omega) (by omega) hm s.br (r := u ++ (bitsOf 32 0x1B7 ++ rest)) (by rw [hb, hu, List.append_assoc]) h8
  refine ⟨c, _, c1, c2, ?_⟩
  obtain ⟨w, frames, t, r1, r2, r3, r4, r5⟩ := C87_partial (stop := s.br.stop) (later := s.br.later) (lead := 0) (rest := rest) hk hent h
    hf (by omega) (by omega) { s with br := ⟨bits ++ (bitsOf 32 0x1B7 ++ rest), s.br.pos + padding s.br.pos + ms.flatten.length, s.br.stop, s.br.later⟩ }
    (fun _ => rfl) rfl
  rw [hu, List.append_assoc] at r1
  exact ⟨w, frames, t, r1, r2, r3, r4, r5⟩

namespace GapEx

/-- three parts, of which two bytes, two bytes and five bytes are received -/
def parts : List (List Bool) := [bitsOf 16 0, bitsOf 16 0x01B3, m]
theorem parts_clean : ∀ x ∈ parts, CleanPart 0xB3 x := by
  intro x hx
  simp only [parts, List.mem_cons, List.not_mem_nil, or_false] at hx
  rcases hx with rfl | rfl | rfl
  · exact ⟨[0xB2], bitsOf 32 0x1B2, b, first, .inr (by decide)⟩
  · exact ⟨[0xB2], p, bitsOf 16 0x7777 ++ bitsOf 8 0x77, second, .inr (by decide)⟩
  · exact ⟨[0xB2], p, [], by rw [List.append_nil]; exact second, .inr (by decide)⟩

/-- there is a false sequence header at the first gap -/
example (r : List Bool) : ∃ k, k ≤ 3 ∧ Finds 0xB3 k ⟨parts.flatten ++ (bitsOf 32 (0x100 + 0xB3) ++ r), 0, .eof, []⟩
    ⟨bitsOf 32 (0x100 + 0xB3) ++ r, 0 + padding 0 + parts.flatten.length, .eof, []⟩ :=
  C148_gaps (n := 0xB3) (by decide) (by decide) parts_clean _ (by simp [fromBoundary, padding]) (by decide +kernel)

example : ∃ bits br c w frames t, Finds 0xB3 c ⟨parts.flatten ++ (bits ++ (bitsOf 32 0x1B7 ++ [])), 0, .eof, []⟩ br ∧ c ≤ 3 ∧
    nexts (bits.length + 1) 2 (w + 3) (ExStream.dirty br) = (.ok frames, t) := by
  obtain ⟨bits, imgs, h, h3⟩ := ExStream.stream_at (0 + padding 0 + parts.flatten.length)
  have hfb : fromBoundary (ExStream.dirty ⟨parts.flatten ++ (bits ++ (bitsOf 32 0x1B7 ++ [])), 0, .eof, []⟩).br =
      parts.flatten ++ (bits ++ (bitsOf 32 0x1B7 ++ [])) := by
    generalize parts.flatten ++ (bits ++ (bitsOf 32 0x1B7 ++ [])) = x
    show List.drop (padding 0) x = x
    rw [show padding 0 = 0 by decide]
    rfl
  obtain ⟨c, br, c1, c2, w, frames, t, r2, _⟩ := C148_resume_partial (rest := []) (k := 2) (Nat.le_refl _) ExStream.entry
    (ExStream.dirty ⟨parts.flatten ++ (bits ++ (bitsOf 32 0x1B7 ++ [])), 0, .eof, []⟩) hfb (by decide +kernel) parts_clean h (Nat.lt_succ_self _)
  exact ⟨bits, br, c, w.length, w ++ frames, t, c2, c1, by rw [← h3]; exact r2⟩

/-- a part that ends with the prefix of a start code, in front of a picture -/
def rd0 : BR := ⟨[prefix1].flatten ++ (bitsOf 32 (0x100 + 0) ++ bitsOf 16 0xFFFF), 0, .eof, []⟩
end GapEx

/-- **C148** is false for the picture start code `00`: the false start code that a prefix at the end of a part makes reaches into the true one, which is lost
when the false one is skipped. -/
theorem C148_picture_false : ∃ (ms : List (List Bool)) (r : List Bool), (∀ m ∈ ms, CleanPart 0 m) ∧ ms.flatten.length % 8 = 0 ∧
    ∀ k t, Finds 0 k ⟨ms.flatten ++ (bitsOf 32 (0x100 + 0) ++ r), 0, .eof, []⟩ t → t.pos ≠ ms.flatten.length := by
  refine ⟨[prefix1], bitsOf 16 0xFFFF, fun m hm => ?_, by decide, fun k t h => ?_⟩
  · rw [List.mem_singleton.mp hm]
    exact ⟨[0xB2], [], bitsOf 8 0xB2 ++ (bitsOf 16 0 ++ GapEx.b), GapEx.first, .inr (by decide)⟩
  · have h0 : alignTo 0x100 GapEx.rd0 = (.ok (), GapEx.rd0) := by decide +kernel
    have hl : [prefix1].flatten.length = 24 := by decide
    rw [hl]
    cases h with
    | here h =>
      have h' : (Res.ok (), GapEx.rd0) = (Res.ok (), t) := h0.symm.trans h
      obtain rfl : GapEx.rd0 = t := (Prod.mk.injEq .. ▸ h').2
      decide
    | again h1 h2 h3 =>
      rename_i s1 s2
      have h' : (Res.ok (), GapEx.rd0) = (Res.ok (), s1) := h0.symm.trans h1
      obtain rfl : GapEx.rd0 = s1 := (Prod.mk.injEq .. ▸ h').2
      have e2 : BR.skip 32 GapEx.rd0 = (.ok (), (BR.skip 32 GapEx.rd0).2) := by decide +kernel
      obtain rfl : (BR.skip 32 GapEx.rd0).2 = s2 := (Prod.mk.injEq .. ▸ (e2.symm.trans h2)).2
      have e3 : (alignTo 0x100 (BR.skip 32 GapEx.rd0).2).1 ≠ .ok () := by decide +kernel
      cases h3 with
      | here h => exact absurd (congrArg Prod.fst h) e3
      | again h _ _ => exact absurd (congrArg Prod.fst h) e3

end Mpeg.Video
