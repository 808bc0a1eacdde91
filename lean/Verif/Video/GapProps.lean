/-
C148: a gap in a stream makes at most one false start code.
-/
import Verif.Video.StartCodeProps
set_option linter.all false
namespace Mpeg.Video
open Spec

/-- Two start code prefixes do not overlap. -/
theorem prefix_apart {x y x' y' : List Bool} (h : x ++ (prefix1 ++ y) = x' ++ (prefix1 ++ y')) (hl : x.length < x'.length) :
    x.length + 24 ≤ x'.length := by
  refine Classical.byContradiction fun hn => ?_
  have h1 := congrArg (fun l => l[x.length + 23]?) h
  have e1 : (x ++ (prefix1 ++ y))[x.length + 23]? = some true := by
    rw [List.getElem?_append_right (by omega), List.getElem?_append_left (by simp [prefix1, zeros]),
      show x.length + 23 - x.length = 23 by omega]
    rfl
  have e2 : (x' ++ (prefix1 ++ y'))[x.length + 23]? = some false := by
    rw [List.getElem?_append_right (by omega), List.getElem?_append_left (by simp [prefix1, zeros]; omega)]
    unfold prefix1 zeros
    rw [List.getElem?_append_left (by simp; omega), List.getElem?_replicate, if_pos (by omega)]
  have h2 : (x ++ (prefix1 ++ y))[x.length + 23]? = (x' ++ (prefix1 ++ y'))[x.length + 23]? := h1
  rw [e1, e2] at h2
  cases h2

/-- **C148**: of a stream, only the part `a` is received, and then, after a gap, the part `m` of the same or another stream.  Every start
code prefix in what is received, at whatever bit position, is the beginning of an element of the first stream or of an element of
the second one, with at most one exception, which overlaps the gap. -/
theorem C148_gap {cs1 cs2 : List Nat} {a b p m : List Bool} (h1 : CleanStream cs1 (a ++ b)) (h2 : CleanStream cs2 (p ++ m)) (r : List Bool) :
    ∃ w, ∀ x y, a ++ (m ++ (prefix1 ++ r)) = x ++ (prefix1 ++ y) → x.length < a.length + m.length →
      (∃ ds c es l, cs1 = ds ++ c :: es ∧ CleanStream ds x ∧ CleanStream (c :: es) l ∧ a ++ b = x ++ l) ∨
      (∃ z ds c es l, x = a ++ z ∧ cs2 = ds ++ c :: es ∧ CleanStream ds (p ++ z) ∧ CleanStream (c :: es) l ∧ m = z ++ l) ∨
      (x.length = w ∧ x.length < a.length ∧ a.length < x.length + 24) := by
  have key : ∀ x y, a ++ (m ++ (prefix1 ++ r)) = x ++ (prefix1 ++ y) → x.length < a.length + m.length →
      (∃ ds c es l, cs1 = ds ++ c :: es ∧ CleanStream ds x ∧ CleanStream (c :: es) l ∧ a ++ b = x ++ l) ∨
      (∃ z ds c es l, x = a ++ z ∧ cs2 = ds ++ c :: es ∧ CleanStream ds (p ++ z) ∧ CleanStream (c :: es) l ∧ m = z ++ l) ∨
      (x.length < a.length ∧ a.length < x.length + 24) := by
    intro x y hx hl
    by_cases hA : x.length + 24 ≤ a.length
    · left
      have e1 : a ++ (m ++ (prefix1 ++ r)) = (x ++ prefix1) ++ y := by rw [hx, List.append_assoc]
      obtain ⟨a', ha⟩ : ∃ a', a = x ++ (prefix1 ++ a') := by
        rcases List.append_eq_append_iff.mp e1 with ⟨v, g1, g2⟩ | ⟨v, g1, g2⟩
        · have := congrArg List.length g1
          have : prefix1.length = 24 := rfl
          simp only [List.length_append] at *
          have hv : v = [] := List.length_eq_zero_iff.mp (by omega)
          subst hv
          exact ⟨[], by rw [List.append_nil]; simpa using g1.symm⟩
        · exact ⟨v, by rw [g1, List.append_assoc]⟩
      obtain ⟨ds, c, es, l, k1, k2, k3, k4⟩ := C147_stream h1 x (a' ++ (b ++ (prefix1 ++ []))) [] (by
        rw [ha]; simp only [List.append_assoc]) (by rw [List.length_append]; omega)
      exact ⟨ds, c, es, l, k1, k2, k3, k4⟩
    · by_cases hB : a.length ≤ x.length
      · right; left
        obtain ⟨z, hz⟩ : ∃ z, x = a ++ z := by
          rcases List.append_eq_append_iff.mp hx with ⟨v, g1, g2⟩ | ⟨v, g1, g2⟩
          · exact ⟨v, g1⟩
          · have := congrArg List.length g1
            simp only [List.length_append] at this
            have hv : v = [] := List.length_eq_zero_iff.mp (by omega)
            subst hv
            exact ⟨[], by simpa using g1.symm⟩
        subst hz
        rw [List.append_assoc] at hx
        have hx' := List.append_cancel_left hx
        rw [List.length_append] at hl
        obtain ⟨ds, c, es, l, k1, k2, k3, k4⟩ := C147_stream h2 (p ++ z) y r (by
          rw [List.append_assoc, List.append_assoc, hx']) (by simp only [List.length_append]; omega)
        rw [List.append_assoc] at k4
        exact ⟨z, ds, c, es, l, rfl, k1, k2, k3, List.append_cancel_left k4⟩
      · exact .inr (.inr ⟨by omega, by omega⟩)
  by_cases hw : ∃ x y, a ++ (m ++ (prefix1 ++ r)) = x ++ (prefix1 ++ y) ∧ x.length < a.length ∧ a.length < x.length + 24
  · obtain ⟨x0, y0, e0, g1, g2⟩ := hw
    refine ⟨x0.length, fun x y hx hl => ?_⟩
    rcases key x y hx hl with h | h | ⟨k1, k2⟩
    · exact .inl h
    · exact .inr (.inl h)
    · refine .inr (.inr ⟨?_, k1, k2⟩)
      rcases Nat.lt_trichotomy x.length x0.length with hlt | heq | hgt
      · have := prefix_apart (hx.symm.trans e0) hlt; omega
      · exact heq
      · have := prefix_apart (e0.symm.trans hx) hgt; omega
  · refine ⟨0, fun x y hx hl => ?_⟩
    rcases key x y hx hl with h | h | h
    · exact .inl h
    · exact .inr (.inl h)
    · exact absurd ⟨x, y, hx, h⟩ hw

/-- **C148**, `AlignTo`: called before the gap it stops at the element that is asked for, behind the gap, or at a false start code that
overlaps the gap. -/
theorem C148_alignTo {cs1 cs2 : List Nat} {a1 a b p m r : List Bool} (h1 : CleanStream cs1 (a1 ++ (a ++ b))) (h2 : CleanStream cs2 (p ++ m))
    {n : Nat} (hn : n < 256) (hc1 : (a1 ≠ [] ∧ n ∉ cs1.tail) ∨ n ∉ cs1) (hc2 : (p ≠ [] ∧ n ∉ cs2.tail) ∨ n ∉ cs2) (s : BR)
    (hb : fromBoundary s = a ++ (m ++ (bitsOf 32 (0x100 + n) ++ r))) (h8 : (a ++ m).length % 8 = 0) :
    ∃ i, alignTo (0x100 + n) s = (.ok (), ⟨(fromBoundary s).drop i, s.pos + padding s.pos + i, s.stop, s.later⟩) ∧
      (i = a.length + m.length ∨ i < a.length ∧ a.length < i + 32) := by
  rw [List.length_append] at h8
  obtain ⟨q, hq⟩ : ∃ q, a.length + m.length = 8 * q := ⟨(a.length + m.length) / 8, by omega⟩
  have hat : ((fromBoundary s).drop (8 * q)).take 32 = bitsOf 32 (0x100 + n) := by
    rw [hb, ← List.append_assoc, List.drop_left' (by rw [List.length_append, hq]), List.take_left' (length_bitsOf ..)]
  rcases C35 (0x100 + n) (by omega) s with ⟨j, m1, m2, m3⟩ | ⟨m1, _⟩
  · refine ⟨8 * j, m1, ?_⟩
    have hjq : j ≤ q := Nat.le_of_not_lt fun hgt => absurd hat (m3 q hgt)
    rcases Nat.lt_or_ge j q with hlt | hge
    · right
      refine ⟨Nat.lt_of_not_le fun hge => ?_, Nat.lt_of_not_le fun hle => ?_⟩
      · -- the code would lie behind the gap
        have := C147_absent h2 hn hc2 (bitsOf 8 n ++ r) (8 * j - a.length) (by omega)
        refine this ?_
        rw [hb, List.drop_append, List.drop_eq_nil_of_le hge, List.nil_append, bits_code hn, List.append_assoc] at m2
        rw [bits_code hn]
        exact m2
      · -- the code would lie before the gap
        have := C147_absent h1 hn hc1 [] (8 * j) (by rw [List.length_append]; omega)
        refine this ?_
        rw [hb, List.drop_append_of_le_length (by omega), List.take_append_of_le_length (by rw [List.length_drop]; omega)] at m2
        rw [List.append_assoc, List.drop_append_of_le_length (by omega), List.take_append_of_le_length (by rw [List.length_drop]; omega)]
        exact m2
    · left; omega
  · exact absurd hat (m1 q)

/-- **C148**, `AlignTo` again: when the first call has stopped at a false start code and these four bytes are skipped, the next call stops
at the element that is asked for: the gap costs one wrong stop, never two. -/
theorem C148_again {cs2 : List Nat} {a p m r : List Bool} (h2 : CleanStream cs2 (p ++ m)) {n : Nat} (hn : n < 256) (hc2 : n ∉ cs2.tail)
    (s : BR) (hb : fromBoundary s = a ++ (m ++ (bitsOf 32 (0x100 + n) ++ r))) (h8 : (a ++ m).length % 8 = 0) (hm : 32 ≤ m.length)
    {i : Nat} {s1 : BR} (h : alignTo (0x100 + n) s = (.ok (), s1)) (hi : s1.pos = s.pos + padding s.pos + i) (hlt : i < a.length) (hge : a.length < i + 32) :
    ∃ s2, BR.skip 32 s1 = (.ok (), s2) ∧
      alignTo (0x100 + n) s2 = (.ok (), ⟨bitsOf 32 (0x100 + n) ++ r, s.pos + padding s.pos + (a.length + m.length), s.stop, s.later⟩) := by
  rw [List.length_append] at h8
  rcases C35 (0x100 + n) (by omega) s with ⟨j, m1, m2, m3⟩ | ⟨_, s', e, m1, _⟩
  · rw [h] at m1
    obtain rfl : s1 = _ := (Prod.mk.injEq .. ▸ m1).2
    have hij : i = 8 * j := by have : s.pos + padding s.pos + 8 * j = s.pos + padding s.pos + i := hi; omega
    subst hij
    have hlen : (fromBoundary s).length = a.length + (m.length + (32 + r.length)) := by
      rw [hb]; simp only [List.length_append, length_bitsOf]
    have hpad : (s.pos + padding s.pos) % 8 = 0 := by unfold padding; omega
    obtain ⟨k, hk⟩ : ∃ k, k = 8 * j + 32 - a.length := ⟨_, rfl⟩
    refine ⟨_, BR.skip_ok (by show 32 ≤ ((fromBoundary s).drop (8 * j)).length; rw [List.length_drop]; omega), ?_⟩
    have hfb : fromBoundary (BR.adv ⟨(fromBoundary s).drop (8 * j), s.pos + padding s.pos + 8 * j, s.stop, s.later⟩ 32) =
        m.drop k ++ (bitsOf 32 (0x100 + n) ++ r) := by
      have e0 : padding (s.pos + padding s.pos + 8 * j + 32) = 0 := by
        generalize s.pos + padding s.pos = q at hpad
        unfold padding; omega
      show ((((fromBoundary s).drop (8 * j)).drop 32).drop (padding (s.pos + padding s.pos + 8 * j + 32))) = _
      rw [e0, List.drop_zero, List.drop_drop, hb, List.drop_append, List.drop_eq_nil_of_le (by omega), List.nil_append, ← hk,
        List.drop_append_of_le_length (by omega)]
    have := C147_alignTo (cs := cs2) (p := p ++ m.take k) (m := m.drop k) (r := r) (by rw [List.append_assoc, List.take_append_drop]; exact h2) hn
      (.inl ⟨fun h0 => by
        have := congrArg List.length h0
        rw [List.length_append, List.length_take] at this
        simp only [List.length_nil] at this
        omega, hc2⟩) _ hfb (by rw [List.length_drop]; omega)
    rw [this]
    have e0 : padding (s.pos + padding s.pos + 8 * j + 32) = 0 := by
      generalize s.pos + padding s.pos = q at hpad
      unfold padding; omega
    have e1 : s.pos + padding s.pos + 8 * j + 32 + padding (s.pos + padding s.pos + 8 * j + 32) + (m.drop k).length =
        s.pos + padding s.pos + (a.length + m.length) := by
      rw [e0, List.length_drop]; omega
    show (Res.ok (), BR.mk _ (s.pos + padding s.pos + 8 * j + 32 + padding (s.pos + padding s.pos + 8 * j + 32) + (m.drop k).length) _ _) = _
    rw [e1]
    rfl
  · rw [h] at m1; cases m1

/-- **C148**, resuming after a gap (partial: as C87).  The decoder is in any state and the reader anywhere before the gap.  After one call of
`AlignTo` with the sequence header code, or after a second one when the four bytes at which the first has stopped are skipped, the calls of `Next`
return the pictures of the sequence that begins behind the gap. -/
theorem C148_seek_partial {W H fuel k base : Nat} {σ : Option Ctx} {prev : Option Image} {gs : List CGroup} {cs1 cs2 : List Nat}
    {a1 a b p m bits rest : List Bool} {imgs : List Image} (hk : 2 ≤ k) (hent : Entry gs) (s : VS)
    (hb : fromBoundary s.br = a ++ (m ++ (bits ++ (bitsOf 32 0x1B7 ++ rest)))) (h8 : (a ++ m).length % 8 = 0) (hm : 32 ≤ m.length)
    (h1 : CleanStream cs1 (a1 ++ (a ++ b))) (h2 : CleanStream cs2 (p ++ m))
    (hc1 : (a1 ≠ [] ∧ 0xB3 ∉ cs1.tail) ∨ 0xB3 ∉ cs1) (hc2 : (p ≠ [] ∧ 0xB3 ∉ cs2.tail) ∨ 0xB3 ∉ cs2)
    (h : GroupsCode W H base σ prev (s.br.pos + padding s.br.pos + (a.length + m.length)) gs bits imgs) (hf : bits.length < fuel) :
    ∃ s1, VS.lift (alignTo 0x1B3) s = (.ok (), s1) ∧
      ∃ s3, (s3 = s1 ∨ ∃ s2, VS.lift (BR.skip 32) s1 = (.ok (), s2) ∧ VS.lift (alignTo 0x1B3) s2 = (.ok (), s3)) ∧
      ∃ w frames t, nexts fuel k (w.length + imgs.length) s3 = (.ok (w ++ frames), t) ∧
      w.length ≤ 2 ∧ (∀ f ∈ w, ∃ r, (s.fs.f0 = some r ∨ s.fs.f1 = some r) ∧ r.frame = f) ∧
      (s.fs.tryGet s.frameCounter = none → w = []) ∧
      frames.length = imgs.length ∧ (∀ i (h1 : i < frames.length) (h2 : i < imgs.length), Shows W H frames[i] imgs[i]) ∧
      (VS.next fuel k t).1 = .err .eos ∧ (VS.next fuel k t).2.br.bits = rest := by
  obtain ⟨u, hu⟩ := entry_starts hent h
  have hpad : (s.br.pos + padding s.br.pos) % 8 = 0 := by unfold padding; omega
  have h8' := h8
  rw [List.length_append] at h8'
  have hb' : fromBoundary s.br = a ++ (m ++ (bitsOf 32 (0x100 + 0xB3) ++ (u ++ (bitsOf 32 0x1B7 ++ rest)))) := by
    rw [hb, hu, List.append_assoc]
  have fin : ∀ s3 : VS, s3 = { s with br := ⟨bits ++ (bitsOf 32 0x1B7 ++ rest), s.br.pos + padding s.br.pos + (a.length + m.length),
      s.br.stop, s.br.later⟩ } → ∃ w frames t, nexts fuel k (w.length + imgs.length) s3 = (.ok (w ++ frames), t) ∧
      w.length ≤ 2 ∧ (∀ f ∈ w, ∃ r, (s.fs.f0 = some r ∨ s.fs.f1 = some r) ∧ r.frame = f) ∧
      (s.fs.tryGet s.frameCounter = none → w = []) ∧
      frames.length = imgs.length ∧ (∀ i (h1 : i < frames.length) (h2 : i < imgs.length), Shows W H frames[i] imgs[i]) ∧
      (VS.next fuel k t).1 = .err .eos ∧ (VS.next fuel k t).2.br.bits = rest := by
    intro s3 hs3
    obtain ⟨w, frames, t, r1, r2, r3, r4, r5⟩ := C87_partial (stop := s.br.stop) (later := s.br.later) (lead := 0) (rest := rest) hk hent h
      hf (by omega) (by omega) s3 (fun _ => rfl) (by rw [hs3]; rfl)
    exact ⟨w, frames, t, r1, r2, by rw [hs3] at r3; exact r3, by rw [hs3] at r4; exact r4, r5⟩
  obtain ⟨i, e1, e2⟩ := C148_alignTo h1 h2 (by omega) hc1 hc2 s.br hb' h8
  have e1' : VS.lift (alignTo 0x1B3) s = (.ok (), { s with br := ⟨(fromBoundary s.br).drop i, s.br.pos + padding s.br.pos + i, s.br.stop, s.br.later⟩ }) := by
    unfold VS.lift
    rw [show (0x1B3 : Nat) = 0x100 + 0xB3 from rfl, e1]
  refine ⟨_, e1', ?_⟩
  rcases e2 with rfl | ⟨e2, e3⟩
  · refine ⟨_, .inl rfl, fin _ ?_⟩
    rw [hb, ← List.append_assoc a, List.drop_left' (by rw [List.length_append])]
  · obtain ⟨s2, k1, k2⟩ := C148_again h2 (by omega) (by
      rcases hc2 with h | h
      · exact h.2
      · exact fun hx => h (List.mem_of_mem_tail hx)) s.br hb' h8 hm e1 rfl e2 e3
    refine ⟨{ s with br := ⟨bits ++ (bitsOf 32 0x1B7 ++ rest), s.br.pos + padding s.br.pos + (a.length + m.length), s.br.stop, s.br.later⟩ },
      .inr ⟨{ s with br := s2 }, ?_, ?_⟩, fin _ rfl⟩
    · unfold VS.lift
      show ((BR.skip 32 _).1, _) = _
      rw [k1]
    · unfold VS.lift
      show ((alignTo (0x100 + 0xB3) s2).1, ({ s with br := (alignTo (0x100 + 0xB3) s2).2 } : VS)) = _
      rw [k2, hu, List.append_assoc]

namespace GapEx

/-- user data that are cut after two zero bytes, and user data of which the beginning is lost -/
def a : List Bool := bitsOf 32 0x1B2 ++ bitsOf 16 0
def b : List Bool := bitsOf 8 255
def p : List Bool := bitsOf 32 0x1B2 ++ bitsOf 8 0x55
def m : List Bool := bitsOf 32 0x01B37777 ++ bitsOf 8 0x77
theorem first : CleanStream [0xB2] (a ++ b) :=
  .cons 0xB2 [] 0 (a ++ b) [] (.other 0xB2 (by decide) (bitsOf 16 0 ++ b) (no_run (a := 0) (b := 22) (.of_fits (by decide +kernel)))) .nil
theorem second : CleanStream [0xB2] (p ++ m) :=
  .cons 0xB2 [] 0 (p ++ m) [] (.other 0xB2 (by decide) (bitsOf 8 0x55 ++ m) (no_run (a := 0) (b := 22) (.of_fits (by decide +kernel)))) .nil
/-- what is received, before a sequence header -/
def rd : BR := ⟨a ++ (m ++ (bitsOf 32 (0x100 + 0xB3) ++ bitsOf 8 1)), 0, .eof, []⟩

example : ∃ i, alignTo 0x1B3 rd = (.ok (), ⟨(fromBoundary rd).drop i, 0 + padding 0 + i, .eof, []⟩) ∧
    (i = a.length + m.length ∨ i < a.length ∧ a.length < i + 32) :=
  C148_alignTo (a1 := []) (n := 0xB3) first second (by decide) (.inr (by decide)) (.inr (by decide)) rd rfl (by decide +kernel)

/-- the decoder has lost its place in the middle of a picture; the sequence behind the gap is decoded -/
example : ∃ bits s1 s3 w frames t, VS.lift (alignTo 0x1B3) (ExStream.dirty ⟨a ++ (m ++ (bits ++ (bitsOf 32 0x1B7 ++ []))), 0, .eof, []⟩) = (.ok (), s1) ∧
      (s3 = s1 ∨ ∃ s2, VS.lift (BR.skip 32) s1 = (.ok (), s2) ∧ VS.lift (alignTo 0x1B3) s2 = (.ok (), s3)) ∧
      nexts (bits.length + 1) 2 (w + 3) s3 = (.ok frames, t) := by
  obtain ⟨bits, imgs, h, h3⟩ := ExStream.stream_at (0 + padding 0 + (a.length + m.length))
  have hfb : fromBoundary (ExStream.dirty ⟨a ++ (m ++ (bits ++ (bitsOf 32 0x1B7 ++ []))), 0, .eof, []⟩).br =
      a ++ (m ++ (bits ++ (bitsOf 32 0x1B7 ++ []))) := by
    generalize a ++ (m ++ (bits ++ (bitsOf 32 0x1B7 ++ []))) = x
    show List.drop (padding 0) x = x
    rw [show padding 0 = 0 by decide]
    rfl
  obtain ⟨s1, r0, s3, r1, w, frames, t, r2, _⟩ := C148_seek_partial (a1 := []) (rest := []) (k := 2) (Nat.le_refl _) ExStream.entry
    (ExStream.dirty ⟨a ++ (m ++ (bits ++ (bitsOf 32 0x1B7 ++ []))), 0, .eof, []⟩) hfb (by decide +kernel) (by decide +kernel) first second
    (.inr (by decide)) (.inr (by decide)) h (Nat.lt_succ_self _)
  exact ⟨bits, s1, s3, w.length, w ++ frames, t, r0, r1, by rw [← h3]; exact r2⟩
end GapEx

/-- **C148**: the exception is needed.  Neither of two streams contains a sequence header, but where the end of the first one and the beginning
of the second one are lost, `AlignTo` stops at a sequence header that overlaps the gap; the second call finds the true one. -/
theorem C148_false : ∃ (cs1 cs2 : List Nat) (a b p m : List Bool), CleanStream cs1 (a ++ b) ∧ CleanStream cs2 (p ++ m) ∧
    0xB3 ∉ cs1 ∧ 0xB3 ∉ cs2 ∧ a.length % 8 = 0 ∧ m.length % 8 = 0 ∧ ∃ s1 s2,
      alignTo 0x1B3 ⟨a ++ (m ++ (bitsOf 32 0x1B3 ++ bitsOf 8 1)), 0, .eof, []⟩ = (.ok (), s1) ∧ s1.pos = 32 ∧ a.length = 48 ∧
      BR.skip 32 s1 = (.ok (), s2) ∧ alignTo 0x1B3 s2 = (.ok (), ⟨bitsOf 32 0x1B3 ++ bitsOf 8 1, a.length + m.length, .eof, []⟩) := by
  refine ⟨_, _, GapEx.a, GapEx.b, GapEx.p, GapEx.m, GapEx.first, GapEx.second, by decide, by decide, by decide, by decide, ?_⟩
  have h0 : alignTo 0x1B3 GapEx.rd = (.ok (), (alignTo 0x1B3 GapEx.rd).2) := by decide +kernel
  obtain ⟨s2, k1, k2⟩ := C148_again (n := 0xB3) (a := GapEx.a) GapEx.second (by decide) (by decide) GapEx.rd rfl (by decide +kernel) (by decide +kernel) (i := 32) h0
    (by decide +kernel) (by decide) (by decide)
  exact ⟨_, s2, h0, by decide +kernel, by decide, k1, k2⟩

end Mpeg.Video
