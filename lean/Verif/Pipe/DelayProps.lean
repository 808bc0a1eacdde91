/-
C127: when the pictures of a broadcast are available.
-/
import Verif.Pipe.LossProps
import Verif.Video.NearProps
import Verif.Video.LiveProps
import Verif.PES.TruncProps
set_option linter.all false
namespace Mpeg.Video
open Spec
open HasBR (ext br)

/-! ### any number of calls -/

theorem caus_nexts (fuel k : Nat) : ∀ n, Caus (nexts fuel k n)
  | 0 => .pure _
  | n + 1 => .bind (caus_next fuel k) fun _ => .bind (caus_nexts fuel k n) fun _ => .pure _
theorem near_nexts (fuel k : Nat) : ∀ n, Near (nexts fuel k n)
  | 0 => .pure _
  | n + 1 => .bind (near_next fuel k) fun _ => .bind (near_nexts fuel k n) fun _ => .pure _

theorem mv_nexts (fuel k : Nat) : ∀ n, Go.Mv VS.br (nexts fuel k n)
  | 0 => .pure _
  | n + 1 => .bind (mv_next fuel k) fun _ => .bind (mv_nexts fuel k n) fun _ => .pure _

theorem atCode_len {s : BR} (h : AtCode s) : 32 ≤ s.bits.length := by
  obtain ⟨c, rest, _, _, h, _⟩ := h
  rw [h, List.length_append, length_bitsOf]; omega

theorem nexts_left {fuel k : Nat} : ∀ (n : Nat) {s t : VS} {fs : List Frame}, nexts fuel k n s = (.ok fs, t) → AtCode s.br → AtCode t.br
  | 0, s, t, fs, h, ha => by cases h; exact ha
  | n + 1, s, t, fs, h, ha => by
    unfold nexts at h
    obtain ⟨f, s1, h1, h⟩ := Go.bind_eq_ok h
    obtain ⟨l, s2, h2, h⟩ := Go.bind_eq_ok h
    cases h
    refine nexts_left n h2 ?_
    rcases C81 h1 with h3 | h3
    · rw [h3]; exact ha
    · exact h3

/-- After at least one picture a new decoder stands on a start code. -/
theorem nexts_new {fuel k n : Nat} {b : BR} {t : VS} {fs : List Frame} (hn : 0 < n) (h : nexts fuel k n (VS.new b) = (.ok fs, t)) :
    AtCode t.br := by
  cases n with
  | zero => omega
  | succ n =>
    unfold nexts at h
    obtain ⟨f, s1, h1, h⟩ := Go.bind_eq_ok h
    obtain ⟨l, s2, h2, h⟩ := Go.bind_eq_ok h
    cases h
    refine nexts_left n h2 ?_
    unfold VS.next at h1
    exact nextLoop_sync k h1

/-- `n` pictures are there exactly when the start code is there on which the decoder stands afterwards. -/
theorem nexts_exact {fuel k n : Nat} {I : List Bool} {t : VS} {fs : List Frame} (hn : 0 < n)
    (h : nexts fuel k n (VS.new ⟨I, 0, .eof, []⟩) = (.ok fs, t)) :
    ∃ q c rest, q % 8 = 0 ∧ c < 256 ∧ (c = 0 ∨ 0xB0 ≤ c) ∧ I.drop q = bitsOf 32 (0x100 + c) ++ rest ∧
      ∀ Z, Z <+: I → (q + 32 ≤ Z.length → ∃ t', nexts fuel k n (VS.new ⟨Z, 0, .eof, []⟩) = (.ok fs, t')) ∧
        (Z.length < q + 32 → ∃ e t', nexts fuel k n (VS.new ⟨Z, 0, .eof, []⟩) = (.err e, t') ∧ (e = .eof ∨ e = .unexpectedEOF)) := by
  have ha := nexts_new hn h
  obtain ⟨c, rest, hc, hc', hb, h8⟩ := ha
  obtain ⟨_, hle, _⟩ := near_nexts fuel k n (VS.new ⟨I, 0, .eof, []⟩) ⟨rfl, rfl⟩
  rw [h] at hle
  have hle : t.br.bits.length ≤ I.length := hle
  have hend : ∃ u, I = u ++ t.br.bits ∧ u.length % 8 = 0 := by
    obtain ⟨_, j, hj, hq⟩ := moves_plain (mv_nexts fuel k n (VS.new ⟨I, 0, .eof, []⟩)) ⟨rfl, rfl⟩
    rw [h] at hj hq
    have hj : t.br.bits = I.drop j := hj
    have h32 : 32 ≤ t.br.bits.length := atCode_len (nexts_new hn h)
    have hq : t.br.pos = 0 + j := hq fun h0 => by
      have h0 : t.br.bits = [] := h0
      rw [h0] at h32; simp at h32
    have hl := congrArg List.length hj
    rw [List.length_drop] at hl
    refine ⟨I.take j, by rw [hj, List.take_append_drop], ?_⟩
    rw [List.length_take, Nat.min_eq_left (by omega)]
    omega
  obtain ⟨u, hu, hu8⟩ := hend
  have hul : I.length = u.length + t.br.bits.length := by rw [hu, List.length_append]
  have h32 : 32 ≤ t.br.bits.length := atCode_len (nexts_new hn h)
  refine ⟨u.length, c, rest, hu8, hc, hc', by rw [hu, List.drop_left, hb], ?_⟩
  rintro Z ⟨v, hv⟩
  have hvl : Z.length + v.length = I.length := by rw [← hv, List.length_append]
  have e : ext (VS.new ⟨Z, 0, .eof, []⟩) v = VS.new ⟨I, 0, .eof, []⟩ := by
    rw [← hv]; rfl
  constructor
  · intro hq
    obtain ⟨_, _, h3⟩ := near_nexts fuel k n (VS.new ⟨Z, 0, .eof, []⟩) ⟨rfl, rfl⟩
    have h4 := h3 v
    rw [e, h] at h4
    rcases h4 with h4 | ⟨h4, _⟩
    · injection h4 with h5 h6
      refine ⟨(nexts fuel k n (VS.new ⟨Z, 0, .eof, []⟩)).2, ?_⟩
      rw [h5]
    · have h4 : t.br.bits.length < v.length + 32 := h4
      omega
  · intro hq
    obtain ⟨h3, h4⟩ := caus_nexts fuel k n (VS.new ⟨Z, 0, .eof, []⟩) v ⟨rfl, rfl⟩
    rw [e, h] at h4
    generalize hx : nexts fuel k n (VS.new ⟨Z, 0, .eof, []⟩) = x at h3 h4
    obtain ⟨r, s1⟩ := x
    cases r with
    | ok fs' =>
      exfalso
      rcases h4 with h4 | ⟨⟨⟩, _⟩
      injection h4 with _ h5
      have h6 := atCode_len (nexts_new hn hx)
      have h7 : t.br.bits.length = s1.br.bits.length + v.length := by
        rw [h5]; exact List.length_append
      omega
    | err e =>
      rcases h4 with h4 | ⟨_, h4⟩
      · exact ⟨e, s1, rfl, h4.1⟩
      · cases h4
    | panic => cases h4
    | hang => cases h4

end Mpeg.Video

namespace Mpeg.Pipe
open PES.Spec TS.Spec

/-! ### packets that have come so far -/

/-- the bytes of the elementary stream that the packets carry, from the first unit start on -/
def carried (k : Nat) (l : List (Pkt × List UInt8)) : List UInt8 := (l.dropWhile fun x => !TS.starts k x.1).flatMap (·.2)

theorem dropWhile_concat {α : Type} {p : α → Bool} : ∀ (l : List α) (y : α),
    (l ++ [y]).dropWhile p = if l.dropWhile p = [] then (if p y then [] else [y]) else l.dropWhile p ++ [y]
  | [], y => by
    show ([y] : List α).dropWhile p = _
    cases h : p y <;> simp [List.dropWhile, h]
  | x :: l, y => by
    rw [List.cons_append]
    cases h : p x
    · rw [List.dropWhile_cons_of_neg (by simp [h]), List.dropWhile_cons_of_neg (by simp [h])]
      simp
    · rw [List.dropWhile_cons_of_pos h, List.dropWhile_cons_of_pos h]
      exact dropWhile_concat l y

theorem core_start {k : Nat} {l : List (Pkt × List UInt8)} {y : Pkt × List UInt8} (hy : TS.starts k y.1 = true) :
    core k (l ++ [y]) = l.dropWhile fun x => !TS.starts k x.1 := by
  have e : ((l ++ [y]).dropWhile fun x => !TS.starts k x.1) = (l.dropWhile fun x => !TS.starts k x.1) ++ [y] := by
    rw [dropWhile_concat]
    split
    · rename_i h
      rw [h, hy]; rfl
    · rfl
  unfold core
  rw [e, List.reverse_append]
  show ((List.dropWhile _ (y :: _)).drop 1).reverse = _
  rw [List.dropWhile_cons_of_neg (by rw [hy]; decide)]
  simp
theorem core_other {k : Nat} {l : List (Pkt × List UInt8)} {y : Pkt × List UInt8} (hy : TS.starts k y.1 = false) :
    core k (l ++ [y]) = core k l := by
  unfold core
  rw [dropWhile_concat]
  split
  · rename_i h
    rw [h, hy]; rfl
  · rw [List.reverse_append]
    show ((List.dropWhile _ (y :: _)).drop 1).reverse = _
    rw [List.dropWhile_cons_of_pos (by rw [hy]; rfl)]
    rfl

/-- The units that are complete: those of the packets in front of the last unit start. -/
theorem core_last {k : Nat} {l : List (Pkt × List UInt8)} : core k l = [] ∨
    ∃ d y m, l = d ++ y :: m ∧ TS.starts k y.1 = true ∧ (core k l).flatMap (·.2) = carried k d := by
  generalize hn : l.length = n
  induction n generalizing l with
  | zero =>
    obtain rfl := List.length_eq_zero_iff.mp hn
    exact .inl rfl
  | succ n ih =>
    rcases List.eq_nil_or_concat l with rfl | ⟨l', y, rfl⟩
    · cases hn
    · rw [List.concat_eq_append] at hn ⊢
      cases hy : TS.starts k y.1 with
      | true => exact .inr ⟨l', y, [], rfl, hy, by rw [core_start hy]; rfl⟩
      | false =>
        rw [core_other hy]
        rcases ih (l := l') (by simpa using hn) with h | ⟨d, z, m, h1, h2, h3⟩
        · exact .inl h
        · exact .inr ⟨d, z, m ++ [y], by rw [h1]; simp, h2, h3⟩

theorem core_mono {k : Nat} : ∀ (m l : List (Pkt × List UInt8)), core k l <+: core k (l ++ m)
  | [], l => by rw [List.append_nil]
  | y :: m, l => by
    have h1 : core k l <+: core k (l ++ [y]) := by
      cases hy : TS.starts k y.1 with
      | false => rw [core_other hy]
      | true =>
        rw [core_start hy]
        unfold core
        have h2 := List.dropWhile_suffix (l := (l.dropWhile fun x => !TS.starts k x.1).reverse) fun x => !TS.starts k x.1
        have h3 := (List.drop_suffix 1 (((l.dropWhile fun x => !TS.starts k x.1).reverse).dropWhile fun x => !TS.starts k x.1)).trans h2
        have h4 := List.reverse_prefix.mpr h3
        rwa [List.reverse_reverse] at h4
    have h2 := core_mono (k := k) m (l ++ [y])
    rw [List.append_assoc] at h2
    exact h1.trans h2

theorem carried_prefix {k : Nat} : ∀ (m l : List (Pkt × List UInt8)), carried k l <+: carried k (l ++ m)
  | [], l => by rw [List.append_nil]
  | y :: m, l => by
    have h1 : carried k l <+: carried k (l ++ [y]) := by
      unfold carried
      rw [dropWhile_concat]
      split
      · rename_i h; rw [h]; exact List.nil_prefix
      · rw [List.flatMap_append]; exact List.prefix_append ..
    have h2 := carried_prefix (k := k) m (l ++ [y])
    rw [List.append_assoc] at h2
    exact h1.trans h2
theorem carried_mono {k : Nat} (l m : List (Pkt × List UInt8)) : (carried k l).length ≤ (carried k (l ++ m)).length :=
  (carried_prefix m l).length_le

theorem flatMap_prefix {α β : Type} {f : α → List β} {a b : List α} (h : a <+: b) : a.flatMap f <+: b.flatMap f := by
  obtain ⟨t, rfl⟩ := h
  rw [List.flatMap_append]
  exact List.prefix_append ..

/-- Where the `x`th byte is carried. -/
theorem carrier {k x : Nat} : ∀ (l : List (Pkt × List UInt8)), 0 < x → x ≤ (carried k l).length →
    ∃ a p b, l = a ++ p :: b ∧ (carried k a).length < x ∧ x ≤ (carried k (a ++ [p])).length := by
  intro l h0
  generalize hn : l.length = n
  induction n generalizing l with
  | zero =>
    obtain rfl := List.length_eq_zero_iff.mp hn
    intro h
    have : (carried k []).length = 0 := rfl
    omega
  | succ n ih =>
    intro h
    rcases List.eq_nil_or_concat l with rfl | ⟨l', y, rfl⟩
    · cases hn
    · rw [List.concat_eq_append] at hn h ⊢
      rcases Nat.lt_or_ge (carried k l').length x with h1 | h1
      · exact ⟨l', y, [], rfl, h1, h⟩
      · obtain ⟨a, p, b, h2, h3, h4⟩ := ih l' (by simpa using hn) h1
        exact ⟨a, p, b ++ [y], by rw [h2]; simp, h3, h4⟩

/-- The first `x` bytes are in complete units exactly if a unit start has come behind the packet that carries the last of
them. -/
theorem complete_iff {k x : Nat} {l a b : List (Pkt × List UInt8)} {p : Pkt × List UInt8} (hl : l = a ++ p :: b)
    (h1 : (carried k a).length < x) (h2 : x ≤ (carried k (a ++ [p])).length) {l1 : List (Pkt × List UInt8)} (hp : l1 <+: l) :
    x ≤ ((core k l1).flatMap (·.2)).length ↔ ∃ m y, TS.starts k y.1 = true ∧ a ++ p :: (m ++ [y]) <+: l1 := by
  constructor
  · intro h
    rcases core_last (k := k) (l := l1) with h3 | ⟨d, y, m, h3, h4, h5⟩
    · rw [h3] at h
      exact absurd h (by simp only [List.flatMap_nil, List.length_nil]; omega)
    · rw [h5] at h
      have hd : d <+: l := by
        refine List.IsPrefix.trans ?_ hp
        rw [h3]; exact List.prefix_append ..
      have ha : a ++ [p] <+: l := by
        rw [hl]
        exact ⟨b, by simp⟩
      rcases List.prefix_or_prefix_of_prefix ha hd with ⟨u, hu⟩ | ⟨u, hu⟩
      · refine ⟨u, y, h4, ?_⟩
        rw [h3, ← hu]
        exact ⟨m, by simp⟩
      · rcases List.eq_nil_or_concat u with rfl | ⟨u', z, rfl⟩
        · rw [List.append_nil] at hu
          refine ⟨[], y, h4, ?_⟩
          rw [h3, hu]
          exact ⟨m, by simp⟩
        · exfalso
          rw [List.concat_eq_append, ← List.append_assoc] at hu
          have h6 := (List.append_inj' hu rfl).1
          have := carried_mono (k := k) d u'
          rw [h6] at this
          omega
  · rintro ⟨m, y, h3, t, h4⟩
    have h5 := (flatMap_prefix (f := (·.2)) (core_mono (k := k) t (a ++ p :: (m ++ [y])))).length_le
    rw [h4] at h5
    have e : a ++ p :: (m ++ [y]) = (a ++ p :: m) ++ [y] := by simp
    rw [e, core_start h3] at h5
    have h6 := carried_mono (k := k) (a ++ [p]) m
    rw [List.append_assoc] at h6
    have h7 : (carried k (a ++ p :: m)).length ≤ ((core k l1).flatMap (·.2)).length := h5
    exact Nat.le_trans h2 (Nat.le_trans h6 h7)

theorem bytes_prefix {a b : List UInt8} (h : a <+: b) : bitsOfBytes a <+: bitsOfBytes b := by
  obtain ⟨t, rfl⟩ := h
  rw [bitsOfBytes_append]
  exact List.prefix_append ..

theorem es_source {k fuel fuel' : Nat} {l : List (Pkt × List UInt8)} (h : ∀ x ∈ l, Piece k x.1 x.2) (hf : l.length < fuel) (hf' : l.length < fuel') :
    (∃ br br', IsSource (puReads fuel k (stream l)) br ∧ IsSource (pesReads fuel' br) br') ∧
    ∀ br br', IsSource (puReads fuel k (stream l)) br → IsSource (pesReads fuel' br) br' →
      br' = ⟨bitsOfBytes ((core k l).flatMap (·.2)), 0, .eof, []⟩ := by
  obtain ⟨⟨br0, hbr0⟩, hrd⟩ := C123_units h (List.Sublist.refl l) hf hf'
  have key : ∀ br, IsSource (puReads fuel k (stream l)) br →
      IsSource (pesReads fuel' br) ⟨bitsOfBytes ((core k l).flatMap (·.2)), 0, .eof, []⟩ := by
    intro br hbr
    refine ⟨_, .eof, [], rfl, fun ns _ => ?_⟩
    rw [hrd br hbr ns, deliver_segs]
  exact ⟨⟨br0, _, hbr0, key br0 hbr0⟩, fun br br' h1 h2 => h2.unique (key br h1)⟩

/-- **C127** (partial: the transport streams of C123_units) Let the video decoder on top of the payload unit reader and the PES
reader return `n` pictures of the transport stream of the packets `l`, whatever the packets carry.  There is a start code in
the elementary stream, behind the pictures that were read, whose last byte is carried by a packet `p` of `l`, such that the
following holds.  When only the first packets `l1` of `l` have come, the decoder returns the same `n` pictures if a packet
that starts a unit has come behind `p`; otherwise it reports the end of the input before. -/
theorem C127_partial {k fuel fuel' fuelV kV n : Nat} {l : List (Pkt × List UInt8)} (h : ∀ x ∈ l, Piece k x.1 x.2) (hf : l.length < fuel)
    (hf' : l.length < fuel') (hn : 0 < n) {br br' : BR} (hs : IsSource (puReads fuel k (stream l)) br) (hs' : IsSource (pesReads fuel' br) br')
    {frames : List Video.Frame} {t : Video.VS} (hx : Video.nexts fuelV kV n (Video.VS.new br') = (.ok frames, t)) :
    ∃ a p b q c rest, l = a ++ p :: b ∧ q % 8 = 0 ∧ c < 256 ∧ (c = 0 ∨ 0xB0 ≤ c) ∧
      (bitsOfBytes (carried k l)).drop q = bitsOf 32 (0x100 + c) ++ rest ∧
      8 * (carried k a).length < q + 32 ∧ q + 32 ≤ 8 * (carried k (a ++ [p])).length ∧
      ∀ l1, l1 <+: l →
        (∃ b1 b1', IsSource (puReads fuel k (stream l1)) b1 ∧ IsSource (pesReads fuel' b1) b1') ∧
        ∀ b1 b1', IsSource (puReads fuel k (stream l1)) b1 → IsSource (pesReads fuel' b1) b1' →
          ((∃ m y, TS.starts k y.1 = true ∧ a ++ p :: (m ++ [y]) <+: l1) →
            ∃ t', Video.nexts fuelV kV n (Video.VS.new b1') = (.ok frames, t')) ∧
          ((¬ ∃ m y, TS.starts k y.1 = true ∧ a ++ p :: (m ++ [y]) <+: l1) →
            ∃ e t', Video.nexts fuelV kV n (Video.VS.new b1') = (.err e, t') ∧ (e = .eof ∨ e = .unexpectedEOF)) := by
  obtain rfl := (es_source h hf hf').2 br br' hs hs'
  obtain ⟨q, c, rest, h8, hc, hc', hd, hZ⟩ := Video.nexts_exact hn hx
  have hql : q + 32 ≤ 8 * ((core k l).flatMap (·.2)).length := by
    have h1 := congrArg List.length hd
    rw [List.length_drop, List.length_append, length_bitsOf, length_bitsOfBytes] at h1
    omega
  have hpre : (core k l).flatMap (·.2) <+: carried k l := by
    rcases core_last (k := k) (l := l) with h1 | ⟨d, y, m, h1, h2, h3⟩
    · rw [h1]; exact List.nil_prefix
    · rw [h3]
      conv => rhs; rw [h1]
      exact carried_prefix _ _
  obtain ⟨a, p, b, h1, h2, h3⟩ := carrier (k := k) (x := q / 8 + 4) l (by omega) (by have := hpre.length_le; omega)
  obtain ⟨v, hv⟩ := bytes_prefix hpre
  refine ⟨a, p, b, q, c, rest ++ v, h1, h8, hc, hc', ?_, by omega, by omega, ?_⟩
  · rw [← hv, List.drop_append_of_le_length (by rw [length_bitsOfBytes]; omega), hd, List.append_assoc]
  · intro l1 hl1
    have hlen := hl1.length_le
    obtain ⟨e1, e2⟩ := es_source (k := k) (fuel := fuel) (fuel' := fuel') (l := l1) (fun x hx => h x (hl1.subset hx)) (by omega) (by omega)
    refine ⟨e1, fun b1 b1' hb hb' => ?_⟩
    obtain rfl := e2 b1 b1' hb hb'
    have hc1 : (core k l1).flatMap (·.2) <+: (core k l).flatMap (·.2) := by
      obtain ⟨u, rfl⟩ := hl1
      exact flatMap_prefix (core_mono u l1)
    obtain ⟨hz1, hz2⟩ := hZ _ (bytes_prefix hc1)
    rw [length_bitsOfBytes] at hz1 hz2
    have hiff := complete_iff (k := k) h1 h2 h3 hl1
    exact ⟨fun h4 => hz1 (by have := hiff.mpr h4; omega), fun h4 => hz2 (by
      have : ¬ q / 8 + 4 ≤ ((core k l1).flatMap (·.2)).length := fun h5 => h4 (hiff.mp h5)
      omega)⟩

/-- **C127**, legal streams (partial: as C126 and C123_units) The packets `l0` carry `c` coded pictures and one start code behind
them, and a packet `y` that starts a unit follows.  Then, whatever comes after it, `Next` has returned all of these pictures in
display order, except for one reference picture before which further B pictures are to be displayed. -/
theorem C127_pictures_partial {k fuel fuel' fuelV kV n c : Nat} {l0 more : List (Pkt × List UInt8)} {y : Pkt × List UInt8}
    (hp : ∀ x ∈ l0 ++ y :: more, Piece k x.1 x.2) (hy : TS.starts k y.1 = true) (hf : (l0 ++ y :: more).length < fuel)
    (hf' : (l0 ++ y :: more).length < fuel') {W H lead : Nat} {bits rest : List Bool} {imgs : List Video.Spec.Image}
    (hs : bitsOfBytes (carried k l0) = Video.Spec.zeros (8 * lead) ++ (bits ++ (bitsOf 32 (0x100 + n) ++ rest)))
    (hn : n < 256) (hns : n = 0 ∨ 0xB0 ≤ n) (h : Video.Spec.Begun W H 0 none none (8 * lead) c bits imgs) (hk : 2 ≤ kV)
    (hfv : bits.length < fuelV) :
    (∃ br br', IsSource (puReads fuel k (stream (l0 ++ y :: more))) br ∧ IsSource (pesReads fuel' br) br') ∧
    ∀ br br', IsSource (puReads fuel k (stream (l0 ++ y :: more))) br → IsSource (pesReads fuel' br) br' →
      ∃ frames t, Video.nexts fuelV kV imgs.length (Video.VS.new br') = (.ok frames, t) ∧ frames.length = imgs.length ∧
        (∀ i (h1 : i < frames.length) (h2 : i < imgs.length), Video.Spec.Shows W H frames[i] imgs[i]) ∧ c ≤ frames.length + 1 := by
  obtain ⟨e1, e2⟩ := es_source hp hf hf'
  refine ⟨e1, fun br br' h1 h2 => ?_⟩
  obtain rfl := e2 br br' h1 h2
  have hpre : carried k l0 <+: (core k (l0 ++ y :: more)).flatMap (·.2) := by
    have h3 := core_mono (k := k) more (l0 ++ [y])
    rw [List.append_assoc, core_start hy] at h3
    exact flatMap_prefix h3
  obtain ⟨v, hv⟩ := bytes_prefix hpre
  have e : bitsOfBytes ((core k (l0 ++ y :: more)).flatMap (·.2)) =
      Video.Spec.zeros (8 * lead) ++ (bits ++ (bitsOf 32 (0x100 + n) ++ (rest ++ v))) := by
    rw [← hv, hs]; simp
  rw [e]
  exact Video.C126_partial hk hn hns h hfv

/-- **C127** is false: that the packet with the last byte of the start code has come is not enough.  As long as no packet that
starts a unit comes behind it, whatever else comes, the pictures are not returned. -/
theorem C127_false {k fuel fuel' fuelV kV n : Nat} {l : List (Pkt × List UInt8)} (h : ∀ x ∈ l, Piece k x.1 x.2) (hf : l.length < fuel)
    (hf' : l.length < fuel') (hn : 0 < n) {br br' : BR} (hs : IsSource (puReads fuel k (stream l)) br) (hs' : IsSource (pesReads fuel' br) br')
    {frames : List Video.Frame} {t : Video.VS} (hx : Video.nexts fuelV kV n (Video.VS.new br') = (.ok frames, t)) :
    ∃ a p b q c rest, l = a ++ p :: b ∧ (bitsOfBytes (carried k l)).drop q = bitsOf 32 (0x100 + c) ++ rest ∧
      8 * (carried k a).length < q + 32 ∧ q + 32 ≤ 8 * (carried k (a ++ [p])).length ∧
      ∀ m, m <+: b → (∀ y ∈ m, TS.starts k y.1 = false) →
        ∀ b1 b1', IsSource (puReads fuel k (stream (a ++ p :: m))) b1 → IsSource (pesReads fuel' b1) b1' →
          ∃ e t', Video.nexts fuelV kV n (Video.VS.new b1') = (.err e, t') ∧ (e = .eof ∨ e = .unexpectedEOF) := by
  obtain ⟨a, p, b, q, c, rest, h1, _, _, _, h2, h3, h4, h5⟩ := C127_partial h hf hf' hn hs hs' hx
  refine ⟨a, p, b, q, c, rest, h1, h2, h3, h4, fun m hm hy b1 b1' hb hb' => ?_⟩
  obtain ⟨u, hu⟩ := hm
  refine ((h5 (a ++ p :: m) ⟨u, by rw [h1, ← hu]; simp⟩).2 b1 b1' hb hb').2 ?_
  rintro ⟨m', y, hy', v, hv⟩
  rw [List.append_assoc, List.cons_append] at hv
  have h6 := List.append_cancel_left hv
  injection h6 with _ h6
  have := hy y (by rw [← h6]; simp)
  rw [this] at hy'
  cases hy'

/-! ### PES packets of known length -/

/-- **C127**, PES packets of known length over the payload reader (partial: as C126): the packets that have come carry the PES
packets `l` and a part of one more.  If the payloads of `l` contain `c` coded pictures and one start code behind them, `Next`
has returned all of these pictures, except for one reference picture.  So the start code has to be in a PES packet that has come
completely; a unit start is not needed. -/
theorem C127_known_partial {k fuel fuel' fuelV kV n c : Nat} {ps : List Pkt} {cs : List UInt8} (hB : Bears k ps cs) (hf : ps.length < fuel)
    {l : List PES.Item} (hw : ∀ i ∈ l, i.WF) {i : PES.Item} (hi : i.WF) {a t : List Bool} (hia : i.enc = a ++ t) (ht : t ≠ [])
    (hc : bitsOfBytes cs = (l.map PES.Item.enc).flatten ++ a) (hf' : l.length < fuel')
    {W H lead : Nat} {bits rest : List Bool} {imgs : List Video.Spec.Image}
    (hs : bitsOfBytes (PES.seen [] l).flatten = Video.Spec.zeros (8 * lead) ++ (bits ++ (bitsOf 32 (0x100 + n) ++ rest)))
    (hn : n < 256) (hns : n = 0 ∨ 0xB0 ≤ n) (h : Video.Spec.Begun W H 0 none none (8 * lead) c bits imgs) (hk : 2 ≤ kV)
    (hfv : bits.length < fuelV) :
    (∃ br br', IsSource (prReads fuel k (ps.map encPkt).flatten) br ∧ IsSource (pesReads fuel' br) br') ∧
    ∀ br br', IsSource (prReads fuel k (ps.map encPkt).flatten) br → IsSource (pesReads fuel' br) br' →
      ∃ frames t, Video.nexts fuelV kV imgs.length (Video.VS.new br') = (.ok frames, t) ∧ frames.length = imgs.length ∧
        (∀ i (h1 : i < frames.length) (h2 : i < imgs.length), Video.Spec.Shows W H frames[i] imgs[i]) ∧ c ≤ frames.length + 1 := by
  have hsrc := pr_source hB hf
  have key : ∃ e, IsSource (pesReads fuel' ⟨bitsOfBytes cs, 0, .eof, []⟩) ⟨bitsOfBytes (PES.seen [] l).flatten, 0, e, []⟩ := by
    obtain ⟨qs, p', pos', hr, he, hl⟩ := PES.run_items_tail a .eof [] l {} 0 hw
    obtain ⟨e, s', h1, h2, _⟩ := PES.C92_truncated_partial p' pos' i hi a t hia ht
    refine ⟨e, (PES.seen [] l).flatten, e, [], rfl, fun ns _ => ?_⟩
    obtain ⟨r', h3⟩ := PES.C26_every_source ⟨(l.map PES.Item.enc).flatten ++ a, 0, .eof, []⟩ qs [] e
      (.last hr h1 (by rcases h2 with rfl | rfl | rfl <;> decide)) ns fuel'
      (by simp only [PES.total, List.map_nil, List.sum_nil]; omega)
    unfold pesReads
    rw [hc, h3, List.map_nil, PES.deliverParts_nil, PES.Spec.payloads, he, deliver_segs]
  obtain ⟨e, key⟩ := key
  refine ⟨⟨_, _, hsrc, key⟩, fun br br' h1 h2 => ?_⟩
  obtain rfl := h1.unique hsrc
  obtain rfl := h2.unique key
  rw [hs]
  exact Video.C126_partial hk hn hns h hfv

/-! ### concrete cases -/

open Video Video.Spec in
/-- The stream I, P, B of C126 in transport packets: when I, P, the start code of B and the start of a unit have come, the first
picture is returned.  The hypotheses of `C127_pictures_partial` and of `C127_partial` are met. -/
example : ∃ (l0 : List (Pkt × List UInt8)) (y : Pkt × List UInt8) (X : List Bool) (shown : List Image), 0 < l0.length ∧
    (∀ x ∈ l0 ++ [y], Piece 0x21 x.1 x.2) ∧ TS.starts 0x21 y.1 = true ∧ 1 ≤ shown.length ∧ Begun 1 1 0 none none 8 2 X shown ∧
    bitsOfBytes (carried 0x21 l0) = zeros (8 * 1) ++ (X ++ (bitsOf 32 (0x100 + 0) ++ zeros (7 * X.length))) ∧
    ∃ br br' frames t, IsSource (puReads (l0.length + 2) 0x21 (stream (l0 ++ [y]))) br ∧ IsSource (pesReads (l0.length + 2) br) br' ∧
      nexts (X.length + 1) 2 shown.length (VS.new br') = (.ok frames, t) := by
  obtain ⟨bits, imgs, h, _⟩ := ExStream.stream
  obtain ⟨X, Y, shown, h1, h2, h3, h4, h5, h6⟩ := C126_stream_partial (lead := 1) h 2 (by decide)
  let s : Pkt × List UInt8 := (tp true (openHead ++ []), [])
  have hs : Piece 0x21 s.1 s.2 := tp_first [] (by decide)
  let b := zeros (8 * 1) ++ (X ++ (bitsOf 32 (0x100 + 0) ++ zeros (7 * X.length)))
  have hb : b.length % 8 = 0 := by
    show (zeros (8 * 1) ++ (X ++ (bitsOf 32 (0x100 + 0) ++ zeros (7 * X.length)))).length % 8 = 0
    simp only [List.length_append, length_bitsOf, zeros, List.length_replicate]
    omega
  have hcar : carried 0x21 (s :: carriers b) = (carriers b).flatMap (·.2) := rfl
  have hp : ∀ x ∈ (s :: carriers b) ++ [s], Piece 0x21 x.1 x.2 := by
    intro x hx
    rcases List.mem_append.mp hx with hx | hx
    · cases hx with
      | head => exact hs
      | tail _ hx => exact (carriers_ok x hx).1
    · rw [List.mem_singleton.mp hx]; exact hs
  have hbits : bitsOfBytes (carried 0x21 (s :: carriers b)) = zeros (8 * 1) ++ (X ++ (bitsOf 32 (0x100 + 0) ++ zeros (7 * X.length))) := by
    rw [hcar, carriers_bits hb]
  obtain ⟨⟨br, br', e1, e2⟩, e3⟩ := C127_pictures_partial (k := 0x21) (l0 := s :: carriers b) (more := []) (y := s) (kV := 2)
    (fuel := (s :: carriers b).length + 2) (fuel' := (s :: carriers b).length + 2) (fuelV := X.length + 1) hp rfl (by simp) (by simp) hbits (by decide)
    (.inl rfl) h2 (by decide) (Nat.lt_succ_self _)
  obtain ⟨frames, t, e4, _⟩ := e3 br br' e1 e2
  exact ⟨s :: carriers b, s, X, shown, by simp, hp, rfl, by omega, h2, hbits, br, br', frames, t, e1, e2, e4⟩

open Video Video.Spec in
/-- The same stream in PES packets of known length: the hypotheses of `C127_known_partial` are met. -/
example : ∃ (ps : List Pkt) (cs : List UInt8) (l : List PES.Item) (i : PES.Item) (X : List Bool) (shown : List Image), Bears 0x21 ps cs ∧
    (∀ i ∈ l, i.WF) ∧ i.WF ∧ i.enc = [] ++ i.enc ∧ i.enc ≠ [] ∧ bitsOfBytes cs = (l.map PES.Item.enc).flatten ++ [] ∧
    bitsOfBytes (PES.seen [] l).flatten = zeros (8 * 1) ++ (X ++ (bitsOf 32 (0x100 + 0) ++ zeros (7 * X.length))) ∧
    Begun 1 1 0 none none (8 * 1) 2 X shown ∧ 1 ≤ shown.length := by
  obtain ⟨bits, imgs, h, _⟩ := ExStream.stream
  obtain ⟨X, Y, shown, h1, h2, h3, h4, h5, h6⟩ := C126_stream_partial (lead := 1) h 2 (by decide)
  obtain ⟨d, hd⟩ := bytes_of (l := zeros (8 * 1) ++ (X ++ (bitsOf 32 (0x100 + 0) ++ zeros (7 * X.length)))) (by
    simp only [List.length_append, length_bitsOf, zeros, List.length_replicate]
    omega)
  have hi : ∀ b : UInt8, (PES.Item.media 0xe0 {} [b]).WF := fun b =>
    ⟨by decide, by decide, by decide +kernel, by decide +kernel, by
      show 3 + PES.Spec.Hdr.dataLen {} + 1 < 65536
      decide +kernel⟩
  have hseen : ∀ (d : List UInt8) prev, (PES.seen prev (d.map fun b => PES.Item.media 0xe0 {} [b])).flatten = d := by
    intro d
    induction d with
    | nil => intro _; rfl
    | cons b d ih => intro prev; show [b] ++ (PES.seen [b] (d.map fun b => PES.Item.media 0xe0 {} [b])).flatten = _; rw [ih]; rfl
  have hw : PesUnit.WF ⟨d.map fun b => pkt [b], none⟩ := by
    refine ⟨fun p hp => ?_, fun p hp => by cases hp⟩
    obtain ⟨b, _, rfl⟩ := List.mem_map.mp hp
    exact (closedUnit_wf [b] (by show 1 < 65533; decide)).1 _ (List.mem_cons_self ..)
  obtain ⟨ps, c, hB, hc⟩ := exists_bears_unit 0x21 (by decide) _ hw
  refine ⟨ps, c, d.map fun b => .media 0xe0 {} [b], .media 0xe0 {} [1], X, shown, hB, fun i hm => ?_, hi 1, rfl, by decide +kernel, ?_, ?_, h2, by omega⟩
  · obtain ⟨b, _, rfl⟩ := List.mem_map.mp hm
    exact hi b
  · rw [hc]
    simp only [PesUnit.enc, List.append_nil, List.flatMap_map, List.map_map, List.flatMap_def]
    rfl
  · rw [hseen, hd]

end Mpeg.Pipe
