/-
C149 on the whole chain: recordings of a transport stream that begin at any packet, and lost packets.
-/
import Verif.Pipe.GapChain
import Verif.Video.JoinableProps
set_option linter.all false
namespace Mpeg.Pipe
open PES.Spec TS.Spec Video.Spec

/-! ### a recording carries the end of the elementary stream -/

def cutEnd (k : Nat) (l : List (Pkt × List UInt8)) : List (Pkt × List UInt8) := ((l.reverse.dropWhile fun x => !TS.starts k x.1).drop 1).reverse

theorem cutEnd_append {k : Nat} (a b : List (Pkt × List UInt8)) (hb : b.dropWhile (fun x => !TS.starts k x.1) = b) : cutEnd k b <:+ cutEnd k (a ++ b) := by
  cases b with
  | nil => exact ⟨_, List.append_nil _⟩
  | cons x b =>
    have hx : TS.starts k x.1 = true := by
      cases h : TS.starts k x.1 with
      | true => rfl
      | false =>
        rw [List.dropWhile_cons_of_pos (by rw [h]; rfl)] at hb
        have := (List.dropWhile_sublist (p := fun x => !TS.starts k x.1) (l := b)).length_le
        rw [hb, List.length_cons] at this
        omega
    unfold cutEnd
    have hne : ((x :: b).reverse.dropWhile fun x => !TS.starts k x.1) ≠ [] := by
      intro h
      have h1 := List.takeWhile_append_dropWhile (p := fun x => !TS.starts k x.1) (l := (x :: b).reverse)
      rw [h, List.append_nil] at h1
      have h2 : x ∈ (x :: b).reverse.takeWhile fun x => !TS.starts k x.1 := by rw [h1]; simp
      have h3 : (!TS.starts k x.1) = true := by
        have := List.all_takeWhile (p := fun x : Pkt × List UInt8 => !TS.starts k x.1) (l := (x :: b).reverse)
        exact List.all_eq_true.mp this x h2
      rw [hx] at h3
      cases h3
    rw [List.reverse_append, List.dropWhile_append, if_neg (by rw [List.isEmpty_iff]; exact hne)]
    cases hd : ((x :: b).reverse.dropWhile fun x => !TS.starts k x.1) with
    | nil => exact absurd hd hne
    | cons y z =>
      refine ⟨a, ?_⟩
      simp

theorem core_cons (k : Nat) (x : Pkt × List UInt8) (l : List (Pkt × List UInt8)) : core k l <:+ core k (x :: l) := by
  show cutEnd k (l.dropWhile fun x => !TS.starts k x.1) <:+ cutEnd k ((x :: l).dropWhile fun x => !TS.starts k x.1)
  cases h : TS.starts k x.1 with
  | false =>
    rw [List.dropWhile_cons_of_pos (by rw [h]; rfl)]
  | true =>
    rw [List.dropWhile_cons_of_neg (by rw [h]; decide)]
    have e : x :: l = (x :: l.takeWhile fun x => !TS.starts k x.1) ++ l.dropWhile fun x => !TS.starts k x.1 := by
      rw [List.cons_append, List.takeWhile_append_dropWhile]
    rw [e]
    refine cutEnd_append _ _ ?_
    clear e
    induction l with
    | nil => rfl
    | cons y l ih =>
      cases hy : TS.starts k y.1 with
      | false => rw [List.dropWhile_cons_of_pos (by rw [hy]; rfl)]; exact ih
      | true => rw [List.dropWhile_cons_of_neg (by rw [hy]; decide), List.dropWhile_cons_of_neg (by rw [hy]; decide)]

theorem core_drop (k : Nat) : ∀ (n : Nat) (l : List (Pkt × List UInt8)), core k (l.drop n) <:+ core k l
  | 0, l => List.suffix_refl _
  | n + 1, [] => List.suffix_refl _
  | n + 1, x :: l => (core_drop k n l).trans (core_cons k x l)

/-- **C149**, transport streams: the codings of the images are carried by any transport stream (in PES packets of unknown length, next to any other
PIDs).

* The recording begins at any packet `n`: as far as the elementary stream is recorded, the pictures from the next one on are returned.
* Any packets are lost: if the pictures from `i` on are complete, and of what precedes only parts `ms` are received, then the application gets to
  picture `i` with at most one wrong stop for every part, and all pictures from there on are returned. -/
theorem C149_transport {w h : Nat} (hw0 : w % 4096 ≠ 0) (hw : w < 16384) (hh0 : 0 < h) (hh : h ≤ 2800) (Ps : List Image) (hP : ∀ P ∈ Ps, EightBit P) :
    ∃ bs : List (List Bool), bs.length = Ps.length ∧ (∀ b ∈ bs, b.length % 8 = 0 ∧ b.take 32 = bitsOf 32 0x1B3) ∧
      ∀ (k : Nat) (l : List (Pkt × List UInt8)) (rest : List Bool), (∀ x ∈ l, Piece k x.1 x.2) →
        bitsOfBytes ((core k l).flatMap (·.2)) = bs.flatten ++ (bitsOf 32 0x1B7 ++ rest) →
      ∀ (fuel fuel' fuelV kV : Nat), l.length < fuel → l.length < fuel' → bs.flatten.length < fuelV → 2 ≤ kV → ∀ (i : Nat), i < Ps.length →
      (∀ (n m : Nat), m + ((core k (l.drop n)).flatMap (·.2)).length = ((core k l).flatMap (·.2)).length →
        8 * m ≤ picStart bs i → (∀ j, j < i → picStart bs j < 8 * m) →
        (∃ br br', IsSource (puReads fuel k (stream (l.drop n))) br ∧ IsSource (pesReads fuel' br) br') ∧
        ∀ br br', IsSource (puReads fuel k (stream (l.drop n))) br → IsSource (pesReads fuel' br) br' →
          ∃ s1, Video.VS.lift (Video.alignTo 0x1B3) (Video.VS.new br') = (.ok (), s1) ∧
            ReturnsAll (mbCount w) (mbCount h) fuelV kV (Ps.drop i) (Video.VS.new br') s1 rest) ∧
      (∀ (l' : List (Pkt × List UInt8)) (ms : List (List Bool)), l'.Sublist l →
        (∀ m ∈ ms, ∃ b ∈ bs, ∃ p q, b = p ++ (m ++ q) ∧ p ≠ []) → ms.flatten.length % 8 = 0 →
        bitsOfBytes ((core k l').flatMap (·.2)) = ms.flatten ++ ((bs.drop i).flatten ++ (bitsOf 32 0x1B7 ++ rest)) →
        (∃ br br', IsSource (puReads fuel k (stream l')) br ∧ IsSource (pesReads fuel' br) br') ∧
        ∀ br br', IsSource (puReads fuel k (stream l')) br → IsSource (pesReads fuel' br) br' →
          ∃ c br1, c ≤ ms.length ∧ Finds 0xB3 c br' br1 ∧
            ReturnsAll (mbCount w) (mbCount h) fuelV kV (Ps.drop i) (Video.VS.new br') { Video.VS.new br' with br := br1 } rest) := by
  obtain ⟨bs, hlen, hst, _, hjoin, hgap⟩ := Video.C149 hw0 hw hh0 hh Ps hP
  refine ⟨bs, hlen, hst, fun k l rest hp hs fuel fuel' fuelV kV hf hf' hfv hk i hi => ?_⟩
  have src : ∀ l' : List (Pkt × List UInt8), l'.Sublist l →
      (∃ br br', IsSource (puReads fuel k (stream l')) br ∧ IsSource (pesReads fuel' br) br') ∧
      ∀ br br', IsSource (puReads fuel k (stream l')) br → IsSource (pesReads fuel' br) br' →
        br' = ⟨bitsOfBytes ((core k l').flatMap (·.2)), 0, .eof, []⟩ := by
    intro l' hl
    obtain ⟨⟨br0, hbr0⟩, hrd⟩ := C123_units hp hl hf hf'
    have key : ∀ br, IsSource (puReads fuel k (stream l')) br →
        IsSource (pesReads fuel' br) ⟨bitsOfBytes ((core k l').flatMap (·.2)), 0, .eof, []⟩ := by
      intro br hbr
      refine ⟨_, .eof, [], rfl, fun ns _ => ?_⟩
      rw [hrd br hbr ns, deliver_segs]
    exact ⟨⟨br0, _, hbr0, key br0 hbr0⟩, fun br br' g1 g2 => g2.unique (key br g1)⟩
  have hfb : ∀ x : List Bool, fromBoundary (Video.VS.new ⟨x, 0, .eof, []⟩).br = x := by
    intro x
    show List.drop (padding 0) x = x
    rw [show padding 0 = 0 by decide]
    rfl
  refine ⟨fun n m hm hn hj => ?_, fun l' ms hl hms h8 hs' => ?_⟩
  · obtain ⟨a1, a2⟩ := src (l.drop n) (List.drop_sublist n l)
    refine ⟨a1, fun br br' g1 g2 => ?_⟩
    obtain rfl := a2 br br' g1 g2
    obtain ⟨t, ht⟩ := core_drop k n l
    have e : bitsOfBytes ((core k l).flatMap (·.2)) = bitsOfBytes (t.flatMap (·.2)) ++ bitsOfBytes ((core k (l.drop n)).flatMap (·.2)) := by
      rw [← ht, List.flatMap_append, bitsOfBytes_append]
    have el : ((core k l).flatMap (·.2)).length = (t.flatMap (·.2)).length + ((core k (l.drop n)).flatMap (·.2)).length := by
      rw [← ht, List.flatMap_append, List.length_append]
    have em : (bitsOfBytes (t.flatMap (·.2))).length = 8 * m := by
      rw [length_bitsOfBytes]; omega
    have hle : 8 * m ≤ bs.flatten.length := by
      refine Nat.le_trans hn ?_
      rw [Video.Universal.flatten_split bs i, List.length_append]
      exact Nat.le_add_right _ _
    have ed : bitsOfBytes ((core k (l.drop n)).flatMap (·.2)) = bs.flatten.drop (8 * m) ++ (bitsOf 32 0x1B7 ++ rest) := by
      rw [← List.drop_append_of_le_length hle, ← hs, e, List.drop_left' em]
    exact hjoin i m _ rest fuelV kV hi hn hj (by rw [hfb, ed]) hfv hk
  · obtain ⟨a1, a2⟩ := src l' hl
    refine ⟨a1, fun br br' g1 g2 => ?_⟩
    obtain rfl := a2 br br' g1 g2
    exact hgap i ms (Video.VS.new ⟨bitsOfBytes ((core k l').flatMap (·.2)), 0, .eof, []⟩) rest fuelV kV hi hms h8 (by rw [hfb, hs']) hfv hk

/-- **C149**, program streams: the codings of the images are carried by packs of any sizes.

* The recording begins at any pack `n`: the pictures from the next one on are returned.
* Any packs are lost: as for transport streams. -/
theorem C149_program {w h : Nat} (hw0 : w % 4096 ≠ 0) (hw : w < 16384) (hh0 : 0 < h) (hh : h ≤ 2800) (Ps : List Image) (hP : ∀ P ∈ Ps, EightBit P) :
    ∃ bs : List (List Bool), bs.length = Ps.length ∧ (∀ b ∈ bs, b.length % 8 = 0 ∧ b.take 32 = bitsOf 32 0x1B3) ∧
      ∀ (ps : List PS.Spec.Pack) (tail rest : List Bool), (∀ p ∈ ps, p.WF ∧ p.items ≠ []) →
        bitsOfBytes (ps.flatMap PS.Spec.Pack.payload) = bs.flatten ++ (bitsOf 32 0x1B7 ++ rest) →
      ∀ (fuelV kV : Nat), bs.flatten.length < fuelV → 2 ≤ kV → ∀ (i : Nat), i < Ps.length →
      (∀ n, 8 * ((ps.take n).flatMap PS.Spec.Pack.payload).length ≤ picStart bs i →
        (∀ j, j < i → picStart bs j < 8 * ((ps.take n).flatMap PS.Spec.Pack.payload).length) →
        (∃ br, IsSource (packReads (PS.Spec.encProgram (ps.drop n) ++ tail)) br) ∧
        ∀ br, IsSource (packReads (PS.Spec.encProgram (ps.drop n) ++ tail)) br →
          ∃ s1, Video.VS.lift (Video.alignTo 0x1B3) (Video.VS.new br) = (.ok (), s1) ∧
            ReturnsAll (mbCount w) (mbCount h) fuelV kV (Ps.drop i) (Video.VS.new br) s1 rest) ∧
      (∀ (ps' : List PS.Spec.Pack) (ms : List (List Bool)), ps'.Sublist ps →
        (∀ m ∈ ms, ∃ b ∈ bs, ∃ p q, b = p ++ (m ++ q) ∧ p ≠ []) → ms.flatten.length % 8 = 0 →
        bitsOfBytes (ps'.flatMap PS.Spec.Pack.payload) = ms.flatten ++ ((bs.drop i).flatten ++ (bitsOf 32 0x1B7 ++ rest)) →
        (∃ br, IsSource (packReads (PS.Spec.encProgram ps' ++ tail)) br) ∧
        ∀ br, IsSource (packReads (PS.Spec.encProgram ps' ++ tail)) br →
          ∃ c br1, c ≤ ms.length ∧ Finds 0xB3 c br br1 ∧
            ReturnsAll (mbCount w) (mbCount h) fuelV kV (Ps.drop i) (Video.VS.new br) { Video.VS.new br with br := br1 } rest) := by
  obtain ⟨bs, hlen, hst, _, hjoin, hgap⟩ := Video.C149 hw0 hw hh0 hh Ps hP
  refine ⟨bs, hlen, hst, fun ps tail rest hp hs fuelV kV hfv hk i hi => ?_⟩
  refine ⟨fun n hn hj => ?_, fun ps' ms hl hms h8 hs' => ?_⟩
  · have hps := pack_source (ps.drop n) (fun p h => (hp p (List.mem_of_mem_drop h)).1) (fun p h => (hp p (List.mem_of_mem_drop h)).2) tail
    refine ⟨⟨_, hps⟩, fun br g => ?_⟩
    obtain rfl := g.unique hps
    have hle : 8 * ((ps.take n).flatMap PS.Spec.Pack.payload).length ≤ bs.flatten.length := by
      refine Nat.le_trans hn ?_
      rw [Video.Universal.flatten_split bs i, List.length_append]
      exact Nat.le_add_right _ _
    have ed : bitsOfBytes ((ps.drop n).flatMap PS.Spec.Pack.payload) =
        bs.flatten.drop (8 * ((ps.take n).flatMap PS.Spec.Pack.payload).length) ++ (bitsOf 32 0x1B7 ++ rest) := by
      have e : bitsOfBytes (ps.flatMap PS.Spec.Pack.payload) = bitsOfBytes ((ps.take n).flatMap PS.Spec.Pack.payload) ++
          bitsOfBytes ((ps.drop n).flatMap PS.Spec.Pack.payload) := by
        rw [← bitsOfBytes_append, ← List.flatMap_append, List.take_append_drop]
      rw [← List.drop_append_of_le_length hle, ← hs, e, List.drop_left' (length_bitsOfBytes _)]
    refine hjoin i _ _ rest fuelV kV hi hn hj ?_ hfv hk
    rw [← ed]
    show List.drop (padding 0) _ = _
    rw [show padding 0 = 0 by decide]
    rfl
  · have hps := pack_source ps' (fun p h => (hp p (hl.subset h)).1) (fun p h => (hp p (hl.subset h)).2) tail
    refine ⟨⟨_, hps⟩, fun br g => ?_⟩
    obtain rfl := g.unique hps
    refine hgap i ms (Video.VS.new _) rest fuelV kV hi hms h8 ?_ hfv hk
    rw [← hs']
    show List.drop (padding 0) _ = _
    rw [show padding 0 = 0 by decide]
    rfl

/-! ### concrete cases -/

/-- The recording begins behind the first pack, which has one byte of the first picture. -/
example : ∃ (ps : List PS.Spec.Pack) (br : BR) (s1 : Video.VS) (fuel : Nat), (∀ p ∈ ps, p.WF ∧ p.items ≠ []) ∧
    IsSource (packReads (PS.Spec.encProgram (ps.drop 1) ++ [])) br ∧
    Video.VS.lift (Video.alignTo 0x1B3) (Video.VS.new br) = (.ok (), s1) ∧ ReturnsAll 45 36 fuel 2 (Video.JoinEx.imgs.drop 1) (Video.VS.new br) s1 [] := by
  obtain ⟨bs, hl, hs, hall⟩ := C149_program (w := 720) (h := 576) (by decide) (by decide) (by decide) (by decide) Video.JoinEx.imgs Video.JoinEx.imgs_ok
  obtain ⟨b0, b1, rfl⟩ : ∃ b0 b1, bs = [b0, b1] := by
    match bs, hl with
    | [b0, b1], _ => exact ⟨b0, b1, rfl⟩
  have h0 := Video.JoinEx.long (hs b0 (.head _)).2
  have h8 := (hs b0 (.head _)).1
  have h8' := (hs b1 (.tail _ (.head _))).1
  obtain ⟨x, hx⟩ := bytes_of (l := b0.take 8) (by rw [List.length_take]; omega)
  obtain ⟨y, hy⟩ := bytes_of (l := b0.drop 8 ++ (b1 ++ (bitsOf 32 0x1B7 ++ []))) (by
    simp only [List.length_append, List.length_drop, length_bitsOf, List.length_nil]; omega)
  have hxl : x.length = 1 := by
    have := congrArg List.length hx
    rw [length_bitsOfBytes, List.length_take] at this
    omega
  obtain ⟨i1, i2⟩ := packsOf_spec 1000 (by decide) y.length y (Nat.le_refl _)
  have e2 : picStart [b0, b1] 1 = b0.length := by simp [picStart]
  have hpay : (vpack x).payload = x := by simp [vpack, PS.Spec.Pack.payload, PS.Spec.Item.payload]
  have hps : ∀ p ∈ vpack x :: packsOf 1000 y.length y, p.WF ∧ p.items ≠ [] := by
    intro p hp
    rcases List.mem_cons.mp hp with rfl | hp
    · exact ⟨vpack_wf _ (by omega), by simp [vpack]⟩
    · exact i1 p hp
  have e1 : (((vpack x :: packsOf 1000 y.length y).take 1).flatMap PS.Spec.Pack.payload).length = 1 := by
    show (((vpack x).payload) ++ []).length = 1
    rw [hpay, List.append_nil, hxl]
  obtain ⟨⟨br, g1⟩, hret⟩ := (hall (vpack x :: packsOf 1000 y.length y) [] [] hps (by
      rw [List.flatMap_cons, i2, hpay, bitsOfBytes_append, hx, hy, ← List.append_assoc, List.take_append_drop]
      simp) ([b0, b1].flatten.length + 1) 2 (Nat.lt_succ_self _) (Nat.le_refl _) 1 (by decide)).1 1 (by rw [e1, e2]; omega) (fun j hj => by
      obtain rfl : j = 0 := by omega
      rw [e1]
      show 0 < 8
      omega)
  obtain ⟨s1, r1, r2⟩ := hret br g1
  exact ⟨_, br, s1, _, hps, g1, r1, r2⟩

theorem core_ends {a b : Pkt × List UInt8} {m : List (Pkt × List UInt8)} {k : Nat} (ha : TS.starts k a.1 = true) (hb : TS.starts k b.1 = true) :
    core k (a :: (m ++ [b])) = a :: m := by
  unfold core
  rw [List.dropWhile_cons_of_neg (by rw [ha]; decide)]
  simp only [List.reverse_cons, List.reverse_append, List.reverse_nil, List.nil_append, List.cons_append]
  rw [List.dropWhile_cons_of_neg (by rw [hb]; decide)]
  simp

theorem core_skip {m l : List (Pkt × List UInt8)} {k : Nat} (hm : ∀ x ∈ m, TS.starts k x.1 = false) : core k (m ++ l) = core k l := by
  induction m with
  | nil => rfl
  | cons x m ih =>
    rw [← ih fun y hy => hm y (.tail _ hy)]
    unfold core
    rw [List.cons_append, List.dropWhile_cons_of_pos (by rw [hm x (.head _)]; rfl)]

/-- The stream is sent in two PES packets, of which the first has only one byte, and the recording begins behind the first transport packet: the
second picture is returned. -/
example : ∃ (l : List (Pkt × List UInt8)) (br br' : BR) (s1 : Video.VS) (fuel : Nat), (∀ x ∈ l, Piece 0x21 x.1 x.2) ∧
    IsSource (puReads fuel 0x21 (stream (l.drop 1))) br ∧ IsSource (pesReads fuel br) br' ∧
    Video.VS.lift (Video.alignTo 0x1B3) (Video.VS.new br') = (.ok (), s1) ∧ ReturnsAll 45 36 fuel 2 (Video.JoinEx.imgs.drop 1) (Video.VS.new br') s1 [] := by
  obtain ⟨bs, hl, hs, hall⟩ := C149_transport (w := 720) (h := 576) (by decide) (by decide) (by decide) (by decide) Video.JoinEx.imgs Video.JoinEx.imgs_ok
  obtain ⟨b0, b1, rfl⟩ : ∃ b0 b1, bs = [b0, b1] := by
    match bs, hl with
    | [b0, b1], _ => exact ⟨b0, b1, rfl⟩
  have h0 := Video.JoinEx.long (hs b0 (.head _)).2
  have h8 := (hs b0 (.head _)).1
  have h8' := (hs b1 (.tail _ (.head _))).1
  let s : Pkt × List UInt8 := (tp true (openHead ++ []), [])
  have hp : Piece 0x21 s.1 s.2 := tp_first [] (by decide)
  let B := b0.drop 8 ++ (b1 ++ (bitsOf 32 0x1B7 ++ []))
  have hB : B.length % 8 = 0 := by
    simp only [B, List.length_append, List.length_drop, length_bitsOf, List.length_nil]; omega
  have hA : (b0.take 8).length = 8 := by rw [List.length_take]; omega
  let l := s :: (carriers (b0.take 8) ++ (s :: carriers B) ++ [s])
  have c0 : core 0x21 l = s :: (carriers (b0.take 8) ++ (s :: carriers B)) := core_ends rfl rfl
  have c1 : core 0x21 (l.drop 1) = s :: carriers B := by
    show core 0x21 (carriers (b0.take 8) ++ (s :: carriers B) ++ [s]) = _
    rw [List.append_assoc, core_skip fun x hx => (carriers_ok x hx).2]
    exact core_ends rfl rfl
  have e0 : (core 0x21 l).flatMap (·.2) = (carriers (b0.take 8)).flatMap (·.2) ++ (carriers B).flatMap (·.2) := by
    rw [c0, List.flatMap_cons, List.flatMap_append, List.flatMap_cons]; rfl
  have e1 : (core 0x21 (l.drop 1)).flatMap (·.2) = (carriers B).flatMap (·.2) := by
    rw [c1, List.flatMap_cons]; rfl
  have hcA : bitsOfBytes ((carriers (b0.take 8)).flatMap (·.2)) = b0.take 8 := carriers_bits (by rw [hA])
  have hlA : ((carriers (b0.take 8)).flatMap (·.2)).length = 1 := by
    have := congrArg List.length hcA
    rw [length_bitsOfBytes, hA] at this
    omega
  have hpl : ∀ x ∈ l, Piece 0x21 x.1 x.2 := by
    intro x hx
    simp only [l, List.mem_cons, List.mem_append, List.not_mem_nil, or_false] at hx
    rcases hx with rfl | (hx | rfl | hx) | rfl
    · exact hp
    · exact (carriers_ok x hx).1
    · exact hp
    · exact (carriers_ok x hx).1
    · exact hp
  have e2 : picStart [b0, b1] 1 = b0.length := by simp [picStart]
  obtain ⟨⟨br, br', g1, g2⟩, hret⟩ := (hall 0x21 l [] hpl (by
      rw [e0, bitsOfBytes_append, hcA, carriers_bits hB]
      simp only [B]
      rw [← List.append_assoc, List.take_append_drop]
      simp) (l.length + [b0, b1].flatten.length + 1) (l.length + [b0, b1].flatten.length + 1) (l.length + [b0, b1].flatten.length + 1) 2
    (by omega) (by omega) (by omega) (Nat.le_refl _) 1 (by decide)).1 1 1 (by rw [e0, e1, List.length_append, hlA])
    (by rw [e2]; omega) (fun j hj => by
      obtain rfl : j = 0 := by omega
      show 0 < 8
      omega)
  obtain ⟨s1, r1, r2⟩ := hret br br' g1 g2
  exact ⟨l, br, br', s1, _, hpl, g1, g2, r1, r2⟩

/-- The transport packet with the first byte of the first picture is lost. -/
example : ∃ (l l' : List (Pkt × List UInt8)) (br br' : BR) (c : Nat) (br1 : BR) (fuel : Nat), (∀ x ∈ l, Piece 0x21 x.1 x.2) ∧ l'.Sublist l ∧ l' ≠ l ∧
    IsSource (puReads fuel 0x21 (stream l')) br ∧ IsSource (pesReads fuel br) br' ∧ c ≤ 1 ∧ Finds 0xB3 c br' br1 ∧
    ReturnsAll 45 36 fuel 2 (Video.JoinEx.imgs.drop 1) (Video.VS.new br') { Video.VS.new br' with br := br1 } [] := by
  obtain ⟨bs, hl, hs, hall⟩ := C149_transport (w := 720) (h := 576) (by decide) (by decide) (by decide) (by decide) Video.JoinEx.imgs Video.JoinEx.imgs_ok
  obtain ⟨b0, b1, rfl⟩ : ∃ b0 b1, bs = [b0, b1] := by
    match bs, hl with
    | [b0, b1], _ => exact ⟨b0, b1, rfl⟩
  have h0 := Video.JoinEx.long (hs b0 (.head _)).2
  have h8 := (hs b0 (.head _)).1
  have h8' := (hs b1 (.tail _ (.head _))).1
  let sl : SliceData := (allSlices [Video.ExStream.lossGroup.sent]).head (by decide +kernel)
  obtain ⟨l, p1, p2, p3⟩ := packets_exist [⟨some sl, b0.take 8⟩, ⟨none, b0.drop 8⟩] (fun s hs => by
      simp only [List.mem_cons, List.not_mem_nil, or_false] at hs
      rcases hs with rfl | rfl
      · show (b0.take 8).length % 8 = 0
        rw [List.length_take]; omega
      · show (b0.drop 8).length % 8 = 0
        rw [List.length_drop]; omega) []
    (b1 ++ (bitsOf 32 0x1B7 ++ [])) rfl (by simp only [List.length_append, length_bitsOf, List.length_nil]; omega)
  obtain ⟨l', q1, q2⟩ := p3 [false]
  have q3 : bitsOfBytes ((core 0x21 l').flatMap (·.2)) = b0.drop 8 ++ (b1 ++ (bitsOf 32 0x1B7 ++ [])) := by
    rw [q2]; simp [keep]
  have p4 : bitsOfBytes ((core 0x21 l).flatMap (·.2)) = [b0, b1].flatten ++ (bitsOf 32 0x1B7 ++ []) := by
    rw [p2]
    simp only [List.flatMap_cons, List.flatMap_nil, List.nil_append, List.append_nil]
    rw [List.take_append_drop]
    simp
  obtain ⟨⟨br, br', g1, g2⟩, hret⟩ := (hall 0x21 l [] p1 p4 (l.length + [b0, b1].flatten.length + 1) (l.length + [b0, b1].flatten.length + 1)
    (l.length + [b0, b1].flatten.length + 1) 2 (by omega) (by omega) (by omega) (Nat.le_refl _) 1 (by decide)).2 l' [b0.drop 8] q1 (fun m hm => by
      obtain rfl := List.mem_singleton.mp hm
      refine ⟨b0, .head _, b0.take 8, [], by rw [List.append_nil, List.take_append_drop], fun h => ?_⟩
      have := congrArg List.length h
      rw [List.length_take, List.length_nil] at this
      omega) (by simp only [List.flatten_cons, List.flatten_nil, List.append_nil, List.length_drop]; omega) (by rw [q3]; simp)
  obtain ⟨c, br1, r1, r2, r3⟩ := hret br br' g1 g2
  refine ⟨l, l', br, br', c, br1, _, p1, q1, fun h => ?_, g1, g2, r1, r2, r3⟩
  rw [h, p4] at q3
  have := congrArg List.length q3
  simp only [List.flatten_cons, List.flatten_nil, List.length_append, List.length_drop, List.length_nil] at this
  omega

end Mpeg.Pipe
